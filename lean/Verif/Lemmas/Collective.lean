/-
Collective operations: executions are confluent, and programs of groups of processes compose.
-/
import Verif.Model.Collective

namespace Ovk.Coll
variable {κ : Type} [DecidableEq κ] {n : Nat} {mem : κ → Fin n → Bool}

omit [DecidableEq κ] in
theorem mem_members {c : κ} {p : Fin n} : p ∈ members mem c ↔ mem c p = true := by
  simp [members]

theorem step_iff {x y : Fin n → Prog κ} {c : κ} : step mem x c = some y ↔
    (∃ q, mem c q = true) ∧ ∃ l, (∀ p, mem c p = true → ∃ b, (x p).at c = some (l, b)) ∧
      ∃ r, (r = true ↔ ∃ p, mem c p = true ∧ (x p).at c = some (l, true)) ∧
        y = fun p => if mem c p then (x p).after r else x p := by
  unfold step
  cases hm : members mem c with
  | nil =>
    refine ⟨fun h => (by cases h), ?_⟩
    rintro ⟨⟨q, hq⟩, -⟩
    rw [← mem_members (mem := mem), hm] at hq
    cases hq
  | cons q qs =>
    have hq : mem c q = true := mem_members.1 (by rw [hm]; simp)
    dsimp only
    rw [← hm]
    constructor
    · intro h
      cases ha : (x q).at c with
      | none => rw [ha] at h; cases h
      | some lb =>
        obtain ⟨l, b0⟩ := lb
        rw [ha] at h
        dsimp only at h
        split at h
        · rename_i hall
          cases h
          rw [List.all_eq_true] at hall
          have h1 : ∀ p, mem c p = true → ∃ b, (x p).at c = some (l, b) := by
            intro p hp
            have := hall p (mem_members.2 hp)
            cases hx : (x p).at c with
            | none => rw [hx] at this; simp at this
            | some y =>
              obtain ⟨l', b⟩ := y
              rw [hx] at this
              simp at this
              exact ⟨b, by rw [this]⟩
          refine ⟨⟨q, hq⟩, l, h1, _, ?_, rfl⟩
          rw [List.any_eq_true]
          constructor
          · rintro ⟨p, hp, hb⟩
            obtain ⟨b, e⟩ := h1 p (mem_members.1 hp)
            rw [e] at hb
            simp at hb
            exact ⟨p, mem_members.1 hp, by rw [e, hb]⟩
          · rintro ⟨p, hp, e⟩
            exact ⟨p, mem_members.2 hp, by rw [e]; rfl⟩
        · cases h
    · rintro ⟨-, l, h1, r, hr, rfl⟩
      obtain ⟨b, e⟩ := h1 q hq
      rw [e]
      dsimp only
      rw [if_pos ?_]
      · have : ((members mem c).any fun p => ((x p).at c).any fun y => y.2) = r := by
          rw [Bool.eq_iff_iff, hr, List.any_eq_true]
          constructor
          · rintro ⟨p, hp, hb⟩
            obtain ⟨b, e⟩ := h1 p (mem_members.1 hp)
            rw [e] at hb
            simp at hb
            exact ⟨p, mem_members.1 hp, by rw [e, hb]⟩
          · rintro ⟨p, hp, e⟩
            exact ⟨p, mem_members.2 hp, by rw [e]; rfl⟩
        rw [this]
      · rw [List.all_eq_true]
        intro p hp
        obtain ⟨b, e⟩ := h1 p (mem_members.1 hp)
        rw [e]
        simp

theorem at_unique {x : Prog κ} {c c' : κ} {a b : Kind × Bool} (h : x.at c = some a) (h' : x.at c' = some b) :
    c = c' := by
  cases x with
  | ret t => cases h
  | coll d l f k =>
    simp only [Prog.at, Option.ite_none_right_eq_some] at h h'
    exact h.1.symm.trans h'.1

/-- Operations on two communicators that can complete concern different processes, so their order does not matter. -/
theorem diamond {x y z : Fin n → Prog κ} {c c' : κ} (hc : c ≠ c') (h : step mem x c = some y)
    (h' : step mem x c' = some z) : ∃ w, step mem y c' = some w ∧ step mem z c = some w := by
  obtain ⟨hq, l, hl, r, hr, rfl⟩ := step_iff.1 h
  obtain ⟨hq', l', hl', r', hr', rfl⟩ := step_iff.1 h'
  have hd : ∀ p, mem c p = true → mem c' p = true → False := by
    intro p h1 h2
    obtain ⟨b, e⟩ := hl p h1
    obtain ⟨b', e'⟩ := hl' p h2
    exact hc (at_unique e e')
  have hn : ∀ p, mem c' p = true → mem c p = false := fun p hp => by
    cases he : mem c p with
    | false => rfl
    | true => exact (hd p he hp).elim
  have hn' : ∀ p, mem c p = true → mem c' p = false := fun p hp => by
    cases he : mem c' p with
    | false => rfl
    | true => exact (hd p hp he).elim
  refine ⟨fun p => if mem c' p then (x p).after r' else if mem c p then (x p).after r else x p,
    step_iff.2 ⟨hq', l', fun p hp => ?_, r', ?_, ?_⟩, step_iff.2 ⟨hq, l, fun p hp => ?_, r, ?_, ?_⟩⟩
  · simp only [hn p hp]; exact hl' p hp
  · rw [hr']
    refine exists_congr fun p => and_congr_right fun hp => ?_
    simp only [hn p hp]; rfl
  · funext p
    cases h1 : mem c' p
    · simp
    · simp [hn p h1]
  · simp only [hn' p hp]; exact hl p hp
  · rw [hr]
    refine exists_congr fun p => and_congr_right fun hp => ?_
    simp only [hn' p hp]; rfl
  · funext p
    cases h1 : mem c p
    · simp
    · simp [hn' p h1]

/-- All processes have ended. -/
def Done (x : Fin n → Prog κ) : Prop := ∀ p, ∃ t, x p = .ret t

theorem done_step {x : Fin n → Prog κ} (h : Done x) (c : κ) : step mem x c = none := by
  cases e : step mem x c with
  | none => rfl
  | some y =>
    obtain ⟨⟨q, hq⟩, l, hl, -⟩ := step_iff.1 e
    obtain ⟨b, hb⟩ := hl q hq
    obtain ⟨t, ht⟩ := h q
    rw [ht] at hb
    cases hb

/-- If one execution ends, an execution that has started otherwise can go on to the same end, with the same number of
operations in total. -/
theorem confluent : ∀ (cs : List κ) {x z : Fin n → Prog κ}, run mem x cs = some z → Done z →
    ∀ {c : κ} {y : Fin n → Prog κ}, step mem x c = some y →
      ∃ cs', run mem y cs' = some z ∧ cs.length = cs'.length + 1 := by
  intro cs
  induction cs with
  | nil =>
    intro x z h hz c y hs
    cases h
    rw [done_step hz] at hs
    cases hs
  | cons a cs ih =>
    intro x z h hz c y hs
    unfold run at h
    obtain ⟨w, hw, hr⟩ := Option.bind_eq_some_iff.1 h
    by_cases hac : a = c
    · subst hac
      rw [hw] at hs
      cases hs
      exact ⟨cs, hr, rfl⟩
    · obtain ⟨v, h1, h2⟩ := diamond hac hw hs
      obtain ⟨cs', h3, h4⟩ := ih hr hz h1
      refine ⟨a :: cs', ?_, by simp [h4]⟩
      unfold run
      rw [h2, Option.bind_some, h3]

theorem confluent_run (cs : List κ) {x z : Fin n → Prog κ} (h : run mem x cs = some z) (hz : Done z) :
    ∀ (ds : List κ) {y : Fin n → Prog κ}, run mem x ds = some y →
      ∃ cs', run mem y cs' = some z ∧ cs.length = ds.length + cs'.length := by
  intro ds
  induction ds generalizing x cs with
  | nil => intro y hy; cases hy; exact ⟨cs, h, by simp⟩
  | cons d ds ih =>
    intro y hy
    unfold run at hy
    obtain ⟨w, hw, hr⟩ := Option.bind_eq_some_iff.1 hy
    obtain ⟨cs', h1, h2⟩ := confluent cs h hz hw
    obtain ⟨cs'', h3, h4⟩ := ih cs' h1 hr
    exact ⟨cs'', h3, by simp; omega⟩

/-! ### Programs of groups -/

def Leads (mem : κ → Fin n → Bool) (x y : Fin n → Prog κ) : Prop := ∃ cs, run mem x cs = some y

theorem run_append : ∀ (cs ds : List κ) (x : Fin n → Prog κ),
    run mem x (cs ++ ds) = (run mem x cs).bind fun y => run mem y ds := by
  intro cs
  induction cs with
  | nil => intro ds x; rfl
  | cons c cs ih =>
    intro ds x
    show ((step mem x c).bind fun y => run mem y (cs ++ ds)) =
      ((step mem x c).bind fun y => run mem y cs).bind fun y => run mem y ds
    rw [Option.bind_assoc]
    congr 1
    funext y
    exact ih ds y

theorem Leads.refl (x : Fin n → Prog κ) : Leads mem x x := ⟨[], rfl⟩

theorem Leads.trans {x y z : Fin n → Prog κ} (h : Leads mem x y) (h' : Leads mem y z) : Leads mem x z := by
  obtain ⟨cs, h⟩ := h
  obtain ⟨ds, h'⟩ := h'
  exact ⟨cs ++ ds, by rw [run_append, h, Option.bind_some, h']⟩

omit [DecidableEq κ] in
theorem Prog.bind_assoc (a : Prog κ) (f g : Bool → Prog κ) : (a.bind f).bind g = a.bind fun t => (f t).bind g := by
  induction a with
  | ret t => rfl
  | coll c l b k ih => exact congrArg (Prog.coll c l b) (funext fun r => ih r)

omit [DecidableEq κ] in
theorem Prog.bind_ret (a : Prog κ) : a.bind .ret = a := by
  induction a with
  | ret t => rfl
  | coll c l b k ih => exact congrArg (Prog.coll c l b) (funext fun r => ih r)

/-- Processes in `S` can run the programs `P` among themselves and end with `a`, whatever the others do and whatever
they do next. -/
def Runs (mem : κ → Fin n → Bool) (S : Fin n → Bool) (P : Fin n → Prog κ) (a : Fin n → Bool) : Prop :=
  ∀ (k : Fin n → Bool → Prog κ) (x : Fin n → Prog κ), (∀ p, S p = true → x p = (P p).bind (k p)) →
    Leads mem x fun p => if S p then k p (a p) else x p

variable {S : Fin n → Bool}

theorem Runs.ret (a : Fin n → Bool) : Runs mem S (fun p => .ret (a p)) a := by
  intro k x h
  have : (fun p => if S p then k p (a p) else x p) = x := by
    funext p
    split
    · rename_i hp; rw [h p hp]; rfl
    · rfl
  rw [this]
  exact .refl x

theorem Runs.congr {P Q : Fin n → Prog κ} {a b : Fin n → Bool} (h : Runs mem S P a)
    (hP : ∀ p, S p = true → P p = Q p) (ha : ∀ p, S p = true → a p = b p) : Runs mem S Q b := by
  intro k x hx
  have h1 := h k x fun p hp => by rw [hP p hp]; exact hx p hp
  have : (fun p => if S p then k p (a p) else x p) = fun p => if S p then k p (b p) else x p := by
    funext p
    split
    · rename_i hp; rw [ha p hp]
    · rfl
  rw [← this]
  exact h1

theorem Runs.bind {P : Fin n → Prog κ} {Q : Fin n → Bool → Prog κ} {a b : Fin n → Bool} (h : Runs mem S P a)
    (h' : Runs mem S (fun p => Q p (a p)) b) : Runs mem S (fun p => (P p).bind (Q p)) b := by
  intro k x hx
  have h1 := h (fun p t => (Q p t).bind (k p)) x fun p hp => by rw [hx p hp, Prog.bind_assoc]
  have h2 := h' k _ fun p hp => show (if S p then (Q p (a p)).bind (k p) else x p) = _ by rw [if_pos hp]
  have : (fun p => if S p then k p (b p) else if S p then (Q p (a p)).bind (k p) else x p) =
      fun p => if S p then k p (b p) else x p := by
    funext p; split <;> rfl
  rw [this] at h2
  exact h1.trans h2

theorem Runs.coll {c : κ} {l : Kind} {f : Fin n → Bool} {k : Fin n → Bool → Prog κ} {a : Fin n → Bool}
    (hS : ∀ p, mem c p = S p) {r : Bool} (hr : r = true ↔ ∃ p, S p = true ∧ f p = true)
    (h : Runs mem S (fun p => k p r) a) : Runs mem S (fun p => .coll c l (f p) (k p)) a := by
  intro k' x hx
  by_cases hne : ∃ q, S q = true
  · have hx' : ∀ p, S p = true → x p = .coll c l (f p) fun r => (k p r).bind (k' p) := hx
    have h1 : step mem x c = some fun p => if S p then (k p r).bind (k' p) else x p := by
      obtain ⟨q, hq⟩ := hne
      refine step_iff.2 ⟨⟨q, (hS q).trans hq⟩, l, fun p hp => ⟨f p, ?_⟩, r, ?_, ?_⟩
      · rw [hx' p ((hS p).symm.trans hp)]
        simp [Prog.at]
      · rw [hr]
        refine exists_congr fun p => ?_
        rw [hS]
        refine and_congr_right fun hp => ?_
        rw [hx' p hp]
        simp [Prog.at]
      · funext p
        rw [hS]
        split
        · rename_i hp; rw [hx' p hp]; rfl
        · rfl
    have h2 := h k' (fun p => if S p then (k p r).bind (k' p) else x p) fun p hp => by simp only [hp]; rfl
    have : (fun p => if S p then k' p (a p) else if S p then (k p r).bind (k' p) else x p) =
        fun p => if S p then k' p (a p) else x p := by
      funext p; split <;> rfl
    rw [this] at h2
    exact Leads.trans ⟨[c], by unfold run; rw [h1]; rfl⟩ h2
  · have : (fun p => if S p then k' p (a p) else x p) = x := by
      funext p
      rw [if_neg fun hp => hne ⟨p, hp⟩]
    rw [this]
    exact .refl x

/-- Only the processes in `T` have anything to do. -/
theorem Runs.sub {T : Fin n → Bool} {P : Fin n → Prog κ} {a : Fin n → Bool} (h : Runs mem T P a)
    (hT : ∀ p, T p = true → S p = true) (hr : ∀ p, S p = true → T p = false → P p = .ret (a p)) :
    Runs mem S P a := by
  intro k x hx
  have h1 := h k x fun p hp => hx p (hT p hp)
  have : (fun p => if T p then k p (a p) else x p) = fun p => if S p then k p (a p) else x p := by
    funext p
    cases ht : T p with
    | true => rw [hT p ht]
    | false =>
      cases hs : S p with
      | false => rfl
      | true =>
        rw [hx p hs, hr p hs ht]
        rfl
  rw [← this]
  exact h1

theorem Runs.plain {c : κ} {l : Kind} (hS : ∀ p, mem c p = S p) :
    Runs mem S (fun _ => .plain c l) fun _ => false :=
  .coll hS (r := false) (by simp) (.ret _)

theorem Runs.check {c : κ} {f : Fin n → Bool} (hS : ∀ p, mem c p = S p) {r : Bool}
    (hr : r = true ↔ ∃ p, S p = true ∧ f p = true) : Runs mem S (fun p => .check c (f p)) fun _ => r :=
  .coll hS hr (.ret _)

/-- Programs that all throw or all do not are run one after the other. -/
theorem Runs.seq {P Q : Fin n → Prog κ} {a b : Bool} (h : Runs mem S P fun _ => a)
    (h' : Runs mem S Q fun _ => b) : Runs mem S (fun p => (P p).seq (Q p)) fun _ => a || b := by
  refine Runs.bind h ?_
  cases a with
  | true => exact .ret _
  | false => exact h'

theorem Runs.seqs_nil : Runs mem S (fun _ => .seqs []) fun _ => false := .ret _

theorem Runs.seqs_cons {P : Fin n → Prog κ} {L : Fin n → List (Prog κ)} {a b : Bool} (h : Runs mem S P fun _ => a)
    (h' : Runs mem S (fun p => .seqs (L p)) fun _ => b) :
    Runs mem S (fun p => .seqs (P p :: L p)) fun _ => a || b := Runs.seq h h'

theorem Runs.closing {A B : Fin n → Prog κ} {a b : Bool} (h : Runs mem S A fun _ => a) (h' : Runs mem S B fun _ => b) :
    Runs mem S (fun p => .closing (A p) (B p)) fun _ => b :=
  Runs.bind h' (Runs.bind h (.ret _))

/-- All executions go on until all processes have ended with `a`. -/
theorem Runs.executions {P : Fin n → Prog κ} {a : Fin n → Bool} (h : Runs mem (fun _ => true) P a) :
    ∃ N, ∀ cs x, run mem P cs = some x → cs.length ≤ N ∧
      ((∀ c, step mem x c = none) → ∀ p, x p = .ret (a p)) ∧
      (Done x → ∀ p, x p = .ret (a p)) := by
  obtain ⟨ds, hd⟩ := h (fun _ => .ret) P fun p _ => (Prog.bind_ret _).symm
  have hz : Done (fun p => if (fun _ : Fin n => true) p then Prog.ret (κ := κ) (a p) else P p) := fun p => ⟨a p, rfl⟩
  refine ⟨ds.length, fun cs x hx => ?_⟩
  obtain ⟨cs', h1, h2⟩ := confluent_run ds hd hz cs hx
  have key : (∀ c, step mem x c = none) → ∀ p, x p = .ret (a p) := by
    intro hs p
    cases cs' with
    | nil =>
      cases h1
      rfl
    | cons c cs' =>
      unfold run at h1
      rw [hs c] at h1
      cases h1
  exact ⟨by omega, key, fun hx => key fun c => done_step hx c⟩

end Ovk.Coll
