/-
Collective operations with values: executions are confluent, and programs of groups of processes compose.
-/
import Verif.Model.CollectiveValues

namespace Ovk.VColl
variable {κ K V α β γ : Type} [DecidableEq κ] [DecidableEq K] {n : Nat} {mem : κ → Fin n → Bool}
  {comb : K → List (Fin n × V) → Option V}

omit [DecidableEq κ] in
theorem mem_members {c : κ} {p : Fin n} : p ∈ members mem c ↔ mem c p = true := by
  simp [members]

/-- What the members contribute. -/
def gathered (mem : κ → Fin n → Bool) (c : κ) (f : Fin n → V) : List (Fin n × V) :=
  (members mem c).map fun p => (p, f p)

omit [DecidableEq κ] in
theorem gathered_congr {c : κ} {f g : Fin n → V} (h : ∀ p, mem c p = true → f p = g p) :
    gathered mem c f = gathered mem c g := by
  unfold gathered
  refine List.map_congr_left fun p hp => ?_
  rw [h p (mem_members.1 hp)]

theorem step_iff {x y : Fin n → Prog κ K V α} {c : κ} : step mem comb x c = some y ↔
    (∃ q, mem c q = true) ∧ ∃ l f, (∀ p, mem c p = true → (x p).at c = some (l, f p)) ∧
      ∃ r, comb l (gathered mem c f) = some r ∧ y = fun p => if mem c p then (x p).after r else x p := by
  unfold step
  cases hm : members mem c with
  | nil =>
    refine ⟨fun h => (by cases h), ?_⟩
    rintro ⟨⟨q, hq⟩, -⟩
    rw [← mem_members (mem := mem), hm] at hq
    cases hq
  | cons q qs =>
    have hq : mem c q = true := mem_members.1 (by rw [hm]; simp)
    dsimp only
    rw [← hm]
    have gath : ∀ (l : K) (f : Fin n → V), (∀ p, mem c p = true → (x p).at c = some (l, f p)) →
        ((members mem c).filterMap fun p => ((x p).at c).map fun y => (p, y.2)) = gathered mem c f := by
      intro l f h
      unfold gathered
      rw [← List.filterMap_eq_map]
      refine List.filterMap_congr fun p hp => ?_
      rw [h p (mem_members.1 hp)]
      rfl
    constructor
    · intro h
      cases ha : (x q).at c with
      | none => rw [ha] at h; cases h
      | some lb =>
        obtain ⟨l, b0⟩ := lb
        rw [ha] at h
        dsimp only at h
        split at h
        · rename_i hall
          obtain ⟨r, hr, rfl⟩ := Option.map_eq_some_iff.1 h
          rw [List.all_eq_true] at hall
          have h1 : ∀ p, mem c p = true → ∃ b, (x p).at c = some (l, b) := by
            intro p hp
            have := hall p (mem_members.2 hp)
            cases hx : (x p).at c with
            | none => rw [hx] at this; simp at this
            | some y =>
              obtain ⟨l', b⟩ := y
              rw [hx] at this
              simp at this
              exact ⟨b, by rw [this]⟩
          have h2 : ∀ p, mem c p = true → (x p).at c = some (l, (((x p).at c).map Prod.snd).getD b0) := by
            intro p hp
            obtain ⟨b, e⟩ := h1 p hp
            rw [e]
            rfl
          exact ⟨⟨q, hq⟩, l, fun p => (((x p).at c).map Prod.snd).getD b0, h2, r, by rw [← gath l _ h2]; exact hr, rfl⟩
        · cases h
    · rintro ⟨-, l, f, h1, r, hr, rfl⟩
      rw [h1 q hq]
      dsimp only
      rw [if_pos ?_, gath l f h1, hr]
      · rfl
      · rw [List.all_eq_true]
        intro p hp
        rw [h1 p (mem_members.1 hp)]
        simp

omit [DecidableEq K] in
theorem at_unique {x : Prog κ K V α} {c c' : κ} {a b : K × V} (h : x.at c = some a) (h' : x.at c' = some b) :
    c = c' := by
  cases x with
  | ret t => cases h
  | coll d l f k =>
    simp only [Prog.at, Option.ite_none_right_eq_some] at h h'
    exact h.1.symm.trans h'.1

/-- Operations on two communicators that can complete concern different processes, so their order does not matter. -/
theorem diamond {x y z : Fin n → Prog κ K V α} {c c' : κ} (hc : c ≠ c') (h : step mem comb x c = some y)
    (h' : step mem comb x c' = some z) : ∃ w, step mem comb y c' = some w ∧ step mem comb z c = some w := by
  obtain ⟨hq, l, f, hl, r, hr, rfl⟩ := step_iff.1 h
  obtain ⟨hq', l', f', hl', r', hr', rfl⟩ := step_iff.1 h'
  have hd : ∀ p, mem c p = true → mem c' p = true → False := fun p h1 h2 => hc (at_unique (hl p h1) (hl' p h2))
  have hn : ∀ p, mem c' p = true → mem c p = false := fun p hp => by
    cases he : mem c p with
    | false => rfl
    | true => exact (hd p he hp).elim
  have hn' : ∀ p, mem c p = true → mem c' p = false := fun p hp => by
    cases he : mem c' p with
    | false => rfl
    | true => exact (hd p hp he).elim
  refine ⟨fun p => if mem c' p then (x p).after r' else if mem c p then (x p).after r else x p,
    step_iff.2 ⟨hq', l', f', fun p hp => ?_, r', hr', ?_⟩, step_iff.2 ⟨hq, l, f, fun p hp => ?_, r, hr, ?_⟩⟩
  · simp only [hn p hp]; exact hl' p hp
  · funext p
    cases h1 : mem c' p
    · simp
    · simp [hn p h1]
  · simp only [hn' p hp]; exact hl p hp
  · funext p
    cases h1 : mem c p
    · simp
    · simp [hn' p h1]

/-- All processes have ended. -/
def Done (x : Fin n → Prog κ K V α) : Prop := ∀ p, ∃ a, x p = .ret a

theorem done_step {x : Fin n → Prog κ K V α} (h : Done x) (c : κ) : step mem comb x c = none := by
  cases e : step mem comb x c with
  | none => rfl
  | some y =>
    obtain ⟨⟨q, hq⟩, l, f, hl, -⟩ := step_iff.1 e
    obtain ⟨t, ht⟩ := h q
    have := hl q hq
    rw [ht] at this
    cases this

/-- If one execution ends, an execution that has started otherwise can go on to the same end, with the same number of
operations in total. -/
theorem confluent : ∀ (cs : List κ) {x z : Fin n → Prog κ K V α}, run mem comb x cs = some z → Done z →
    ∀ {c : κ} {y : Fin n → Prog κ K V α}, step mem comb x c = some y →
      ∃ cs', run mem comb y cs' = some z ∧ cs.length = cs'.length + 1 := by
  intro cs
  induction cs with
  | nil =>
    intro x z h hz c y hs
    cases h
    rw [done_step hz] at hs
    cases hs
  | cons a cs ih =>
    intro x z h hz c y hs
    unfold run at h
    obtain ⟨w, hw, hr⟩ := Option.bind_eq_some_iff.1 h
    by_cases hac : a = c
    · subst hac
      rw [hw] at hs
      cases hs
      exact ⟨cs, hr, rfl⟩
    · obtain ⟨v, h1, h2⟩ := diamond hac hw hs
      obtain ⟨cs', h3, h4⟩ := ih hr hz h1
      refine ⟨a :: cs', ?_, by simp [h4]⟩
      unfold run
      rw [h2, Option.bind_some, h3]

theorem confluent_run (cs : List κ) {x z : Fin n → Prog κ K V α} (h : run mem comb x cs = some z) (hz : Done z) :
    ∀ (ds : List κ) {y : Fin n → Prog κ K V α}, run mem comb x ds = some y →
      ∃ cs', run mem comb y cs' = some z ∧ cs.length = ds.length + cs'.length := by
  intro ds
  induction ds generalizing x cs with
  | nil => intro y hy; cases hy; exact ⟨cs, h, by simp⟩
  | cons d ds ih =>
    intro y hy
    unfold run at hy
    obtain ⟨w, hw, hr⟩ := Option.bind_eq_some_iff.1 hy
    obtain ⟨cs', h1, h2⟩ := confluent cs h hz hw
    obtain ⟨cs'', h3, h4⟩ := ih cs' h1 hr
    exact ⟨cs'', h3, by simp; omega⟩

/-! ### Programs of groups -/

def Leads (mem : κ → Fin n → Bool) (comb : K → List (Fin n × V) → Option V) (x y : Fin n → Prog κ K V α) : Prop :=
  ∃ cs, run mem comb x cs = some y

theorem run_append : ∀ (cs ds : List κ) (x : Fin n → Prog κ K V α),
    run mem comb x (cs ++ ds) = (run mem comb x cs).bind fun y => run mem comb y ds := by
  intro cs
  induction cs with
  | nil => intro ds x; rfl
  | cons c cs ih =>
    intro ds x
    show ((step mem comb x c).bind fun y => run mem comb y (cs ++ ds)) =
      ((step mem comb x c).bind fun y => run mem comb y cs).bind fun y => run mem comb y ds
    rw [Option.bind_assoc]
    congr 1
    funext y
    exact ih ds y

theorem Leads.refl (x : Fin n → Prog κ K V α) : Leads mem comb x x := ⟨[], rfl⟩

theorem Leads.trans {x y z : Fin n → Prog κ K V α} (h : Leads mem comb x y) (h' : Leads mem comb y z) :
    Leads mem comb x z := by
  obtain ⟨cs, h⟩ := h
  obtain ⟨ds, h'⟩ := h'
  exact ⟨cs ++ ds, by rw [run_append, h, Option.bind_some, h']⟩

omit [DecidableEq κ] [DecidableEq K] in
theorem Prog.bind_assoc (a : Prog κ K V α) (f : α → Prog κ K V β) (g : β → Prog κ K V γ) :
    (a.bind f).bind g = a.bind fun t => (f t).bind g := by
  induction a with
  | ret t => rfl
  | coll c l b k ih => exact congrArg (Prog.coll c l b) (funext fun r => ih r)

omit [DecidableEq κ] [DecidableEq K] in
theorem Prog.bind_ret (a : Prog κ K V α) : a.bind .ret = a := by
  induction a with
  | ret t => rfl
  | coll c l b k ih => exact congrArg (Prog.coll c l b) (funext fun r => ih r)

/-- Processes in `S` can run the programs `P` among themselves and end with `a`, whatever the others do and whatever
they do next. -/
def Runs (mem : κ → Fin n → Bool) (comb : K → List (Fin n × V) → Option V) (S : Fin n → Bool)
    (P : Fin n → Prog κ K V α) (a : Fin n → α) : Prop :=
  ∀ (β : Type) (k : Fin n → α → Prog κ K V β) (x : Fin n → Prog κ K V β),
    (∀ p, S p = true → x p = (P p).bind (k p)) → Leads mem comb x fun p => if S p then k p (a p) else x p

variable {S : Fin n → Bool}

theorem Runs.ret (a : Fin n → α) : Runs mem comb S (fun p => .ret (a p)) a := by
  intro β k x h
  have : (fun p => if S p then k p (a p) else x p) = x := by
    funext p
    split
    · rename_i hp; rw [h p hp]; rfl
    · rfl
  rw [this]
  exact .refl x

theorem Runs.congr {P Q : Fin n → Prog κ K V α} {a b : Fin n → α} (h : Runs mem comb S P a)
    (hP : ∀ p, S p = true → P p = Q p) (ha : ∀ p, S p = true → a p = b p) : Runs mem comb S Q b := by
  intro β k x hx
  have h1 := h β k x fun p hp => by rw [hP p hp]; exact hx p hp
  have : (fun p => if S p then k p (a p) else x p) = fun p => if S p then k p (b p) else x p := by
    funext p
    split
    · rename_i hp; rw [ha p hp]
    · rfl
  rw [← this]
  exact h1

theorem Runs.bind {P : Fin n → Prog κ K V α} {Q : Fin n → α → Prog κ K V β} {a : Fin n → α} {b : Fin n → β}
    (h : Runs mem comb S P a) (h' : Runs mem comb S (fun p => Q p (a p)) b) :
    Runs mem comb S (fun p => (P p).bind (Q p)) b := by
  intro γ k x hx
  have h1 := h γ (fun p t => (Q p t).bind (k p)) x fun p hp => by rw [hx p hp, Prog.bind_assoc]
  have h2 := h' γ k _ fun p hp => show (if S p then (Q p (a p)).bind (k p) else x p) = _ by rw [if_pos hp]
  have : (fun p => if S p then k p (b p) else if S p then (Q p (a p)).bind (k p) else x p) =
      fun p => if S p then k p (b p) else x p := by
    funext p; split <;> rfl
  rw [this] at h2
  exact h1.trans h2

theorem Runs.coll {c : κ} {l : K} {f : Fin n → V} {k : Fin n → V → Prog κ K V α} {a : Fin n → α}
    (hS : ∀ p, mem c p = S p) {r : V} (hr : (∃ p, S p = true) → comb l (gathered mem c f) = some r)
    (h : Runs mem comb S (fun p => k p r) a) : Runs mem comb S (fun p => .coll c l (f p) (k p)) a := by
  intro β k' x hx
  by_cases hne : ∃ q, S q = true
  · have hx' : ∀ p, S p = true → x p = .coll c l (f p) fun r => (k p r).bind (k' p) := hx
    have h1 : step mem comb x c = some fun p => if S p then (k p r).bind (k' p) else x p := by
      have hr := hr hne
      obtain ⟨q, hq⟩ := hne
      refine step_iff.2 ⟨⟨q, (hS q).trans hq⟩, l, f, fun p hp => ?_, r, hr, ?_⟩
      · rw [hx' p ((hS p).symm.trans hp)]
        simp [Prog.at]
      · funext p
        rw [hS]
        split
        · rename_i hp; rw [hx' p hp]; rfl
        · rfl
    have h2 := h β k' (fun p => if S p then (k p r).bind (k' p) else x p) fun p hp => by simp only [hp]; rfl
    have : (fun p => if S p then k' p (a p) else if S p then (k p r).bind (k' p) else x p) =
        fun p => if S p then k' p (a p) else x p := by
      funext p; split <;> rfl
    rw [this] at h2
    exact Leads.trans ⟨[c], by unfold run; rw [h1]; rfl⟩ h2
  · have : (fun p => if S p then k' p (a p) else x p) = x := by
      funext p
      rw [if_neg fun hp => hne ⟨p, hp⟩]
    rw [this]
    exact .refl x

/-- Only the processes in `T` have anything to do. -/
theorem Runs.sub {T : Fin n → Bool} {P : Fin n → Prog κ K V α} {a : Fin n → α} (h : Runs mem comb T P a)
    (hT : ∀ p, T p = true → S p = true) (hr : ∀ p, S p = true → T p = false → P p = .ret (a p)) :
    Runs mem comb S P a := by
  intro β k x hx
  have h1 := h β k x fun p hp => hx p (hT p hp)
  have : (fun p => if T p then k p (a p) else x p) = fun p => if S p then k p (a p) else x p := by
    funext p
    cases ht : T p with
    | true => rw [hT p ht]
    | false =>
      cases hs : S p with
      | false => rfl
      | true =>
        rw [hx p hs, hr p hs ht]
        rfl
  rw [← this]
  exact h1

/-- All executions go on until all processes have ended with `a`. -/
theorem Runs.executions {P : Fin n → Prog κ K V α} {a : Fin n → α} (h : Runs mem comb (fun _ => true) P a) :
    ∃ N, ∀ cs x, run mem comb P cs = some x → cs.length ≤ N ∧
      ((∀ c, step mem comb x c = none) → ∀ p, x p = .ret (a p)) ∧
      (Done x → ∀ p, x p = .ret (a p)) := by
  obtain ⟨ds, hd⟩ := h α (fun _ => .ret) P fun p _ => (Prog.bind_ret _).symm
  have hz : Done (fun p => if (fun _ : Fin n => true) p then Prog.ret (κ := κ) (K := K) (V := V) (a p) else P p) :=
    fun p => ⟨a p, rfl⟩
  refine ⟨ds.length, fun cs x hx => ?_⟩
  obtain ⟨cs', h1, h2⟩ := confluent_run ds hd hz cs hx
  have key : (∀ c, step mem comb x c = none) → ∀ p, x p = .ret (a p) := by
    intro hs p
    cases cs' with
    | nil =>
      cases h1
      rfl
    | cons c cs' =>
      unfold run at h1
      rw [hs c] at h1
      cases h1
  exact ⟨by omega, key, fun hx => key fun c => done_step hx c⟩

/-- The next operation on `c`, if there is one, is not of kind `l`. -/
def Avoids (c : κ) (l : K) : Prog κ K V α → Prop
  | .ret _ => True
  | .coll c' l' _ k => if c' = c then l' ≠ l else ∀ r, Avoids c l (k r)

/-- If a process waits in an operation that another member of the communicator does not take part in next, no execution
ends. -/
theorem apart {c : κ} {l : K} {p q : Fin n} (hp : mem c p = true) (hq : mem c q = true) :
    ∀ (cs : List κ) {x y : Fin n → Prog κ K V α}, (∃ v, (x p).at c = some (l, v)) → Avoids c l (x q) →
      run mem comb x cs = some y → ¬ Done y := by
  intro cs
  induction cs with
  | nil =>
    intro x y h1 h2 hr hd
    cases hr
    obtain ⟨v, h1⟩ := h1
    obtain ⟨t, ht⟩ := hd p
    rw [ht] at h1
    cases h1
  | cons e cs ih =>
    intro x y h1 h2 hr
    unfold run at hr
    obtain ⟨z, hz, hr⟩ := Option.bind_eq_some_iff.1 hr
    obtain ⟨-, l', f, hl, r, -, rfl⟩ := step_iff.1 hz
    obtain ⟨v, h1⟩ := h1
    have hec : e ≠ c := by
      rintro rfl
      have h3 := hl p hp
      rw [h1] at h3
      simp only [Option.some.injEq, Prod.mk.injEq] at h3
      have h4 := hl q hq
      cases hx : x q with
      | ret t => rw [hx] at h4; cases h4
      | coll d m w k =>
        rw [hx] at h4 h2
        simp only [Prog.at, Option.ite_none_right_eq_some, Option.some.injEq, Prod.mk.injEq] at h4
        simp only [Avoids, h4.1, if_true] at h2
        exact h2 (h4.2.1.trans h3.1.symm)
    have hpe : mem e p = false := by
      cases he : mem e p with
      | false => rfl
      | true => exact absurd (at_unique (hl p he) h1) hec
    refine ih ⟨v, ?_⟩ ?_ hr
    · simp only [hpe]; exact h1
    · split
      · rename_i hqe
        have h4 := hl q hqe
        cases hx : x q with
        | ret t => rw [hx] at h4; cases h4
        | coll d m w k =>
          rw [hx] at h4 h2
          simp only [Prog.at, Option.ite_none_right_eq_some] at h4
          rw [Avoids, if_neg (h4.1 ▸ hec)] at h2
          exact h2 r
      · exact h2

end Ovk.VColl
