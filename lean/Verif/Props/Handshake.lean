/-
C28: the dynamic handshake returns exactly the ranks that named this one, and cannot deadlock.
C53: the signal used without `MPI_Ibarrier` is a barrier.
-/
import Verif.Model.Handshake
import Verif.Lemmas.Container
import Verif.Lemmas.DistHash
import Mathlib.Algebra.BigOperators.Fin
import Mathlib.Algebra.BigOperators.Group.Finset.Piecewise
import Mathlib.Tactic.SplitIfs
import Mathlib.Tactic.ByContra
import Mathlib.Tactic.FinCases

namespace Ovk.Shake

/-! ### Specification -/
namespace Spec

/-- `l` lists exactly the ranks that named `p`, each once (in increasing order). -/
def IsAnswer {n : Nat} (ranks : Fin n → List (Fin n)) (p : Fin n) (l : List Nat) : Prop :=
  l.Pairwise (· < ·) ∧ ∀ x, x ∈ l ↔ ∃ q : Fin n, x = q.val ∧ p ∈ ranks q

/-- Every process has returned. -/
def AllDone {n : Nat} (s : State n) : Prop := ∀ p, (s.procs p).pc = .done

end Spec

variable {n : Nat}

/-! ### Safety -/

structure Inv (ranks : Fin n → List (Fin n)) (s : State n) : Prop where
  sorted : ∀ p, Sorted natLt (s.procs p).matched
  /-- only ranks that named `p` -/
  sound : ∀ p x, x ∈ (s.procs p).matched → ∃ q : Fin n, x = q.val ∧ p ∈ ranks q
  self : ∀ p, p ∈ ranks p → p.val ∈ (s.procs p).matched
  net : ∀ q p, (q, p) ∈ s.net → p ∈ ranks q
  todo : ∀ q p, p ∈ (s.procs q).todo → p ∈ ranks q
  /-- a message to be sent, in the network, or received -/
  track : ∀ q p, p ∈ ranks q → q ≠ p →
    p ∈ (s.procs q).todo ∨ (q, p) ∈ s.net ∨ q.val ∈ (s.procs p).matched
  sent : ∀ p, (s.procs p).pc ≠ .send → (s.procs p).todo = []
  quiet : ∀ p, (s.procs p).sendsDone = true → (s.procs p).pc ≠ .send ∧ ∀ q, (p, q) ∉ s.net
  all : ∀ p, (s.procs p).pc = .done → ∀ q, (s.procs q).sendsDone = true

theorem selfMatch_spec (p : Fin n) (l : List (Fin n)) : Sorted natLt (selfMatch p l) ∧
    ∀ x, x ∈ selfMatch p l ↔ x = p.val ∧ p ∈ l := by
  have key : ∀ (l : List (Fin n)) (acc : List Nat), Sorted natLt acc →
      Sorted natLt (l.foldl (fun s q => if q = p then OSet.insert natLt s p.val else s) acc) ∧
      ∀ x, x ∈ l.foldl (fun s q => if q = p then OSet.insert natLt s p.val else s) acc ↔
        x ∈ acc ∨ x = p.val ∧ p ∈ l := by
    intro l
    induction l with
    | nil => intro acc h; exact ⟨h, by simp⟩
    | cons q l ih =>
      intro acc h
      rw [List.foldl_cons]
      by_cases e : q = p
      · subst e
        rw [if_pos rfl]
        obtain ⟨h1, h2⟩ := oset_insert_spec DHash.natSTO h q.val
        obtain ⟨h3, h4⟩ := ih _ h1
        refine ⟨h3, fun x => ?_⟩
        rw [h4, h2]
        simp only [List.mem_cons, true_or, and_true]
        tauto
      · rw [if_neg e]
        obtain ⟨h3, h4⟩ := ih _ h
        refine ⟨h3, fun x => ?_⟩
        rw [h4]
        simp [List.mem_cons, Ne.symm e]
  obtain ⟨h1, h2⟩ := key l [] (by unfold Sorted; exact List.Pairwise.nil)
  exact ⟨h1, fun x => by rw [selfMatch, h2]; simp⟩

theorem inv_start (ranks : Fin n → List (Fin n)) : Inv ranks (start ranks) where
  sorted p := (selfMatch_spec p (ranks p)).1
  sound p x hx := by
    obtain ⟨h1, h2⟩ := ((selfMatch_spec p (ranks p)).2 x).1 hx
    exact ⟨p, h1, h2⟩
  self p hp := ((selfMatch_spec p (ranks p)).2 p.val).2 ⟨rfl, hp⟩
  net q p h := by simp [start] at h
  todo q p h := by
    have : p ∈ (ranks q).filter fun x => x ≠ q := h
    exact (List.mem_filter.1 this).1
  track q p h hne := by
    left
    show p ∈ (ranks q).filter fun x => x ≠ q
    simp [h, Ne.symm hne]
  sent p h := by simp [start, startProc] at h
  quiet p h := by simp [start, startProc] at h
  all p h := by simp [start, startProc] at h

theorem upd_same (f : Fin n → Proc n) (p : Fin n) (x : Proc n) : Function.update f p x p = x :=
  Function.update_self ..

theorem upd_other (f : Fin n → Proc n) {p q : Fin n} (x : Proc n) (h : q ≠ p) :
    Function.update f p x q = f q := Function.update_of_ne h ..

/-- A step that only moves the program counter of `p`, from a place after the sends to another such place. -/
theorem inv_move {ranks : Fin n → List (Fin n)} {s : State n} (inv : Inv ranks s) (p : Fin n) (x : Pc)
    (d : Bool) (hx : x ≠ .send) (hs : (s.procs p).todo = [])
    (hd : d = true → ∀ q, (p, q) ∉ s.net) (hd' : (s.procs p).sendsDone = true → d = true)
    (hall : x = .done → d = true ∧ ∀ q, (s.procs q).sendsDone = true) (hnd : (s.procs p).pc ≠ .done) :
    Inv ranks ⟨Function.update s.procs p { s.procs p with pc := x, sendsDone := d }, s.net⟩ := by
  have hmt : ∀ q, (Function.update s.procs p { s.procs p with pc := x, sendsDone := d } q).matched =
      (s.procs q).matched := by
    intro q
    by_cases e : q = p
    · subst e; rw [upd_same]
    · rw [upd_other _ _ e]
  have htd : ∀ q, (Function.update s.procs p { s.procs p with pc := x, sendsDone := d } q).todo =
      (s.procs q).todo := by
    intro q
    by_cases e : q = p
    · subst e; rw [upd_same]
    · rw [upd_other _ _ e]
  have hmono : ∀ q, (s.procs q).sendsDone = true →
      (Function.update s.procs p { s.procs p with pc := x, sendsDone := d } q).sendsDone = true := by
    intro q hq
    by_cases e : q = p
    · subst e; rw [upd_same]; exact hd' hq
    · rw [upd_other _ _ e]; exact hq
  refine ⟨?_, ?_, ?_, inv.net, ?_, ?_, ?_, ?_, ?_⟩
  · intro q; dsimp only; rw [hmt]; exact inv.sorted q
  · intro q; dsimp only; rw [hmt]; exact inv.sound q
  · intro q; dsimp only; rw [hmt]; exact inv.self q
  · intro q; dsimp only; rw [htd]; exact inv.todo q
  · intro q r; dsimp only; rw [htd, hmt]; exact inv.track q r
  · intro q; dsimp only; rw [htd]
    by_cases e : q = p
    · subst e; intro _; exact hs
    · rw [upd_other _ _ e]; exact inv.sent q
  · intro q
    dsimp only
    by_cases e : q = p
    · subst e; rw [upd_same]; intro h; exact ⟨hx, hd h⟩
    · rw [upd_other _ _ e]; exact inv.quiet q
  · intro q
    dsimp only
    by_cases e : q = p
    · subst e
      rw [upd_same]
      intro h r
      exact hmono r ((hall h).2 r)
    · rw [upd_other _ _ e]
      intro h r
      exact hmono r (inv.all q h r)

theorem inv_step {ranks : Fin n → List (Fin n)} {s t : State n} {p : Fin n} (inv : Inv ranks s)
    (h : Step p s t) : Inv ranks t := by
  cases h with
  | issend q rest hpc htodo =>
    have hq : q ∈ (s.procs p).todo := by rw [htodo]; simp
    have hmt : ∀ r, (Function.update s.procs p { s.procs p with todo := rest } r).matched =
        (s.procs r).matched := by
      intro r
      by_cases e : r = p
      · subst e; rw [upd_same]
      · rw [upd_other _ _ e]
    have hpcs : ∀ r, (Function.update s.procs p { s.procs p with todo := rest } r).pc =
        (s.procs r).pc := by
      intro r
      by_cases e : r = p
      · subst e; rw [upd_same]
      · rw [upd_other _ _ e]
    have hsd : ∀ r, (Function.update s.procs p { s.procs p with todo := rest } r).sendsDone =
        (s.procs r).sendsDone := by
      intro r
      by_cases e : r = p
      · subst e; rw [upd_same]
      · rw [upd_other _ _ e]
    refine ⟨?_, ?_, ?_, ?_, ?_, ?_, ?_, ?_, ?_⟩
    · intro r; dsimp only; rw [hmt]; exact inv.sorted r
    · intro r; dsimp only; rw [hmt]; exact inv.sound r
    · intro r; dsimp only; rw [hmt]; exact inv.self r
    · intro a b hab
      rcases List.mem_append.1 hab with h | h
      · exact inv.net a b h
      · simp only [List.mem_singleton, Prod.mk.injEq] at h
        obtain ⟨rfl, rfl⟩ := h
        exact inv.todo a b hq
    · intro a b hb
      dsimp only at hb
      by_cases e : a = p
      · subst e
        rw [upd_same] at hb
        exact inv.todo a b (by rw [htodo]; exact List.mem_cons_of_mem _ hb)
      · rw [upd_other _ _ e] at hb
        exact inv.todo a b hb
    · intro a b hab hne
      dsimp only
      rw [hmt]
      rcases inv.track a b hab hne with h | h | h
      · by_cases e : a = p
        · subst e
          rw [htodo] at h
          rcases List.mem_cons.1 h with rfl | h
          · right; left; simp
          · left; rw [upd_same]; exact h
        · left; rw [upd_other _ _ e]; exact h
      · right; left; exact List.mem_append_left _ h
      · right; right; exact h
    · intro r hr
      dsimp only at hr ⊢
      rw [hpcs] at hr
      by_cases e : r = p
      · subst e; exact absurd hpc hr
      · rw [upd_other _ _ e]; exact inv.sent r hr
    · intro r hr
      dsimp only at hr ⊢
      rw [hsd] at hr
      rw [hpcs]
      obtain ⟨h1, h2⟩ := inv.quiet r hr
      refine ⟨h1, fun x hx => ?_⟩
      rcases List.mem_append.1 hx with h | h
      · exact h2 x h
      · simp only [List.mem_singleton, Prod.mk.injEq] at h
        rw [h.1] at h1
        exact h1 hpc
    · intro r hr x
      dsimp only at hr ⊢
      rw [hpcs] at hr
      rw [hsd]
      exact inv.all r hr x
  | enter hpc htodo =>
    exact inv_move inv p .poll (s.procs p).sendsDone (by simp) htodo
      (fun h => (inv.quiet p h).2) id (by simp) (by simp [hpc])
  | recv q hpc hq =>
    have hpcs : ∀ r, (Function.update s.procs p
        { s.procs p with matched := OSet.insert natLt (s.procs p).matched q.val } r).pc =
        (s.procs r).pc := by
      intro r
      by_cases e : r = p
      · subst e; rw [upd_same]
      · rw [upd_other _ _ e]
    have hsd : ∀ r, (Function.update s.procs p
        { s.procs p with matched := OSet.insert natLt (s.procs p).matched q.val } r).sendsDone =
        (s.procs r).sendsDone := by
      intro r
      by_cases e : r = p
      · subst e; rw [upd_same]
      · rw [upd_other _ _ e]
    have htd : ∀ r, (Function.update s.procs p
        { s.procs p with matched := OSet.insert natLt (s.procs p).matched q.val } r).todo =
        (s.procs r).todo := by
      intro r
      by_cases e : r = p
      · subst e; rw [upd_same]
      · rw [upd_other _ _ e]
    obtain ⟨hsorted, hmem⟩ := oset_insert_spec DHash.natSTO (inv.sorted p) q.val
    refine ⟨?_, ?_, ?_, ?_, ?_, ?_, ?_, ?_, ?_⟩
    · intro r
      dsimp only
      by_cases e : r = p
      · subst e; rw [upd_same]; exact hsorted
      · rw [upd_other _ _ e]; exact inv.sorted r
    · intro r x hx
      dsimp only at hx
      by_cases e : r = p
      · subst e
        rw [upd_same] at hx
        rcases (hmem x).1 hx with rfl | hx
        · exact ⟨q, rfl, inv.net q r hq⟩
        · exact inv.sound r x hx
      · rw [upd_other _ _ e] at hx; exact inv.sound r x hx
    · intro r hr
      dsimp only
      by_cases e : r = p
      · subst e; rw [upd_same]; exact (hmem _).2 (Or.inr (inv.self r hr))
      · rw [upd_other _ _ e]; exact inv.self r hr
    · intro a b hab
      exact inv.net a b (List.mem_of_mem_erase hab)
    · intro a b hb
      dsimp only at hb
      rw [htd] at hb
      exact inv.todo a b hb
    · intro a b hab hne
      dsimp only
      rw [htd]
      rcases inv.track a b hab hne with h | h | h
      · exact Or.inl h
      · right
        by_cases e : (a, b) = (q, p)
        · cases e
          right
          rw [upd_same]
          exact (hmem _).2 (Or.inl rfl)
        · exact Or.inl ((List.mem_erase_of_ne e).2 h)
      · right; right
        by_cases e : b = p
        · subst e; rw [upd_same]; exact (hmem _).2 (Or.inr h)
        · rw [upd_other _ _ e]; exact h
    · intro r
      dsimp only
      rw [hpcs, htd]
      exact inv.sent r
    · intro r
      dsimp only
      rw [hpcs, hsd]
      intro h
      exact ⟨(inv.quiet r h).1, fun x hx => (inv.quiet r h).2 x (List.mem_of_mem_erase hx)⟩
    · intro r
      dsimp only
      rw [hpcs]
      intro h x
      rw [hsd]
      exact inv.all r h x
  | noMsg hpc =>
    exact inv_move inv p .test (s.procs p).sendsDone (by simp) (inv.sent p (by simp [hpc]))
      (fun h => (inv.quiet p h).2) id (by simp) (by simp [hpc])
  | notSent hpc hsd =>
    exact inv_move inv p .poll (s.procs p).sendsDone (by simp) (inv.sent p (by simp [hpc]))
      (fun h => (inv.quiet p h).2) id (by simp) (by simp [hpc])
  | allSent hpc hsd hn =>
    exact inv_move inv p .poll true (by simp) (inv.sent p (by simp [hpc]))
      (fun _ => hn) (fun _ => rfl) (by simp) (by simp [hpc])
  | notDone hpc hsd =>
    exact inv_move inv p .poll (s.procs p).sendsDone (by simp) (inv.sent p (by simp [hpc]))
      (fun h => (inv.quiet p h).2) id (by simp) (by simp [hpc])
  | finish hpc hsd ha =>
    exact inv_move inv p .done (s.procs p).sendsDone (by simp) (inv.sent p (by simp [hpc]))
      (fun h => (inv.quiet p h).2) id (fun _ => ⟨hsd, ha⟩) (by simp [hpc])

theorem inv_reach {ranks : Fin n → List (Fin n)} {s t : State n} (h : Reach s t) (inv : Inv ranks s) :
    Inv ranks t := by
  induction h with
  | refl => exact inv
  | step p _ hs ih => exact inv_step ih hs

/-- **C28 (answer)**: whenever a process has returned, in any interleaving, its list is exactly the set of ranks
that named it, each once. -/
theorem C28_answer (ranks : Fin n → List (Fin n)) (s : State n) (h : Reach (start ranks) s) (p : Fin n)
    (l : List Nat) (hr : result s p = some l) : Spec.IsAnswer ranks p l := by
  have inv := inv_reach h (inv_start ranks)
  unfold result at hr
  split_ifs at hr with hd
  cases hr
  refine ⟨?_, ?_⟩
  · refine List.Pairwise.imp ?_ (inv.sorted p)
    intro a b hab
    simpa using hab
  · intro x
    constructor
    · exact inv.sound p x
    · rintro ⟨q, rfl, hq⟩
      by_cases e : q = p
      · subst e; exact inv.self q hq
      · have hs := inv.all p hd q
        obtain ⟨h1, h2⟩ := inv.quiet q hs
        rcases inv.track q p hq e with h | h | h
        · rw [inv.sent q h1] at h; cases h
        · exact absurd h (h2 p)
        · exact h

/-! ### Progress -/

/-- Work left for a process. -/
def work (x : Proc n) : Nat :=
  2 * x.todo.length + (if x.pc = .send then 1 else 0) + (if x.sendsDone then 0 else 1) +
    (if x.pc = .done then 0 else 1)

/-- Work left in a state. -/
def left (s : State n) : Nat := (∑ p, work (s.procs p)) + s.net.length

theorem sum_upd (f : Fin n → Proc n) (p : Fin n) (x : Proc n) :
    (∑ q, work (Function.update f p x q)) + work (f p) = (∑ q, work (f q)) + work x := by
  have e : (fun q => work (Function.update f p x q)) = Function.update (fun q => work (f q)) p (work x) := by
    funext q
    by_cases h : q = p
    · subst h; simp
    · simp [h]
  rw [e, Finset.sum_update_of_mem (Finset.mem_univ p), ← Finset.sum_sdiff (Finset.subset_univ {p}),
    Finset.sum_singleton]
  omega

theorem left_lt {s : State n} {p : Fin n} {x : Proc n} {net : List (Fin n × Fin n)}
    (h : work x + net.length < work (s.procs p) + s.net.length) :
    left ⟨Function.update s.procs p x, net⟩ < left s := by
  have := sum_upd s.procs p x
  unfold left
  dsimp only
  omega

theorem left_eq {s : State n} {p : Fin n} {x : Proc n} (h : work x = work (s.procs p)) :
    left ⟨Function.update s.procs p x, s.net⟩ = left s := by
  have := sum_upd s.procs p x
  unfold left
  dsimp only
  omega

/-- **C28 (bounded work)**: no step increases the work left; the only steps that do not decrease it are
answers "no" of the polling functions. -/
theorem C28_work {s t : State n} {p : Fin n} (h : Step p s t) :
    left t < left s ∨
      (left t = left s ∧ t.net = s.net ∧ ((s.procs p).pc = .poll ∨ (s.procs p).pc = .test) ∧
        t.procs = Function.update s.procs p
          { s.procs p with pc := if (s.procs p).pc = .poll then .test else .poll }) := by
  cases h with
  | issend q rest hpc htodo =>
    refine Or.inl (left_lt ?_)
    simp only [work, htodo, List.length_cons, List.length_append, List.length_nil]
    omega
  | enter hpc htodo =>
    refine Or.inl (left_lt ?_)
    simp [work, hpc]
  | recv q hpc hq =>
    have h2 := List.length_erase_of_mem hq
    have h3 := List.length_pos_of_mem hq
    refine Or.inl (left_lt ?_)
    simp only [work]
    omega
  | noMsg hpc => exact Or.inr ⟨left_eq (by simp [work, hpc]), rfl, Or.inl hpc, by simp [hpc]⟩
  | notSent hpc hsd => exact Or.inr ⟨left_eq (by simp [work, hpc]), rfl, Or.inr hpc, by simp [hpc]⟩
  | allSent hpc hsd hn =>
    refine Or.inl (left_lt ?_)
    simp [work, hpc, hsd]
  | notDone hpc hsd => exact Or.inr ⟨left_eq (by simp [work, hpc]), rfl, Or.inr hpc, by simp [hpc]⟩
  | finish hpc hsd ha =>
    refine Or.inl (left_lt ?_)
    simp [work, hpc, hsd]

theorem Reach.trans {s t u : State n} (h : Reach s t) (h' : Reach t u) : Reach s u := by
  induction h' with
  | refl => exact h
  | step p _ hs ih => exact Reach.step p ih hs

theorem Reach.single {s t : State n} {p : Fin n} (h : Step p s t) : Reach s t := .step p .refl h

/-- A process in the loop can get to probing, and to testing, without changing anything else. -/
theorem goto {s : State n} (p : Fin n) (x : Pc) (hx : x = .poll ∨ x = .test)
    (hp : (s.procs p).pc = .poll ∨ (s.procs p).pc = .test) :
    ∃ t, Reach s t ∧ left t = left s ∧ t.net = s.net ∧
      t.procs = Function.update s.procs p { s.procs p with pc := x } := by
  by_cases e : (s.procs p).pc = x
  · exact ⟨s, .refl, rfl, rfl, by rw [← e]; simp⟩
  · have hstep : Step p s ⟨Function.update s.procs p { s.procs p with pc := x }, s.net⟩ := by
      rcases hx with rfl | rfl
      · have hp' : (s.procs p).pc = .test := by simp_all
        cases hsd : (s.procs p).sendsDone with
        | true => exact .notDone hp' hsd
        | false => exact .notSent hp' hsd
      · exact .noMsg (by simp_all)
    refine ⟨_, .single hstep, ?_, rfl, rfl⟩
    refine left_eq ?_
    rcases hx with rfl | rfl <;> rcases hp with hp | hp <;> simp [work, hp]

theorem progress {ranks : Fin n → List (Fin n)} {s : State n} (inv : Inv ranks s)
    (hs : ¬ Spec.AllDone s) : ∃ t, Reach s t ∧ left t < left s := by
  by_cases h1 : ∃ p, (s.procs p).pc = .send
  · obtain ⟨p, hp⟩ := h1
    have : ∃ t, Step p s t ∧ left t < left s := by
      cases ht : (s.procs p).todo with
      | nil =>
        refine ⟨_, .enter hp ht, ?_⟩
        rcases C28_work (.enter hp ht) with h | h
        · exact h
        · simp [hp] at h
      | cons q rest =>
        refine ⟨_, .issend q rest hp ht, ?_⟩
        rcases C28_work (.issend q rest hp ht) with h | h
        · exact h
        · simp [hp] at h
    obtain ⟨t, h2, h3⟩ := this
    exact ⟨t, .single h2, h3⟩
  · push Not at h1
    have hloop : ∀ p, (s.procs p).pc ≠ .done → (s.procs p).pc = .poll ∨ (s.procs p).pc = .test := by
      intro p hp
      have := h1 p
      cases e : (s.procs p).pc <;> simp_all
    by_cases h2 : ∃ x, x ∈ s.net
    · obtain ⟨⟨q, p⟩, hq⟩ := h2
      have hnd : (s.procs p).pc ≠ .done := by
        intro hd
        exact (inv.quiet q (inv.all p hd q)).2 p hq
      obtain ⟨t, t1, t2, t3, t4⟩ := goto p .poll (Or.inl rfl) (hloop p hnd)
      have hpc : (t.procs p).pc = .poll := by rw [t4, upd_same]
      have hq' : (q, p) ∈ t.net := by rw [t3]; exact hq
      refine ⟨_, t1.trans (.single (.recv q hpc hq')), ?_⟩
      have hlen := List.length_erase_of_mem hq'
      have hpos := List.length_pos_of_mem hq'
      rcases C28_work (.recv q hpc hq') with h | ⟨-, h, -⟩
      · omega
      · exfalso
        have h' := congrArg List.length h
        dsimp only at h'
        omega
    · push Not at h2
      by_cases h3 : ∃ p, (s.procs p).sendsDone = false
      · obtain ⟨p, hp⟩ := h3
        have hnd : (s.procs p).pc ≠ .done := by
          intro hd
          rw [inv.all p hd p] at hp
          cases hp
        obtain ⟨t, t1, t2, t3, t4⟩ := goto p .test (Or.inr rfl) (hloop p hnd)
        have hpc : (t.procs p).pc = .test := by rw [t4, upd_same]
        have hsd : (t.procs p).sendsDone = false := by rw [t4, upd_same]; exact hp
        have hn : ∀ q, (p, q) ∉ t.net := by intro q; rw [t3]; exact h2 _
        refine ⟨_, t1.trans (.single (.allSent hpc hsd hn)), ?_⟩
        rw [← t2]
        refine left_lt ?_
        simp [work, hpc, hsd]
      · push Not at h3
        have h3' : ∀ p, (s.procs p).sendsDone = true := by
          intro p
          have := h3 p
          cases e : (s.procs p).sendsDone
          · exact absurd e this
          · rfl
        unfold Spec.AllDone at hs
        push Not at hs
        obtain ⟨p, hp⟩ := hs
        obtain ⟨t, t1, t2, t3, t4⟩ := goto p .test (Or.inr rfl) (hloop p hp)
        have hpc : (t.procs p).pc = .test := by rw [t4, upd_same]
        have hsd : ∀ q, (t.procs q).sendsDone = true := by
          intro q
          rw [t4]
          by_cases e : q = p
          · subst e; rw [upd_same]; exact h3' q
          · rw [upd_other _ _ e]; exact h3' q
        refine ⟨_, t1.trans (.single (.finish hpc (hsd p) hsd)), ?_⟩
        rw [← t2]
        refine left_lt ?_
        simp [work, hpc, hsd p]

/-- **C28 (no deadlock)**: whatever has happened so far, all processes can still return. -/
theorem C28_no_deadlock (ranks : Fin n → List (Fin n)) (s : State n) (h : Reach (start ranks) s) :
    ∃ t, Reach s t ∧ Spec.AllDone t ∧
      ∀ p, ∃ l, result t p = some l ∧ Spec.IsAnswer ranks p l := by
  have key : ∀ k s, left s = k → Reach (start ranks) s → ∃ t, Reach s t ∧ Spec.AllDone t := by
    intro k
    induction k using Nat.strongRecOn with
    | ind k ih =>
      intro s hk hr
      by_cases hd : Spec.AllDone s
      · exact ⟨s, .refl, hd⟩
      · obtain ⟨t, h1, h2⟩ := progress (inv_reach hr (inv_start ranks)) hd
        obtain ⟨u, h3, h4⟩ := ih (left t) (by omega) t rfl (hr.trans h1)
        exact ⟨u, h1.trans h3, h4⟩
  obtain ⟨t, h1, h2⟩ := key _ s rfl h
  refine ⟨t, h1, h2, fun p => ?_⟩
  have hr : result t p = some (t.procs p).matched := by simp [result, h2 p]
  exact ⟨_, hr, C28_answer ranks t (h.trans h1) p _ hr⟩

/-- Three processes: 0 names 1 twice and itself, 1 names 0, 2 names 1. -/
def exRanksH : Fin 3 → List (Fin 3) := ![[1, 0, 1], [0], [1]]

example : ∃ t, Reach (start exRanksH) t ∧ Spec.AllDone t ∧ result t 1 = some [0, 2] := by
  obtain ⟨t, h1, h2, h3⟩ := C28_no_deadlock exRanksH (start exRanksH) .refl
  refine ⟨t, h1, h2, ?_⟩
  obtain ⟨l, hl, hs, hm⟩ := h3 1
  rw [hl]
  congr 1
  have hm' : ∀ x, x ∈ l ↔ x ∈ [0, 2] := by
    intro x
    rw [hm]
    constructor
    · rintro ⟨q, rfl, hq⟩
      fin_cases q
      · simp
      · simp [exRanksH] at hq
      · simp
    · intro hx
      simp at hx
      rcases hx with rfl | rfl
      · exact ⟨0, rfl, by simp [exRanksH]⟩
      · exact ⟨2, rfl, by simp [exRanksH]⟩
  have hp : l.Perm [0, 2] := (List.perm_ext_iff_of_nodup (hs.imp (fun h => Nat.ne_of_lt h)) (by decide)).2 hm'
  exact hp.eq_of_pairwise (fun a b _ _ h1 h2 => absurd h1 (by omega)) hs (by decide)

/-! ### C53 -/
namespace Sig
variable {m : Nat}

/-- Everyone has called `Start`. -/
def Spec.AllStarted (s : State m) : Prop := s.root.started = true ∧ ∀ i, (s.others i).started = true

/-- `Check` has returned true everywhere. -/
def Spec.AllSeen (s : State m) : Prop := s.root.seen = true ∧ ∀ i, (s.others i).seen = true

def numFirst (f : Fin m → Other) : Nat := ∑ i, if (f i).first then 1 else 0

structure Inv (s : State m) : Prop where
  first : ∀ i, (s.others i).first = true → (s.others i).started = true
  rootStarted : s.root.next ≠ none ∨ s.root.seen = true → s.root.started = true
  count : s.root.seen = false → s.root.count = numFirst s.others
  next : s.root.next ≠ none → s.root.seen = false ∧ ∀ i, (s.others i).first = true
  upto : ∀ k, s.root.next = some k → k ≤ m ∧ ∀ i, (s.others i).second = true ↔ i.val < k
  before : s.root.next = none → s.root.seen = false → ∀ i, (s.others i).second = false
  after : s.root.seen = true → ∀ i, (s.others i).first = true ∧ (s.others i).second = true
  seen : ∀ i, (s.others i).seen = true → (s.others i).second = true

theorem sum_update (w : Other → Nat) (f : Fin m → Other) (i : Fin m) (x : Other) :
    (∑ q, w (Function.update f i x q)) + w (f i) = (∑ q, w (f q)) + w x := by
  have e : (fun q => w (Function.update f i x q)) = Function.update (fun q => w (f q)) i (w x) := by
    funext q
    by_cases h : q = i
    · subst h; simp
    · simp [h]
  rw [e, Finset.sum_update_of_mem (Finset.mem_univ i), ← Finset.sum_sdiff (Finset.subset_univ {i}),
    Finset.sum_singleton]
  omega

theorem numFirst_all {f : Fin m → Other} (h : numFirst f = m) (i : Fin m) : (f i).first = true := by
  by_contra hc
  have hlt : numFirst f < ∑ _j : Fin m, 1 :=
    Finset.sum_lt_sum (fun j _ => by split_ifs <;> omega) ⟨i, Finset.mem_univ i, by simp [hc]⟩
  simp at hlt
  omega

theorem numFirst_some {f : Fin m → Other} (h : numFirst f ≠ m) : ∃ i, (f i).first = false := by
  by_contra hc
  push Not at hc
  apply h
  unfold numFirst
  have : ∀ i, (f i).first = true := fun i => by simpa using hc i
  simp [this]

theorem numFirst_le (f : Fin m → Other) : numFirst f ≤ m := by
  have : numFirst f ≤ ∑ _j : Fin m, 1 := Finset.sum_le_sum fun j _ => by split_ifs <;> omega
  simpa using this

theorem inv_start : Inv (start m) := by
  refine ⟨?_, ?_, ?_, ?_, ?_, ?_, ?_, ?_⟩ <;> simp [start, numFirst]

/-- Updating one process. -/
theorem forall_upd {P : Fin m → Other → Prop} {f : Fin m → Other} {i : Fin m} {x : Other}
    (hx : P i x) (h : ∀ j, j ≠ i → P j (f j)) (j : Fin m) : P j (Function.update f i x j) := by
  by_cases e : j = i
  · subst e; simpa using hx
  · simpa [e] using h j e

theorem inv_step {s t : State m} (inv : Inv s) (h : Step s t) : Inv t := by
  cases h with
  | rootStart hs =>
    exact ⟨inv.first, fun _ => rfl, inv.count, inv.next, inv.upto, inv.before, inv.after, inv.seen⟩
  | otherStart i hs =>
    have hf : (s.others i).first = false := by
      by_contra hc
      have := inv.first i (by simpa using hc)
      simp [hs] at this
    refine ⟨?_, inv.rootStarted, ?_, ?_, ?_, ?_, ?_, ?_⟩
    · exact forall_upd (P := fun _ x => x.first = true → x.started = true) (fun _ => rfl)
        (fun j _ => inv.first j)
    · intro h
      have := sum_update (fun x => if x.first then 1 else 0) s.others i
        { s.others i with started := true }
      have h2 := inv.count h
      unfold numFirst at h2 ⊢
      dsimp only at this ⊢
      omega
    · intro h
      refine ⟨(inv.next h).1, ?_⟩
      exact forall_upd (P := fun _ x => x.first = true) ((inv.next h).2 i) (fun j _ => (inv.next h).2 j)
    · intro k hk
      refine ⟨(inv.upto k hk).1, ?_⟩
      exact forall_upd (P := fun j x => x.second = true ↔ j.val < k) ((inv.upto k hk).2 i)
        (fun j _ => (inv.upto k hk).2 j)
    · intro h h'
      exact forall_upd (P := fun _ x => x.second = false) (inv.before h h' i)
        (fun j _ => inv.before h h' j)
    · intro h
      exact forall_upd (P := fun _ x => x.first = true ∧ x.second = true) (inv.after h i)
        (fun j _ => inv.after h j)
    · exact forall_upd (P := fun _ x => x.seen = true → x.second = true) (inv.seen i)
        (fun j _ => inv.seen j)
  | rootRecv i h1 h2 h3 h4 h5 h6 =>
    refine ⟨?_, fun _ => h1, ?_, ?_, ?_, ?_, ?_, ?_⟩
    · exact forall_upd (P := fun _ x => x.first = true → x.started = true) (fun _ => h5)
        (fun j _ => inv.first j)
    · intro h
      have := sum_update (fun x => if x.first then 1 else 0) s.others i
        { s.others i with first := true }
      have hc := inv.count h3
      unfold numFirst at hc ⊢
      simp only [h6, Bool.false_eq_true, if_false, if_true] at this
      dsimp only
      omega
    · intro h; exact absurd h2 h
    · intro k hk
      have hk' : s.root.next = some k := hk
      rw [h2] at hk'
      cases hk'
    · intro h h'
      exact forall_upd (P := fun _ x => x.second = false) (inv.before h2 h3 i)
        (fun j _ => inv.before h2 h3 j)
    · intro h
      have h' : s.root.seen = true := h
      rw [h3] at h'
      cases h'
    · exact forall_upd (P := fun _ x => x.seen = true → x.second = true) (inv.seen i)
        (fun j _ => inv.seen j)
  | rootAll h1 h2 h3 h4 =>
    have hall : ∀ i, (s.others i).first = true := fun i =>
      numFirst_all ((inv.count h3).symm.trans h4) i
    refine ⟨inv.first, fun _ => h1, inv.count, fun _ => ⟨h3, hall⟩, ?_, ?_, inv.after, inv.seen⟩
    · intro k hk
      cases hk
      refine ⟨Nat.zero_le _, fun i => ?_⟩
      have := inv.before h2 h3 i
      simp [this]
    · intro h; cases h
  | rootSecond i h1 h2 h3 =>
    obtain ⟨hns, hall⟩ := inv.next (by simp [h1])
    refine ⟨?_, ?_, ?_, ?_, ?_, ?_, ?_, ?_⟩
    · exact forall_upd (P := fun _ x => x.first = true → x.started = true) (fun _ => h2)
        (fun j _ => inv.first j)
    · intro _; exact inv.rootStarted (Or.inl (by simp [h1]))
    · intro h
      have := sum_update (fun x => if x.first then 1 else 0) s.others i
        { s.others i with second := true }
      have hc := inv.count hns
      unfold numFirst at hc ⊢
      dsimp only at this ⊢
      omega
    · intro _
      exact ⟨hns, forall_upd (P := fun _ x => x.first = true) (hall i) (fun j _ => hall j)⟩
    · intro k hk
      cases hk
      refine ⟨i.isLt, ?_⟩
      refine forall_upd (P := fun j x => x.second = true ↔ j.val < i.val + 1) (by simp) ?_
      intro j hj
      rw [(inv.upto _ h1).2 j]
      have : j.val ≠ i.val := fun e => hj (Fin.ext e)
      omega
    · intro h; cases h
    · intro h
      have h' : s.root.seen = true := h
      rw [hns] at h'
      cases h'
    · exact forall_upd (P := fun _ x => x.seen = true → x.second = true) (fun _ => rfl)
        (fun j _ => inv.seen j)
  | rootSeen h1 =>
    obtain ⟨hns, hall⟩ := inv.next (by simp [h1])
    refine ⟨inv.first, fun _ => inv.rootStarted (Or.inl (by simp [h1])), ?_, ?_, ?_, ?_, ?_, inv.seen⟩
    · intro h; cases h
    · intro h; exact absurd rfl h
    · intro k hk; cases hk
    · intro _ h; cases h
    · intro _ i
      exact ⟨hall i, ((inv.upto m h1).2 i).2 i.isLt⟩
  | otherSeen i h1 h2 =>
    refine ⟨?_, inv.rootStarted, ?_, ?_, ?_, ?_, ?_, ?_⟩
    · exact forall_upd (P := fun _ x => x.first = true → x.started = true) (inv.first i)
        (fun j _ => inv.first j)
    · intro h
      have := sum_update (fun x => if x.first then 1 else 0) s.others i
        { s.others i with seen := true }
      have h2 := inv.count h
      unfold numFirst at h2 ⊢
      dsimp only at this ⊢
      omega
    · intro h
      refine ⟨(inv.next h).1, ?_⟩
      exact forall_upd (P := fun _ x => x.first = true) ((inv.next h).2 i) (fun j _ => (inv.next h).2 j)
    · intro k hk
      refine ⟨(inv.upto k hk).1, ?_⟩
      exact forall_upd (P := fun j x => x.second = true ↔ j.val < k) ((inv.upto k hk).2 i)
        (fun j _ => (inv.upto k hk).2 j)
    · intro h h'
      exact forall_upd (P := fun _ x => x.second = false) (inv.before h h' i)
        (fun j _ => inv.before h h' j)
    · intro h
      exact forall_upd (P := fun _ x => x.first = true ∧ x.second = true) (inv.after h i)
        (fun j _ => inv.after h j)
    · exact forall_upd (P := fun _ x => x.seen = true → x.second = true) (fun _ => h2)
        (fun j _ => inv.seen j)

theorem inv_reach {s : State m} (h : Reach (start m) s) : Inv s := by
  induction h with
  | refl => exact inv_start
  | step _ hs ih => exact inv_step ih hs

/-- **C53 (barrier)**: without `MPI_Ibarrier`, `Check` returns true on a process only after every process has
called `Start`, for every number of processes and every interleaving. -/
theorem C53_barrier (s : State m) (h : Reach (start m) s)
    (hs : s.root.seen = true ∨ ∃ i, (s.others i).seen = true) : Spec.AllStarted s := by
  have inv := inv_reach h
  have key : s.root.next ≠ none ∨ s.root.seen = true := by
    rcases hs with hs | ⟨i, hi⟩
    · exact Or.inr hs
    · by_contra hc
      push Not at hc
      have := inv.before hc.1 (by simpa using hc.2) i
      rw [inv.seen i hi] at this
      cases this
  refine ⟨inv.rootStarted key, fun i => inv.first i ?_⟩
  rcases key with h | h
  · exact (inv.next h).2 i
  · exact (inv.after h i).1

/-- Work left. -/
def otherWork (x : Other) : Nat :=
  (if x.started then 0 else 1) + (if x.first then 0 else 1) + (if x.second then 0 else 1) +
    (if x.seen then 0 else 1)

def rootWork (x : Root) : Nat :=
  (if x.started then 0 else 1) + (if x.seen then 0 else if x.next = none then 2 else 1)

def left (s : State m) : Nat := rootWork s.root + ∑ i, otherWork (s.others i)

theorem left_lt {s : State m} {r : Root} {i : Fin m} {x : Other}
    (h : rootWork r + otherWork x < rootWork s.root + otherWork (s.others i)) :
    left ⟨r, Function.update s.others i x⟩ < left s := by
  have := sum_update otherWork s.others i x
  unfold left
  dsimp only
  omega

theorem progress {s : State m} (inv : Inv s) (hs : ¬ Spec.AllSeen s) :
    ∃ t, Step s t ∧ left t < left s := by
  by_cases h1 : s.root.started = false
  · refine ⟨_, .rootStart h1, ?_⟩
    simp [left, rootWork, h1]
  have h1' : s.root.started = true := by simpa using h1
  by_cases h2 : ∃ i, (s.others i).started = false
  · obtain ⟨i, hi⟩ := h2
    refine ⟨_, .otherStart i hi, left_lt ?_⟩
    simp only [otherWork, hi]
    simp
  have h2' : ∀ i, (s.others i).started = true := fun i => by
    by_contra hc
    exact h2 ⟨i, by simpa using hc⟩
  by_cases h3 : s.root.seen = true
  · have : ∃ i, (s.others i).seen = false := by
      by_contra hc
      push Not at hc
      exact hs ⟨h3, fun i => by simpa using hc i⟩
    obtain ⟨i, hi⟩ := this
    refine ⟨_, .otherSeen i (h2' i) (inv.after h3 i).2, left_lt ?_⟩
    simp only [otherWork, hi]
    simp
  have h3' : s.root.seen = false := by simpa using h3
  cases h4 : s.root.next with
  | none =>
    by_cases h5 : s.root.count = m
    · refine ⟨_, .rootAll h1' h4 h3' h5, ?_⟩
      simp [left, rootWork, h3', h4]
    · rw [inv.count h3'] at h5
      obtain ⟨i, hi⟩ := numFirst_some h5
      have hle := numFirst_le s.others
      refine ⟨_, .rootRecv i h1' h4 h3' (by rw [inv.count h3']; omega) (h2' i) hi, left_lt ?_⟩
      simp only [otherWork, rootWork, hi]
      simp
  | some k =>
    obtain ⟨hk, hsec⟩ := inv.upto k h4
    by_cases h5 : k = m
    · subst h5
      refine ⟨_, .rootSeen h4, ?_⟩
      simp [left, rootWork, h3', h4]
    · have hkm : k < m := by omega
      have hns : (s.others ⟨k, hkm⟩).second = false := by
        by_contra hc
        have := (hsec ⟨k, hkm⟩).1 (by simpa using hc)
        simp at this
      refine ⟨_, .rootSecond ⟨k, hkm⟩ h4 (h2' _) hns, left_lt ?_⟩
      simp only [otherWork, rootWork, hns, h4]
      simp

/-- **C53 (no deadlock)**: in every reachable state `Check` can still come to return true everywhere. -/
theorem C53_no_deadlock (s : State m) (h : Reach (start m) s) : ∃ t, Reach s t ∧ Spec.AllSeen t := by
  have trans : ∀ {a b c : State m}, Reach a b → Reach b c → Reach a c := by
    intro a b c h1 h2
    induction h2 with
    | refl => exact h1
    | step _ hs ih => exact .step ih hs
  have key : ∀ k s, left s = k → Reach (start m) s → ∃ t, Reach s t ∧ Spec.AllSeen t := by
    intro k
    induction k using Nat.strongRecOn with
    | ind k ih =>
      intro s hk hr
      by_cases hd : Spec.AllSeen s
      · exact ⟨s, .refl, hd⟩
      · obtain ⟨t, h1, h2⟩ := progress (inv_reach hr) hd
        obtain ⟨u, h3, h4⟩ := ih (left t) (by omega) t rfl (.step hr h1)
        exact ⟨u, trans (.step .refl h1) h3, h4⟩
  exact key _ s rfl h

/-- With two other processes some state has a finished process. -/
example : ∃ s : State 2, Reach (start 2) s ∧ s.root.seen = true ∧ Spec.AllStarted s := by
  obtain ⟨t, h1, h2⟩ := C53_no_deadlock (start 2) .refl
  exact ⟨t, h1, h2.1, C53_barrier t h1 (Or.inl h2.1)⟩

end Sig
end Ovk.Shake
