/-
Property C107: filling a range of a distributed field.
-/
import Verif.Model.DistField
import Verif.Props.Halo

namespace Ovk
namespace Spec
variable {d : Nat}

/-- A range, which may reach outside the index space, names a point: some tuple of it has this point as its home. -/
def Names (c : Cart d) (r : Rng d) (q : Tup d) : Prop := ∃ t, pts r t ∧ Home c t q

/-- Tuples of the index space are in the first period: always with unique storage; with duplicated storage the range
must not leave the index space. -/
def Plain (c : Cart d) (r : Rng d) : Prop := c.storage = .unique ∨ ∀ t, pts r t → pts c.range t

end Spec

namespace DField
open Halo
variable {d n : Nat} {V : Type}

theorem writeAll_miss (ext : Rng d) (v : V) : ∀ (ps : List (Tup d)) (m : Int → V) (j : Int),
    (∀ p ∈ ps, ext.colIndex p ≠ j) → writeAll ext m ps v j = m j
  | [], _, _, _ => rfl
  | p :: ps, m, j, h => by
    show writeAll ext (write m (ext.colIndex p) v) ps v j = m j
    rw [writeAll_miss ext v ps _ j fun q hq => h q (by simp [hq])]
    unfold write
    rw [if_neg (fun e => h p (by simp) e.symm)]

theorem writeAll_hit (ext : Rng d) (v : V) : ∀ (ps : List (Tup d)) (m : Int → V) (p : Tup d), p ∈ ps →
    writeAll ext m ps v (ext.colIndex p) = v
  | [], _, _, h => by simp at h
  | q :: ps, m, p, h => by
    show writeAll ext (write m (ext.colIndex q) v) ps v (ext.colIndex p) = v
    by_cases hp : p ∈ ps
    · exact writeAll_hit ext v ps _ p hp
    · rcases List.mem_cons.1 h with rfl | h
      · by_cases he : ∃ q ∈ ps, ext.colIndex q = ext.colIndex p
        · obtain ⟨q, hq, e⟩ := he
          rw [← e]; exact writeAll_hit ext v ps _ q hq
        · rw [writeAll_miss ext v ps _ _ (fun q hq e => he ⟨q, hq, e⟩)]
          simp [write]
      · exact absurd h hp

theorem includes_pts {r o : Rng d} (h : r.includes o = true) {p : Tup d} (hp : Spec.pts o p) : Spec.pts r p := by
  unfold Rng.includes Rng.empty at h
  simp only [Bool.or_eq_true, decide_eq_true_eq] at h
  rcases h with ⟨i, hi⟩ | h
  · have := hp i; omega
  · intro i; have := hp i; have := h i; omega

theorem adjust_unique (c : Cart d) (hc : Spec.Proper c) (hs : c.storage = .unique) {t : Tup d}
    (ht : Spec.pts c.range t) : c.periodicAdjust t = t := by
  funext i
  by_cases hi : c.periodic i = true
  · have h1 := C03_same_point c hc t i
    simp only [hi, if_true] at h1
    obtain ⟨k, hk⟩ := h1
    have h2 := C03_first_period c hc t i hi
    have hl : Spec.periodLen c i = c.range.e i - c.range.b i := by unfold Spec.periodLen; simp [hs]
    have h3 := ht i
    rw [hk] at h2
    have := image_unique (P := Spec.periodLen c i) (a := c.range.b i) (x := t i) (k := k) h3.1 (by omega) h2.1 h2.2
    rw [hk, this]; ring
  · simp [Cart.periodicAdjust, hi]

theorem mem_fillPoints (c : Cart d) (loc r : Rng d) (q : Tup d) :
    q ∈ fillPoints c loc r ↔ Spec.pts loc q ∧
      (Spec.pts r q ∨ ((¬ ∀ t, Spec.pts r t → Spec.pts c.range t) ∧
        ∃ t, Spec.pts r t ∧ ¬ Spec.pts loc t ∧ c.periodicAdjust t = q)) := by
  unfold fillPoints
  split_ifs with hi
  · rw [mem_pts]
    constructor
    · intro h
      refine ⟨fun i => ?_, .inl fun i => ?_⟩ <;>
      · have := h i
        unfold intersectRanges at this
        simp only at this
        omega
    · rintro ⟨h, h' | h'⟩
      · intro i; have := h i; have := h' i; unfold intersectRanges; simp only; omega
      · exact absurd (fun t ht => includes_pts hi ht) h'.1
  · have hout : ¬ ∀ t, Spec.pts r t → Spec.pts c.range t := by
      intro h
      apply hi
      unfold Rng.includes
      simp only [Bool.or_eq_true, decide_eq_true_eq]
      by_cases he : r.empty = true
      · exact .inl he
      · right
        have hne : ∀ i, r.b i < r.e i := by
          intro i
          by_contra hx
          apply he
          unfold Rng.empty
          rw [decide_eq_true_eq]
          exact ⟨i, by omega⟩
        intro i
        have h1 := h r.b (fun j => ⟨le_refl _, hne j⟩) i
        have h2 := h (fun j => r.e j - 1) (fun j => by have := hne j; show r.b j ≤ r.e j - 1 ∧ r.e j - 1 < r.e j; omega) i
        simp only at h2
        omega
    rw [List.mem_filterMap]
    constructor
    · rintro ⟨t, ht, h⟩
      rw [mem_pts] at ht
      unfold fillAt at h
      split_ifs at h with h1 h2
      · rw [Option.some.injEq] at h; subst h
        exact ⟨(contains_iff_pts _ _).1 h1, .inl ht⟩
      · rw [Option.some.injEq] at h; subst h
        exact ⟨(contains_iff_pts _ _).1 h2, .inr ⟨hout, t, ht, fun h => h1 ((contains_iff_pts _ _).2 h), rfl⟩⟩
    · rintro ⟨hq, h | ⟨-, t, ht, hn, rfl⟩⟩
      · exact ⟨q, (mem_pts _ _).2 h, by unfold fillAt; rw [if_pos ((contains_iff_pts _ _).2 hq)]⟩
      · refine ⟨t, (mem_pts _ _).2 ht, ?_⟩
        unfold fillAt
        rw [if_neg (fun h => hn ((contains_iff_pts _ _).1 h)), if_pos ((contains_iff_pts _ _).2 hq)]

section
variable {s : Setup d n} (hg : Good s)
include hg

/-- Which points a process writes before the exchange. -/
theorem written_of_names (r : Rng d) (a : Fin n) (q : Tup d) (hq : Spec.pts (s.loc a) q) (h : Spec.Names s.cart r q) :
    q ∈ fillPoints s.cart (s.loc a) r := by
  rw [mem_fillPoints _ _ _]
  obtain ⟨t, ht, hh⟩ := h
  refine ⟨hq, ?_⟩
  by_cases hr : Spec.pts s.cart.range t
  · left; rw [hh.2.1 hr]; exact ht
  · right
    refine ⟨fun h => hr (h t ht), t, ht, fun h => hr (loc_in hg a h), ?_⟩
    have := ((home_iff _ hg.proper _ _).1 hh).1
    rw [target_of_out _ hr] at this
    exact this.symm

theorem same_of_written (r : Rng d) (a : Fin n) (q : Tup d) (h : q ∈ fillPoints s.cart (s.loc a) r) :
    ∃ t, Spec.pts r t ∧ Spec.SamePoint s.cart t q := by
  rw [mem_fillPoints _ _ _] at h
  rcases h.2 with h | ⟨-, t, ht, -, rfl⟩
  · exact ⟨q, h, samePoint_refl _ _⟩
  · exact ⟨t, ht, C03_same_point _ hg.proper t⟩

theorem names_of_written (r : Rng d) (hr : Spec.Plain s.cart r) (a : Fin n) (q : Tup d)
    (h : q ∈ fillPoints s.cart (s.loc a) r) : Spec.Names s.cart r q := by
  rw [mem_fillPoints _ _ _] at h
  have hqr := loc_in hg a h.1
  rcases h.2 with h' | ⟨hout, t, ht, hn, hqt⟩
  · exact ⟨q, h', (home_iff _ hg.proper _ _).2 ⟨(target_of_in _ hqr).symm, hqr⟩⟩
  · refine ⟨t, ht, (home_iff _ hg.proper _ _).2 ⟨?_, hqr⟩⟩
    by_cases htr : Spec.pts s.cart.range t
    · rcases hr with hs | hr
      · rw [target_of_in _ htr, ← hqt, adjust_unique _ hg.proper hs htr]
      · exact absurd hr hout
    · rw [target_of_out _ htr, hqt]

theorem written_value (r : Rng d) (v : V) (f : Fin n → Int → V) (a : Fin n) (q : Tup d) (hq : Spec.pts (s.loc a) q) :
    (q ∈ fillPoints s.cart (s.loc a) r → fillLocal s r v f a ((s.ext a).colIndex q) = v) ∧
    (q ∉ fillPoints s.cart (s.loc a) r →
      fillLocal s r v f a ((s.ext a).colIndex q) = f a ((s.ext a).colIndex q)) := by
  refine ⟨fun h => writeAll_hit _ _ _ _ _ h, fun h => writeAll_miss _ _ _ _ _ ?_⟩
  intro p hp e
  have hpl := ((mem_fillPoints _ _ _ p).1 hp).1
  exact h (Rng.index_inj .col _ _ _ (hg.within a p hpl) (hg.within a q hq) e ▸ hp)
end

/-- C107: when all processes have returned from `Fill(Range, v)`, every copy of a point named by the range, on every
process that holds it or a halo copy of it, is `v`. -/
theorem C107_filled {s : Setup d n} (hg : Good s) (r : Rng d) (v : V) (f : Fin n → Int → V) (es : List (Event n))
    (x : State n V) (hrun : fill s r v f es = some x) (hfin : Finished s x)
    (b : Fin n) (p : Tup d) (hp : Spec.pts (s.ext b) p) (q : Tup d) (hq : Spec.Home s.cart p q)
    (a : Fin n) (ha : Spec.pts (s.loc a) q) (hab : a = b ∨ a ∈ s.nbrs b) (hn : Spec.Names s.cart r q) :
    x.field b ((s.ext b).colIndex p) = v := by
  rw [C20_values hg _ es x hrun hfin b p hp q hq a ha hab]
  exact (written_value hg r v f a q ha).1 (written_of_names hg r a q ha hn)

/-- C107: every copy of a point that is not named, not even through a duplicate, has the value of its owner before the
call. -/
theorem C107_kept {s : Setup d n} (hg : Good s) (r : Rng d) (v : V) (f : Fin n → Int → V) (es : List (Event n))
    (x : State n V) (hrun : fill s r v f es = some x) (hfin : Finished s x)
    (b : Fin n) (p : Tup d) (hp : Spec.pts (s.ext b) p) (q : Tup d) (hq : Spec.Home s.cart p q)
    (a : Fin n) (ha : Spec.pts (s.loc a) q) (hab : a = b ∨ a ∈ s.nbrs b)
    (hn : ∀ t, Spec.pts r t → ¬ Spec.SamePoint s.cart t q) :
    x.field b ((s.ext b).colIndex p) = f a ((s.ext a).colIndex q) := by
  rw [C20_values hg _ es x hrun hfin b p hp q hq a ha hab]
  refine (written_value hg r v f a q ha).2 fun h => ?_
  obtain ⟨t, ht, h⟩ := same_of_written hg r a q h
  exact hn t ht h

/-- C107: with unique storage, or if the range does not leave the index space, exactly the named points change. -/
theorem C107_exact {s : Setup d n} (hg : Good s) (r : Rng d) (hr : Spec.Plain s.cart r) (v : V)
    (f : Fin n → Int → V) (es : List (Event n))
    (x : State n V) (hrun : fill s r v f es = some x) (hfin : Finished s x)
    (b : Fin n) (p : Tup d) (hp : Spec.pts (s.ext b) p) (q : Tup d) (hq : Spec.Home s.cart p q)
    (a : Fin n) (ha : Spec.pts (s.loc a) q) (hab : a = b ∨ a ∈ s.nbrs b) (hn : ¬ Spec.Names s.cart r q) :
    x.field b ((s.ext b).colIndex p) = f a ((s.ext a).colIndex q) := by
  rw [C20_values hg _ es x hrun hfin b p hp q hq a ha hab]
  exact (written_value hg r v f a q ha).2 fun h => hn (names_of_written hg r hr a q h)

/-- C107: the calls return: as long as some process has not returned, some event of the exchange can happen, and there
are at most `n + n * n` of them. -/
theorem C107_returns {s : Setup d n} (hg : Good s) (r : Rng d) (v : V) (f : Fin n → Int → V) (es : List (Event n))
    (x : State n V) (hrun : fill s r v f es = some x) :
    es.length ≤ n + n * n ∧ (¬ Finished s x → ∃ e y, step s x e = some y) :=
  ⟨C20_terminates s _ es x hrun, C20_progress hg _ es x hrun⟩

/-- C107: everything written before the exchange lies in the array of the extended range. -/
theorem C107_in_bounds {s : Setup d n} (hg : Good s) (r : Rng d) (a : Fin n) (q : Tup d)
    (h : q ∈ fillPoints s.cart (s.loc a) r) :
    0 ≤ (s.ext a).colIndex q ∧ (s.ext a).colIndex q < (s.ext a).count :=
  Rng.index_bounds .col _ _ (hg.within a q ((mem_fillPoints _ _ _ q).1 h).1)

/-- The owners' values of two decompositions of one index space are the same after the same `Fill` of the same values. -/
def Independent (V : Type) (P : ∀ {d : Nat}, Cart d → Rng d → Prop) : Prop :=
  ∀ (d n n' : Nat) (s : Setup d n) (s' : Setup d n'), Good s → Good s' → s.cart = s'.cart →
  ∀ (r : Rng d) (v : V) (g : Tup d → V) (f : Fin n → Int → V) (f' : Fin n' → Int → V),
    P s.cart r →
    (∀ a p, Spec.pts (s.loc a) p → f a ((s.ext a).colIndex p) = g p) →
    (∀ a p, Spec.pts (s'.loc a) p → f' a ((s'.ext a).colIndex p) = g p) →
  ∀ es es' x x', fill s r v f es = some x → fill s' r v f' es' = some x' → Finished s x → Finished s' x' →
  ∀ a a' p, Spec.pts (s.loc a) p → Spec.pts (s'.loc a') p →
    x.field a ((s.ext a).colIndex p) = x'.field a' ((s'.ext a').colIndex p)

/-- C107: the result does not depend on the decomposition, with unique storage or a range in the index space. -/
theorem C107_independent : Independent V Spec.Plain := by
  intro d n n' s s' hg hg' hc r v g f f' hr hf hf' es es' x x' hx hx' hfin hfin' a a' p hp hp'
  have hh : Spec.Home s.cart p p := ⟨loc_in hg a hp, fun _ => rfl, fun h => absurd (loc_in hg a hp) h⟩
  have hh' : Spec.Home s'.cart p p := hc ▸ hh
  by_cases hn : Spec.Names s.cart r p
  · rw [C107_filled hg r v f es x hx hfin a p (hg.within a p hp) p hh a hp (.inl rfl) hn,
      C107_filled hg' r v f' es' x' hx' hfin' a' p (hg'.within a' p hp') p hh' a' hp' (.inl rfl) (hc ▸ hn)]
  · rw [C107_exact hg r hr v f es x hx hfin a p (hg.within a p hp) p hh a hp (.inl rfl) hn,
      C107_exact hg' r (hc ▸ hr) v f' es' x' hx' hfin' a' p (hg'.within a' p hp') p hh' a' hp' (.inl rfl) (hc ▸ hn),
      hf a p hp, hf' a' p hp']

/-! ### Duplicated storage -/

/-- Five points, the last a duplicate of the first. -/
def dupCart : Cart 1 := ⟨⟨![0], ![5]⟩, ![true], .duplicated⟩

def dupOne : Setup 1 1 := ⟨dupCart, fun _ => ⟨![0], ![5]⟩, fun _ => ⟨![0], ![5]⟩, fun _ => []⟩

def dupLoc : Fin 2 → Rng 1 := ![⟨![0], ![3]⟩, ⟨![3], ![5]⟩]

def dupTwo : Setup 1 2 := ⟨dupCart, dupLoc, dupLoc, ![[1], [0]]⟩

theorem dupOne_good : Good dupOne where
  proper := by unfold dupOne Spec.Proper Spec.periodLen dupCart; decide
  tiles := ⟨by unfold dupOne dupCart; decide, fun p hp => ⟨0, hp, fun k _ => Subsingleton.elim _ _⟩⟩
  within := fun _ _ h => h
  sym := by unfold dupOne; decide
  irrefl := by unfold dupOne; decide

theorem dupTwo_good : Good dupTwo where
  proper := by unfold dupTwo Spec.Proper Spec.periodLen dupCart; decide
  tiles := by
    refine ⟨by unfold dupTwo dupCart dupLoc; decide, fun p hp => ?_⟩
    have h : 0 ≤ p 0 ∧ p 0 < 5 := hp 0
    by_cases hx : p 0 < 3
    · refine ⟨0, fun i => ?_, ?_⟩
      · have : i = 0 := Subsingleton.elim _ _
        subst this; exact ⟨h.1, hx⟩
      · intro k hk
        fin_cases k
        · rfl
        · have : (3 : Int) ≤ p 0 := (hk 0).1
          omega
    · refine ⟨1, fun i => ?_, ?_⟩
      · have : i = 0 := Subsingleton.elim _ _
        subst this; exact ⟨by show (3 : Int) ≤ p 0; omega, h.2⟩
      · intro k hk
        fin_cases k
        · have : p 0 < 3 := (hk 0).2
          omega
        · rfl
  within := fun _ _ h => h
  sym := by unfold dupTwo; decide
  irrefl := by unfold dupTwo; decide

/-- C107: with duplicated storage and a range that leaves the index space the result depends on the decomposition:
filling `[4,6)` in `[0,5)` with period 4 changes the first point if its process does not own the last, and does not if
it does. -/
theorem C107_duplicated : ¬ Independent Nat (fun _ _ => True) := by
  intro h
  have e1 := (by decide +kernel : Option.map (fun x : State 1 Nat => (x.started 0, x.field 0
    ((dupOne.ext 0).colIndex ![0]))) (fill dupOne ⟨![4], ![6]⟩ 1 (fun _ _ => (0 : Nat)) [.start 0]) = some (true, 0))
  have e2 := (by decide +kernel : Option.map (fun x : State 2 Nat => (x.started 0, x.started 1, x.done 0 1, x.done 1 0,
      x.field 0 ((dupTwo.ext 0).colIndex ![0])))
    (fill dupTwo ⟨![4], ![6]⟩ 1 (fun _ _ => (0 : Nat)) [.start 0, .start 1, .complete 0 1, .complete 1 0]) =
    some (true, true, true, true, 1))
  simp only [Option.map_eq_some_iff, Prod.mk.injEq] at e1 e2
  obtain ⟨x, hx, h1, h2⟩ := e1
  obtain ⟨x', hx', h3, h4, h5, h6, h7⟩ := e2
  have := h 1 1 2 dupOne dupTwo dupOne_good dupTwo_good rfl ⟨![4], ![6]⟩ 1 (fun _ => 0) (fun _ _ => 0) (fun _ _ => 0)
    trivial (fun _ _ _ => rfl) (fun _ _ _ => rfl) _ _ x x' hx hx'
    ⟨fun a => by rw [Subsingleton.elim a 0]; exact h1, fun b a ha => by
      have : a ∈ ([] : List (Fin 1)) := ha
      simp at this⟩
    ⟨fun a => by fin_cases a <;> assumption, fun b a ha => by
      fin_cases b
      · have : a ∈ [(1 : Fin 2)] := ha
        rw [List.mem_singleton] at this; subst this; exact h5
      · have : a ∈ [(0 : Fin 2)] := ha
        rw [List.mem_singleton] at this; subst this; exact h6⟩
    0 0 ![0]
    (fun i => by have : i = 0 := Subsingleton.elim _ _
                 subst this; exact ⟨by decide, by decide⟩)
    (fun i => by have : i = 0 := Subsingleton.elim _ _
                 subst this; exact ⟨by decide, by decide⟩)
  rw [h2, h7] at this
  cases this

/-! ### Example: the ring of C20, filled with 7 across the seam -/

/- Points -1, 0 of the ring of six points on two processes: points 5 and 0 and all their copies get 7. -/
example : ((fill exSetup ⟨![-1], ![1]⟩ (7 : Int) (fun k j => 100 * (k : Int) + j)
      [.start 1, .start 0, .complete 0 1, .complete 1 0]).map fun x =>
    ([0, 1, 2, 3, 4, 5, 6].map (x.field 0), [0, 1, 2, 3, 4, 5, 6, 7, 8].map (x.field 1))) =
    some ([104, 7, 7, 3, 102, 103, 104], [7, 3, 102, 103, 104, 7, 7, 3, 102]) := by decide +kernel

example : Spec.Plain exSetup.cart ⟨![-1], ![1]⟩ := .inl rfl

example : Spec.Names exSetup.cart ⟨![-1], ![1]⟩ ![5] := by
  refine ⟨![-1], fun i => ?_, (home_iff _ exSetup_good.proper _ _).2 ⟨by decide +kernel, fun i => ?_⟩⟩ <;>
  · have : i = 0 := Subsingleton.elim _ _
    subst this; exact ⟨by decide, by decide⟩

end DField
end Ovk
