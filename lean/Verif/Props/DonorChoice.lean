/-
Property C74: which of several eligible donor grids is chosen.
-/
import Verif.Props.Donors
import Mathlib.Tactic.FieldSimp
import Mathlib.Data.List.Sort

namespace Ovk.Asm
variable {d n : Nat}

namespace Spec
/-- `δ` is the least distance of a vertex of the cell. -/
def LeastDistance (P : Problem d n) (dist : Fin n → Tup d → Int) (m : Fin n) (cell : Tup d) (δ : Int) : Prop :=
  (∃ v ∈ (P.grid m).verts cell, dist m v = δ) ∧ ∀ v ∈ (P.grid m).verts cell, δ ≤ dist m v

/-- The distance of a donor cell from the receivers of its grid as a fraction of the distance wanted, at most
one. -/
def Clearance (P : Problem d n) (dist : Fin n → Tup d → Int) (m k : Fin n) (cell : Tup d) (x : Rat) : Prop :=
  ∃ δ, LeastDistance P dist m cell δ ∧ x = min ((δ : Rat) / ((P.edgePadding m k : Rat) + 1)) 1
end Spec

variable {P : Problem d n} {s s' : St d n}

theorem foldl_min_spec (f : Tup d → Int) (l : List (Tup d)) : ∀ a : Int,
    (l.foldl (fun a q => min a (f q)) a = a ∨ ∃ v ∈ l, f v = l.foldl (fun a q => min a (f q)) a) ∧
    l.foldl (fun a q => min a (f q)) a ≤ a ∧ ∀ v ∈ l, l.foldl (fun a q => min a (f q)) a ≤ f v := by
  induction l with
  | nil => intro a; simp
  | cons v l ih =>
    intro a
    rw [List.foldl_cons]
    obtain ⟨h1, h2, h3⟩ := ih (min a (f v))
    refine ⟨?_, by omega, ?_⟩
    · rcases h1 with h1 | ⟨w, hw, hwe⟩
      · by_cases hc : a ≤ f v
        · left; omega
        · right; exact ⟨v, by simp, by omega⟩
      · exact .inr ⟨w, by simp [hw], hwe⟩
    · intro w hw
      rcases List.mem_cons.1 hw with rfl | hw
      · omega
      · exact h3 w hw

theorem cellDistance_least (dist : Fin n → Tup d → Int) (m : Fin n) (cell : Tup d) :
    Spec.LeastDistance P dist m cell (Problem.cellDistance (P.grid m) (dist m) cell) := by
  unfold Spec.LeastDistance Problem.cellDistance
  have := verts_ne (P.grid m) cell
  cases h : (P.grid m).verts cell with
  | nil => exact absurd h this
  | cons v vs =>
    dsimp only
    obtain ⟨h1, h2, h3⟩ := foldl_min_spec (dist m) vs (dist m v)
    refine ⟨?_, fun w hw => ?_⟩
    · rcases h1 with h1 | ⟨w, hw, hwe⟩
      · exact ⟨v, by simp, h1.symm⟩
      · exact ⟨w, by simp [hw], hwe⟩
    · rcases List.mem_cons.1 hw with rfl | hw
      · exact h2
      · exact h3 w hw

theorem least_unique {dist : Fin n → Tup d → Int} {m : Fin n} {cell : Tup d} {a b : Int}
    (ha : Spec.LeastDistance P dist m cell a) (hb : Spec.LeastDistance P dist m cell b) : a = b := by
  obtain ⟨⟨v, hv, rfl⟩, h1⟩ := ha
  obtain ⟨⟨w, hw, rfl⟩, h2⟩ := hb
  have := h1 w hw; have := h2 v hv
  omega

theorem clearance_iff (dist : Fin n → Tup d → Int) (m k : Fin n) (cell : Tup d) (x : Rat) :
    Spec.Clearance P dist m k cell x ↔
      x = Problem.normalized (Problem.cellDistance (P.grid m) (dist m) cell) (P.edgePadding m k) := by
  have hc : ((1 + P.edgePadding m k : Nat) : Rat) = (P.edgePadding m k : Rat) + 1 := by push_cast; ring
  unfold Problem.normalized
  rw [hc]
  constructor
  · rintro ⟨δ, h, rfl⟩
    rw [least_unique h (cellDistance_least dist m cell)]
  · rintro rfl
    exact ⟨_, cellDistance_least dist m cell, rfl⟩

/-- Different fractions with small denominators differ by more than the tolerance. -/
theorem fraction_gap {a b : Int} {u v : Nat} (hu : u < 999999) (hv : v < 999999)
    (h : Problem.normalized a u < Problem.normalized b v) :
    1 / 1000000000000 < Problem.normalized b v - Problem.normalized a u := by
  have key : ∀ (a b : Int) (u v : Nat), 0 < u → 0 < v → u < 1000000 → v < 1000000 →
      (a : Rat) / u < (b : Rat) / v → (1 : Rat) / 1000000000000 < (b : Rat) / v - (a : Rat) / u := by
    intro a b u v hu hv hu2 hv2 hlt
    have hu' : (0 : Rat) < u := by exact_mod_cast hu
    have hv' : (0 : Rat) < v := by exact_mod_cast hv
    rw [div_lt_div_iff₀ hu' hv'] at hlt
    have hlt' : a * v + 1 ≤ b * u := by
      have : a * v < b * u := by exact_mod_cast hlt
      omega
    have e : (b : Rat) / v - (a : Rat) / u = (b * u - a * v) / (v * u) := by
      field_simp
    have h1 : (1 : Rat) ≤ b * u - a * v := by
      have : (a : Rat) * v + 1 ≤ b * u := by exact_mod_cast hlt'
      linarith
    have h2 : ((v : Rat) * u) < 1000000000000 := by
      have : v * u < 1000000 * 1000000 := Nat.mul_lt_mul'' hv2 hu2
      exact_mod_cast this
    have h3 : (0 : Rat) < v * u := by positivity
    rw [e, div_lt_div_iff₀ (by norm_num) h3]
    nlinarith
  have hn : ∀ (a : Int) (u : Nat), u < 999999 → ∃ (c : Int) (w : Nat), 0 < w ∧ w < 1000000 ∧
      Problem.normalized a u = (c : Rat) / w := by
    intro a u hu
    unfold Problem.normalized
    rcases min_choice ((a : Rat) / ((1 + u : Nat) : Rat)) 1 with h | h
    · exact ⟨a, 1 + u, by omega, by omega, h⟩
    · exact ⟨1, 1, by omega, by omega, by rw [h]; norm_num⟩
  obtain ⟨c, w, hw, hw2, hc⟩ := hn a u hu
  obtain ⟨c', w', hw', hw2', hc'⟩ := hn b v hv
  rw [hc, hc'] at h ⊢
  exact key c c' w w' hw hw' hw2 hw2' h

/-- What the loop keeps: the choice is offered, with its distance and volume, and no grid seen so far is
better. -/
structure Kept (P : Problem d n) (s : St d n) (recv : Mask d) (dist : Fin n → Tup d → Int) (k : Fin n)
    (p : Tup d) (seen : List (Fin n)) (c : Problem.Choice n) : Prop where
  offered : offers P s recv dist k p c.grid
  far : ∀ cell, s.ov c.grid k p = some cell →
    c.dist = Problem.normalized (Problem.cellDistance (P.grid c.grid) (dist c.grid) cell) (P.edgePadding c.grid k)
  vol : c.vol = P.ovVol c.grid k p
  best : ∀ m ∈ seen, offers P s recv dist k p m → ∀ cell, s.ov m k p = some cell →
    Problem.normalized (Problem.cellDistance (P.grid m) (dist m) cell) (P.edgePadding m k) ≤ c.dist
  finest : (∀ m m', m ≠ m' → P.occludes m m' = .coarse) → ∀ m ∈ seen, offers P s recv dist k p m →
    ∀ cell, s.ov m k p = some cell →
    Problem.normalized (Problem.cellDistance (P.grid m) (dist m) cell) (P.edgePadding m k) = c.dist →
    c.vol ≤ P.ovVol m k p
  mem : c.grid ∈ seen
  first : (∀ m m', m ≠ m' → P.occludes m m' = .all) → ∀ m ∈ seen, offers P s recv dist k p m →
    ∀ cell, s.ov m k p = some cell →
    Problem.normalized (Problem.cellDistance (P.grid m) (dist m) cell) (P.edgePadding m k) = c.dist → c.grid ≤ m
  last : (∀ m m', m ≠ m' → P.occludes m m' = .none) → ∀ m ∈ seen, offers P s recv dist k p m →
    ∀ cell, s.ov m k p = some cell →
    Problem.normalized (Problem.cellDistance (P.grid m) (dist m) cell) (P.edgePadding m k) = c.dist → m ≤ c.grid

theorem donorStep_kept (hpad : ∀ m k, P.edgePadding m k < 999999) (recv : Mask d) (dist : Fin n → Tup d → Int)
    (k : Fin n) (p : Tup d) (seen : List (Fin n)) (m : Fin n) (hm : ∀ m' ∈ seen, m' < m) (acc : Option (Problem.Choice n))
    (hacc : ∀ c, acc = some c → Kept P s recv dist k p seen c)
    (hnone : acc = none → ∀ m ∈ seen, ¬ offers P s recv dist k p m) :
    ∀ c, P.donorStep s recv dist k p acc m = some c → Kept P s recv dist k p (m :: seen) c := by
  classical
  intro c hc
  by_cases hoff : offers P s recv dist k p m
  · obtain ⟨h1, h2, cell, hcell, h3, h4, h5⟩ := id hoff
    unfold Problem.donorStep at hc
    rw [h1, h2, hcell, h3, h4] at hc
    simp only [Bool.and_self, if_true] at hc
    have hok : (!P.disjoint m k || decide (Problem.normalized (Problem.cellDistance (P.grid m) (dist m) cell)
        (P.edgePadding m k) > 0)) = true := by
      cases hd : P.disjoint m k
      · rfl
      · simpa using h5 hd
    unfold Problem.chooseStep at hc
    dsimp only at hc
    rw [hok] at hc
    generalize hx : Problem.normalized (Problem.cellDistance (P.grid m) (dist m) cell) (P.edgePadding m k) = x at hc
    have hself : ∀ cell', s.ov m k p = some cell' →
        Problem.normalized (Problem.cellDistance (P.grid m) (dist m) cell') (P.edgePadding m k) = x := by
      intro cell' hc'
      obtain rfl : cell = cell' := Option.some.inj (hcell.symm.trans hc')
      exact hx
    cases hacc0 : acc with
    | none =>
      rw [hacc0] at hc
      obtain rfl := Option.some.inj hc
      refine ⟨hoff, fun cell' hc' => (hself cell' hc').symm, rfl, ?_, ?_, by simp, ?_, ?_⟩
      · intro m' hm' ho' cell' hc'
        rcases List.mem_cons.1 hm' with rfl | hm'
        · exact (hself cell' hc').le
        · exact absurd ho' (hnone hacc0 m' hm')
      all_goals
        intro _ m' hm' ho' cell' hc' _
        rcases List.mem_cons.1 hm' with rfl | hm'
        · exact le_refl _
        · exact absurd ho' (hnone hacc0 m' hm')
    | some old =>
      rw [hacc0] at hc
      have K := hacc old hacc0
      obtain ⟨-, -, ocell, hocell, -⟩ := K.offered
      have hod := K.far ocell hocell
      have hom : old.grid < m := hm _ K.mem
      have hgm : old.grid ≠ m := ne_of_lt hom
      simp only [Bool.and_true] at hc
      -- comparison of the distances
      have hcmp : (x < old.dist → Problem.betterDonor (P.occludes old.grid m) old x (P.ovVol m k p) = false) ∧
          (old.dist < x → Problem.betterDonor (P.occludes old.grid m) old x (P.ovVol m k p) = true) := by
        unfold Problem.betterDonor
        constructor
        · intro hlt
          have := fraction_gap (hpad m k) (hpad old.grid k) (by rw [hx, ← hod]; exact hlt)
          rw [hx, ← hod] at this
          rw [if_pos (by rw [abs_of_neg (by linarith)]; linarith)]
          exact decide_eq_false (by linarith)
        · intro hlt
          have := fraction_gap (hpad old.grid k) (hpad m k) (by rw [hx, ← hod]; exact hlt)
          rw [hx, ← hod] at this
          rw [if_pos (by rw [abs_of_pos (by linarith)]; linarith)]
          exact decide_eq_true hlt
      by_cases hb : Problem.betterDonor (P.occludes old.grid m) old x (P.ovVol m k p) = true
      · rw [if_pos hb] at hc
        obtain rfl := Option.some.inj hc
        have hge : old.dist ≤ x := by
          by_contra hlt
          rw [hcmp.1 (not_le.1 hlt)] at hb; cases hb
        have htie : x = old.dist → Problem.betterDonor (P.occludes old.grid m) old old.dist (P.ovVol m k p) = true :=
          fun h => h ▸ hb
        unfold Problem.betterDonor at htie
        rw [sub_self, abs_zero, if_neg (by norm_num)] at htie
        have hto : ∀ m' ∈ seen, offers P s recv dist k p m' → ∀ cell', s.ov m' k p = some cell' →
            Problem.normalized (Problem.cellDistance (P.grid m') (dist m') cell') (P.edgePadding m' k) = x →
            x = old.dist :=
          fun m' hm' ho' cell' hc' heq => le_antisymm (by rw [← heq]; exact K.best m' hm' ho' cell' hc') hge
        refine ⟨hoff, fun cell' hc' => (hself cell' hc').symm, rfl, ?_, ?_, by simp, ?_, ?_⟩
        · intro m' hm' ho' cell' hc'
          rcases List.mem_cons.1 hm' with rfl | hm'
          · exact (hself cell' hc').le
          · exact (K.best m' hm' ho' cell' hc').trans hge
        · intro hco m' hm' ho' cell' hc' heq
          rcases List.mem_cons.1 hm' with rfl | hm'
          · exact le_refl _
          · have hxo := hto m' hm' ho' cell' hc' heq
            have hvo := K.finest hco m' hm' ho' cell' hc' (heq.trans hxo)
            have := htie hxo
            rw [hco _ _ hgm] at this
            exact le_of_lt (lt_of_lt_of_le (by simpa using this) hvo)
        · intro hco m' hm' ho' cell' hc' heq
          rcases List.mem_cons.1 hm' with rfl | hm'
          · exact le_refl _
          · have := htie (hto m' hm' ho' cell' hc' heq)
            rw [hco _ _ hgm] at this
            cases this
        · intro _ m' hm' _ _ _ _
          rcases List.mem_cons.1 hm' with rfl | hm'
          · exact le_refl _
          · exact le_of_lt (hm m' hm')
      · rw [if_neg hb] at hc
        obtain rfl := Option.some.inj hc
        have hge : x ≤ old.dist := by
          by_contra hlt
          exact hb (hcmp.2 (not_le.1 hlt))
        have htie : x = old.dist → ¬ Problem.betterDonor (P.occludes old.grid m) old old.dist (P.ovVol m k p) = true :=
          fun h => h ▸ hb
        unfold Problem.betterDonor at htie
        rw [sub_self, abs_zero, if_neg (by norm_num)] at htie
        refine ⟨K.offered, K.far, K.vol, ?_, ?_, by simp [K.mem], ?_, ?_⟩
        · intro m' hm' ho' cell' hc'
          rcases List.mem_cons.1 hm' with rfl | hm'
          · rw [hself cell' hc']; exact hge
          · exact K.best m' hm' ho' cell' hc'
        · intro hco m' hm' ho' cell' hc' heq
          rcases List.mem_cons.1 hm' with rfl | hm'
          · rw [hself cell' hc'] at heq
            have := htie heq
            rw [hco _ _ hgm] at this
            simpa using this
          · exact K.finest hco m' hm' ho' cell' hc' heq
        · intro hco m' hm' ho' cell' hc' heq
          rcases List.mem_cons.1 hm' with rfl | hm'
          · exact le_of_lt hom
          · exact K.first hco m' hm' ho' cell' hc' heq
        · intro hco m' hm' ho' cell' hc' heq
          rcases List.mem_cons.1 hm' with rfl | hm'
          · rw [hself cell' hc'] at heq
            have := htie heq
            rw [hco _ _ hgm] at this
            exact absurd rfl this
          · exact K.last hco m' hm' ho' cell' hc' heq
  · -- not offered: nothing changes
    have hsame : acc = some c := by
      rcases (donorStep_spec (P := P) (s := s) recv dist k p m acc).2 c hc with h | h
      · exact h
      · unfold Problem.donorStep at hc
        split at hc
        · rename_i h12
          rw [Bool.and_eq_true] at h12
          split at hc
          · rename_i cell hcell
            split at hc
            · rename_i h34
              rw [Bool.and_eq_true] at h34
              have hno : (!P.disjoint m k || decide (Problem.normalized
                  (Problem.cellDistance (P.grid m) (dist m) cell) (P.edgePadding m k) > 0)) = false := by
                rw [← Bool.not_eq_true]
                intro ht
                apply hoff
                refine ⟨h12.1, h12.2, cell, hcell, h34.1, h34.2, fun hd => ?_⟩
                simpa [hd] using ht
              unfold Problem.chooseStep at hc
              dsimp only at hc
              rw [hno] at hc
              cases acc with
              | none => simp at hc
              | some old => simpa using hc
            · exact hc
          · exact hc
        · exact hc
    have K := hacc c hsame
    have hin : ∀ m' ∈ m :: seen, offers P s recv dist k p m' → m' ∈ seen := by
      intro m' hm' ho'
      rcases List.mem_cons.1 hm' with rfl | hm'
      · exact absurd ho' hoff
      · exact hm'
    exact ⟨K.offered, K.far, K.vol, fun m' hm' ho' => K.best m' (hin m' hm' ho') ho',
      fun hco m' hm' ho' => K.finest hco m' (hin m' hm' ho') ho', by simp [K.mem],
      fun hco m' hm' ho' => K.first hco m' (hin m' hm' ho') ho',
      fun hco m' hm' ho' => K.last hco m' (hin m' hm' ho') ho'⟩

theorem chooseDonor_kept (hpad : ∀ m k, P.edgePadding m k < 999999) (recv : Mask d) (dist : Fin n → Tup d → Int)
    (k : Fin n) (p : Tup d) (c : Problem.Choice n) (hc : P.chooseDonor s recv dist k p = some c) :
    Kept P s recv dist k p (List.finRange n).reverse c := by
  have key : ∀ (l seen : List (Fin n)) (acc : Option (Problem.Choice n)), (l.reverse ++ seen).Pairwise (fun a b => b < a) →
      (∀ c, acc = some c → Kept P s recv dist k p seen c) →
      (acc = none → ∀ m ∈ seen, ¬ offers P s recv dist k p m) →
      ∀ c, l.foldl (P.donorStep s recv dist k p) acc = some c → Kept P s recv dist k p (l.reverse ++ seen) c := by
    intro l
    induction l with
    | nil => intro seen acc _ h1 _ c hc; exact h1 c hc
    | cons m l ih =>
      intro seen acc hnd h1 h2 c hc
      rw [List.foldl_cons] at hc
      rw [List.reverse_cons, List.append_assoc] at hnd ⊢
      have hm : ∀ m' ∈ seen, m' < m := by
        have := (List.pairwise_append.1 hnd).2.1
        exact (List.pairwise_cons.1 this).1
      refine ih (m :: seen) _ hnd (donorStep_kept hpad recv dist k p seen m hm acc h1 h2) ?_ c hc
      intro hn m' hm' ho
      have hi := (donorStep_spec (P := P) (s := s) recv dist k p m acc).1
      rw [hn] at hi
      simp only [Option.isSome_none, Bool.false_eq_true, false_iff, not_or] at hi
      rcases List.mem_cons.1 hm' with rfl | hm'
      · exact hi.2 ho
      · refine h2 ?_ m' hm' ho
        cases acc with
        | none => rfl
        | some _ => simp at hi
  have := key (List.finRange n) [] none (by
    rw [List.append_nil, List.pairwise_reverse]
    exact (List.sortedLT_finRange n).pairwise) (by simp) (by simp) c hc
  simpa using this

/-- C74: the donor grid of a point has the largest clearance among the eligible ones. Among those with the largest
clearance it has a smallest cell if all grids occlude each other where they are finer, is the first grid if all
grids occlude each other everywhere, and is the last grid if none occludes another. -/
theorem C74_best (hL : Ovk.Spec.Layouts P) (hpad : ∀ m k, P.edgePadding m k < 999999)
    {flags : Fin n → Tup d → Flags} {r : St d n × Problem.Conn d n} (h : P.assemble flags = some r) :
    ∃ dist : Fin n → Tup d → Int,
      (∀ m, Problem.receiverDistances (P.grid m) (r.2.receiver m) (P.maxDistance r.1 m) = some (dist m)) ∧
      ∀ k p, Ovk.Spec.pts (P.grid k).cart.range p → ∀ m, r.2.donor k p = some m →
        ∀ m', Spec.Eligible P r.1.ov r.1.active dist k p m' → ∀ cell cell' x x',
          r.1.ov m k p = some cell → r.1.ov m' k p = some cell' →
          Spec.Clearance P dist m k cell x → Spec.Clearance P dist m' k cell' x' →
          x' ≤ x ∧ (x' = x →
            ((∀ a b, a ≠ b → P.occludes a b = .coarse) → P.ovVol m k p ≤ P.ovVol m' k p) ∧
            ((∀ a b, a ≠ b → P.occludes a b = .all) → m ≤ m') ∧
            ((∀ a b, a ≠ b → P.occludes a b = .none) → m' ≤ m)) := by
  unfold Problem.assemble at h
  simp only [Option.bind_eq_bind, Option.bind_eq_some_iff] at h
  obtain ⟨s1, h1, s2, h2, s3, h3, s4, h4, s5, h5, h6⟩ := h
  unfold Problem.minimizeOverlap_ at h5
  simp only [Option.bind_eq_bind, Option.bind_eq_some_iff] at h5
  obtain ⟨mk, hmk, h5⟩ := h5
  obtain ⟨s5', hs5⟩ : ∃ s5', s5 = P.updateOverlap s5' fun _ _ => true := ⟨_, (Option.some.inj h5).symm⟩
  clear h5
  have hupd : ∀ m k p cell, s5.ov m k p = some cell →
      (s5.overlap m k p = true ↔ ∀ v ∈ (P.grid m).verts cell, s5.active m v = true) := by
    intro m k p cell hc
    subst hs5
    have hc' : s5'.ov m k p = some cell := hc
    rw [update_overlap _ m k p cell hc', List.all_eq_true]
    exact Iff.rfl
  unfold Problem.generate_ at h6
  simp only [Option.bind_eq_bind, Option.bind_eq_some_iff] at h6
  obtain ⟨dist, hdist, h6⟩ := h6
  cases h6
  refine ⟨dist, fun m => forAll_some hdist m, ?_⟩
  intro k p hp m hm m' hel cell cell' x x' hcell hcell' hx hx'
  replace hcell : s5.ov m k p = some cell := hcell
  replace hcell' : s5.ov m' k p = some cell' := hcell'
  replace hm : (P.chooseDonor s5 (receivers s5 k) dist k p).map Problem.Choice.grid = some m := hm
  obtain ⟨c, hc, rfl⟩ := Option.map_eq_some_iff.1 hm
  have K := chooseDonor_kept hpad (receivers s5 k) dist k p c hc
  obtain ⟨-, -, -, -, hr, -⟩ := K.offered
  have ho : offers P s5 (receivers s5 k) dist k p m' := by
    obtain ⟨hcon, cl, hcl, ha, hd⟩ := hel
    exact ⟨exists_of_found hL hp hcell', hcon, cl, hcl, hr, (hupd m' k p cl hcl).2 ha, fun hdis => by
      rw [normalized_pos, cellDistance_pos]; exact hd hdis⟩
  rw [clearance_iff] at hx hx'
  rw [← K.far cell hcell] at hx
  subst hx hx'
  refine ⟨K.best m' (by simp) ho cell' hcell', fun heq => ⟨fun hco => ?_, fun hco => ?_, fun hco => ?_⟩⟩
  · have := K.finest hco m' (by simp) ho cell' hcell' heq
    rw [K.vol] at this
    exact this
  · exact K.first hco m' (by simp) ho cell' hcell' heq
  · exact K.last hco m' (by simp) ho cell' hcell' heq

/-- Two lines of four points of which the second is the finer one, both offering a donor to the first point of a
line of two points; the first point of every grid lies in a cell of the others. -/
def exTwo (occ : Occl) : Problem 1 3 where
  grid := fun g => if g = 2 then line 2 false else line 4 false
  group := CC.groupOne
  inferBoundaries := fun _ => false
  cutBoundaryHoles := fun _ _ => false
  fringeSize := fun g => if g = 2 then 1 else 0
  occludes := fun _ _ => occ
  edgePadding := fun _ _ => 0
  edgeSmoothing := fun _ => 0
  minimizeOverlap := fun _ _ => false
  connected := fun _ _ => true
  disjoint := fun _ _ => true
  found := fun m k p => if m ≠ k ∧ p 0 = 0 then some (fun _ => if m = 2 then 0 else 1) else none
  vol := fun _ _ => 1
  ovVol := fun m _ _ => if m = 0 then 3 else 2
  fuel := 1

theorem exTwo_layouts (occ : Occl) : Ovk.Spec.Layouts (exTwo occ) := by
  intro k
  by_cases h : k = 2
  · have : (exTwo occ).grid k = line 2 false := if_pos h
    rw [this]; exact line_layout (m := 2) (by omega) false
  · have : (exTwo occ).grid k = line 4 false := if_neg h
    rw [this]; exact line_layout (m := 4) (by omega) false

/- Hypotheses of C74: both grids are eligible and the point gets a donor, with each kind of occlusion. -/
example : [Occl.none, .coarse, .all].map (fun occ =>
    ((exTwo occ).assemble fun _ _ x => decide (x = .active)).map fun r =>
      (r.2.donor 2 (fun _ => 0), [0, 1].map fun (m : Fin 3) => (r.1.ov m 2 (fun _ => 0)).isSome)) =
    [some (some 1, [true, true]), some (some 1, [true, true]), some (some 0, [true, true])] := by decide +kernel
example : ∀ m k, (exTwo .coarse).edgePadding m k < 999999 := by intro m k; exact Nat.zero_lt_succ _

end Ovk.Asm
