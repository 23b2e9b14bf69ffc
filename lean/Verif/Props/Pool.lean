import Verif.Model.Pool
import Verif.Props.Container
/-!
# C49, C65: pool of partitions
-/
namespace Ovk.Pool
variable {d n : Nat}

namespace Spec
/-- A partition for the requested index space, ranges and subregion counts, on every process. -/
structure Fits (p : Part d n) (k : Key d) (loc ext : Fin n → Rng d) (subs : Fin n → Int) : Prop where
  dim : p.key.dim = k.dim
  cart : p.key.cart = k.cart
  loc : p.loc = loc
  ext : p.ext = ext
  subs : p.subs = subs

/-- The partition is stored in the pool. -/
def Stored (q : Pool d n) (p : Part d n) : Prop := ∃ k l, (k, l) ∈ q.parts.entries ∧ p ∈ l
end Spec

/-- The search never ends on an element it would have to pass. -/
theorem bisect_stop {α : Type} (l : List α) (q : α → Bool) : ∀ (len first : Nat) (x : α),
    first + len ≤ l.length → bisect l q first len < first + len → l[bisect l q first len]? = some x → q x = false := by
  intro len
  induction len using Nat.strongRecOn with
  | ind len ih =>
    intro first x
    rw [bisect]
    split
    · intro _ h; omega
    · rename_i hlen
      dsimp only
      split
      · rename_i hnone
        intro hle hlt hx
        have h1 := (List.getElem?_eq_some_iff.1 hx).1
        have h2 := List.getElem?_eq_none_iff.1 hnone
        omega
      · rename_i y hy
        split
        · intro hle hlt hx
          exact ih _ (by omega) _ _ (by omega) (by omega) hx
        · rename_i hq
          intro hle hlt hx
          by_cases hb : bisect l q first (len / 2) < first + len / 2
          · exact ih _ (by omega) _ _ (by omega) hb hx
          · have : ∀ (len first : Nat), bisect l q first len ≤ first + len := by
              intro len
              induction len using Nat.strongRecOn with
              | ind len ih =>
                intro first
                rw [bisect]
                split
                · omega
                · dsimp only
                  split
                  · omega
                  · split
                    · have := ih (len - len / 2 - 1) (by omega) (first + len / 2 + 1); omega
                    · have := ih (len / 2) (by omega) first; omega
            have := this (len / 2) first
            have he : bisect l q first (len / 2) = first + len / 2 := by omega
            rw [he, hy] at hx
            cases hx
            simpa using hq

/-- `CartLess_` is no order, but two index spaces of which neither is less are equal. -/
theorem cartLess_eq {a b : Key d} (h1 : cartLess a b = false) (h2 : cartLess b a = false) :
    a.dim = b.dim ∧ a.cart = b.cart := by
  unfold cartLess at h1 h2
  simp only [Bool.or_eq_false_iff, decide_eq_false_iff_not, not_exists, not_lt] at h1 h2
  obtain ⟨⟨⟨⟨a1, a2⟩, a3⟩, a4⟩, a5⟩ := h1
  obtain ⟨⟨⟨⟨b1, b2⟩, b3⟩, b4⟩, b5⟩ := h2
  refine ⟨by omega, ?_⟩
  obtain ⟨_, ⟨⟨ab, ae⟩, ap, as⟩⟩ := a
  obtain ⟨_, ⟨⟨bb, be⟩, bp, bs⟩⟩ := b
  simp only [Cart.mk.injEq, Rng.mk.injEq]
  refine ⟨⟨funext fun i => ?_, funext fun i => ?_⟩, funext fun i => ?_, ?_⟩
  · have := a2 i; have := b2 i; dsimp only at *; omega
  · have := a3 i; have := b3 i; dsimp only at *; omega
  · have h1 := a4 i; have h2 := b4 i
    dsimp only at h1 h2
    clear a4 b4
    cases hx : ap i <;> cases hy : bp i <;> rw [hx, hy] at h1 h2 <;> simp at h1 h2 ⊢
  · cases as <;> cases bs <;> simp [storageNum] at a5 b5 <;> rfl

theorem cartLess_irrefl (a : Key d) : cartLess a a = false := by
  unfold cartLess
  simp

/-- Keys and entries correspond, partitions are stored under their index space, identities are used up. -/
structure Inv (q : Pool d n) : Prop where
  keys : q.parts.keys = q.parts.entries.map Prod.fst
  own : ∀ k l, (k, l) ∈ q.parts.entries → ∀ p ∈ l, p.key = k

theorem key_ext {a b : Key d} (h : a.dim = b.dim ∧ a.cart = b.cart) : a = b := by
  cases a; cases b; simp only [Key.mk.injEq]; exact h

/-- What the lookup of an index space does to the map. -/
theorem row_spec {q : Pool d n} (h : Inv q) (k : Key d) :
    ∃ a b l, (q.row k).1 = a.length ∧ (q.row k).2 = ⟨(a ++ (k, l) :: b).map Prod.fst, a ++ (k, l) :: b⟩ ∧
      (q.parts.entries = a ++ (k, l) :: b ∨ (q.parts.entries = a ++ b ∧ l = [])) := by
  obtain ⟨⟨keys, es⟩, next⟩ := q
  have hk : keys = es.map Prod.fst := h.keys
  subst hk
  unfold Pool.row OMap.fetch
  dsimp only
  generalize hi : OSet.lowerBound cartLess (es.map Prod.fst) k = i
  have hle : i ≤ es.length := by
    by_contra hc
    have : ∀ (l : List (Key d)) (len first : Nat), bisect l (fun x => cartLess x k) first len ≤ first + len := by
      intro l len
      induction len using Nat.strongRecOn with
      | ind len ih =>
        intro first
        rw [bisect]
        split
        · omega
        · dsimp only
          split
          · omega
          · split
            · have := ih (len - len / 2 - 1) (by omega) (first + len / 2 + 1); omega
            · have := ih (len / 2) (by omega) first; omega
    have := this (es.map Prod.fst) (es.map Prod.fst).length 0
    unfold OSet.lowerBound at hi
    rw [List.length_map] at this hi
    omega
  have hins : ∀ v : List (Part d n), es.insertIdx i (k, v) = es.take i ++ (k, v) :: es.drop i := by
    intro v
    have h1 := insertIdx_len (es.take i) (es.drop i) (k, v)
    rw [List.take_append_drop, List.length_take, Nat.min_eq_left hle] at h1
    exact h1
  have hinsk : (es.map Prod.fst).insertIdx i k = (es.take i ++ (k, []) :: es.drop i).map (Prod.fst (β := List (Part d n))) := by
    have h1 := insertIdx_len ((es.take i).map Prod.fst) ((es.drop i).map Prod.fst) k
    rw [← List.map_append, List.take_append_drop, List.length_map, List.length_take, Nat.min_eq_left hle] at h1
    rw [h1]; simp
  cases hx : (es.map Prod.fst)[i]? with
  | none =>
    refine ⟨es.take i, es.drop i, [], by simp [Nat.min_eq_left hle], ?_, .inr ⟨by simp, rfl⟩⟩
    unfold OSet.insertAt
    rw [hx, hins, hinsk]
  | some x =>
    dsimp only
    by_cases hlt : cartLess k x = true
    · rw [if_pos hlt]
      refine ⟨es.take i, es.drop i, [], by simp [Nat.min_eq_left hle], ?_, .inr ⟨by simp, rfl⟩⟩
      unfold OSet.insertAt
      rw [hx]
      dsimp only
      rw [if_pos hlt, hins, hinsk]
    · rw [if_neg hlt]
      have hil := (List.getElem?_eq_some_iff.1 hx).1
      have hxk : x = k := by
        refine key_ext (cartLess_eq ?_ (by simpa using hlt))
        have := bisect_stop (es.map Prod.fst) (fun x => cartLess x k) (es.map Prod.fst).length 0 x
        unfold OSet.lowerBound at hi
        rw [hi] at this
        exact this (by omega) (by omega) hx
      subst hxk
      rw [List.length_map] at hil
      rw [List.getElem?_map, List.getElem?_eq_getElem hil] at hx
      have hx : es[i].1 = x := by simpa using hx
      have hsplit : es = es.take i ++ (x, es[i].2) :: es.drop (i + 1) := by
        have h1 := List.take_append_drop i es
        rw [List.drop_eq_getElem_cons hil] at h1
        rw [← hx]
        exact h1.symm
      refine ⟨es.take i, es.drop (i + 1), es[i].2, by simp [Nat.min_eq_left hle], ?_, .inl hsplit⟩
      rw [← hsplit]

theorem valueAt_mid (a b : List (Key d × List (Part d n))) (k : Key d) (l : List (Part d n)) (ks : List (Key d)) :
    valueAt ⟨ks, a ++ (k, l) :: b⟩ a.length = l := by
  unfold valueAt
  simp

theorem setAt_mid (a b : List (Key d × List (Part d n))) (k : Key d) (l v : List (Part d n)) (ks : List (Key d)) :
    setAt ⟨ks, a ++ (k, l) :: b⟩ a.length v = ⟨ks, a ++ (k, v) :: b⟩ := by
  unfold setAt
  congr 1
  induction a with
  | nil => rfl
  | cons x a ih => simpa using ih

theorem matches_iff (p : Part d n) (loc ext : Fin n → Rng d) (subs : Fin n → Int) :
    p.matches loc ext subs = true ↔ p.loc = loc ∧ p.ext = ext ∧ p.subs = subs := by
  unfold Part.matches
  rw [decide_eq_true_eq]
  constructor
  · intro h
    refine ⟨funext fun k => ?_, funext fun k => ?_, funext fun k => (h k).2.2⟩
    · have := (h k).1
      cases hp : p.loc k; cases hl : loc k
      rw [hp, hl] at this
      simp only [Rng.mk.injEq]
      exact ⟨funext fun i => (this i).1, funext fun i => (this i).2⟩
    · have := (h k).2.1
      cases hp : p.ext k; cases hl : ext k
      rw [hp, hl] at this
      simp only [Rng.mk.injEq]
      exact ⟨funext fun i => (this i).1, funext fun i => (this i).2⟩
  · rintro ⟨rfl, rfl, rfl⟩ k
    exact ⟨fun _ => ⟨rfl, rfl⟩, fun _ => ⟨rfl, rfl⟩, rfl⟩

theorem inv_mid {a b : List (Key d × List (Part d n))} {k : Key d} {v : List (Part d n)} {next : Nat}
    (h : ∀ e ∈ a ++ b, ∀ p ∈ e.2, p.key = e.1) (hv : ∀ p ∈ v, p.key = k) :
    Inv (⟨⟨(a ++ (k, v) :: b).map Prod.fst, a ++ (k, v) :: b⟩, next⟩ : Pool d n) := by
  refine ⟨rfl, fun k' l' hm p hp => ?_⟩
  have hm : (k', l') ∈ a ++ (k, v) :: b := hm
  rcases List.mem_append.1 hm with hm | hm
  · exact h (k', l') (by simp [hm]) p hp
  · rcases List.mem_cons.1 hm with hm | hm
    · cases hm; exact hv p hp
    · exact h (k', l') (by simp [hm]) p hp

theorem fetch_spec {q : Pool d n} (h : Inv q) (k : Key d) (loc ext : Fin n → Rng d) (subs : Fin n → Int) :
    Inv (q.fetch k loc ext subs).1 ∧ Spec.Fits (q.fetch k loc ext subs).2 k loc ext subs ∧
    Spec.Stored (q.fetch k loc ext subs).1 (q.fetch k loc ext subs).2 ∧
    ∀ p, Spec.Stored q p → Spec.Stored (q.fetch k loc ext subs).1 p := by
  obtain ⟨a, b, l, h1, h2, h3⟩ := row_spec h k
  have hown : ∀ e ∈ a ++ b, ∀ p ∈ e.2, p.key = e.1 := by
    intro e he p hp
    refine h.own e.1 e.2 ?_ p hp
    rcases h3 with h3 | ⟨h3, -⟩ <;> rw [h3]
    · rcases List.mem_append.1 he with he | he <;> simp [he]
    · exact he
  have hl : ∀ p ∈ l, p.key = k := by
    rcases h3 with h3 | ⟨-, rfl⟩
    · exact h.own k l (by rw [h3]; simp)
    · simp
  have hkeep : ∀ (v : List (Part d n)) (next : Nat), (∀ p ∈ l, p ∈ v) → ∀ p, Spec.Stored q p →
      Spec.Stored (⟨⟨(a ++ (k, v) :: b).map Prod.fst, a ++ (k, v) :: b⟩, next⟩ : Pool d n) p := by
    rintro v next hv p ⟨k', l', hm, hp⟩
    have hm : (k', l') ∈ a ++ (k, l) :: b := by
      rcases h3 with h3 | ⟨h3, -⟩ <;> rw [h3] at hm
      · exact hm
      · rcases List.mem_append.1 hm with hm | hm <;> simp [hm]
    rcases List.mem_append.1 hm with hm | hm
    · exact ⟨k', l', by show _ ∈ a ++ _ :: b; simp [hm], hp⟩
    · rcases List.mem_cons.1 hm with hm | hm
      · cases hm; exact ⟨k, v, by show _ ∈ a ++ _ :: b; simp, hv p hp⟩
      · exact ⟨k', l', by show _ ∈ a ++ _ :: b; simp [hm], hp⟩
  unfold Pool.fetch
  dsimp only
  rw [h1, h2, valueAt_mid]
  cases hf : l.find? fun p => p.matches loc ext subs with
  | some p =>
    dsimp only
    have hm := List.find?_some hf
    have hp := List.mem_of_find?_eq_some hf
    rw [matches_iff] at hm
    refine ⟨inv_mid hown hl, ⟨by rw [hl p hp], by rw [hl p hp], hm.1, hm.2.1, hm.2.2⟩,
      ⟨k, l, by show _ ∈ a ++ _ :: b; simp, hp⟩, hkeep l _ fun _ h => h⟩
  | none =>
    dsimp only
    rw [setAt_mid]
    have hmap : (a ++ (k, l) :: b).map Prod.fst = (a ++ (k, l ++ [⟨k, loc, ext, subs, q.next⟩]) :: b).map Prod.fst := by simp
    rw [hmap]
    refine ⟨inv_mid hown ?_, ⟨rfl, rfl, rfl, rfl, rfl⟩, ⟨k, l ++ [⟨k, loc, ext, subs, q.next⟩],
        by show _ ∈ a ++ _ :: b; simp, by simp⟩,
      hkeep _ _ fun p hp => by simp [hp]⟩
    intro p hp
    rcases List.mem_append.1 hp with hp | hp
    · exact hl p hp
    · rw [List.mem_singleton.1 hp]

theorem replaceFirst_mem {f : Part d n → Bool} {p x : Part d n} : ∀ {l : List (Part d n)},
    x ∈ replaceFirst f p l → x = p ∨ x ∈ l := by
  intro l
  induction l with
  | nil => intro h; simp [replaceFirst] at h; exact .inl h
  | cons y l ih =>
    intro h
    unfold replaceFirst at h
    split at h
    · rcases List.mem_cons.1 h with h | h
      · exact .inl h
      · exact .inr (by simp [h])
    · rcases List.mem_cons.1 h with h | h
      · exact .inr (by simp [h])
      · rcases ih h with h | h
        · exact .inl h
        · exact .inr (by simp [h])

theorem insert_inv {q : Pool d n} (h : Inv q) (p : Part d n) : Inv (q.insert p) := by
  obtain ⟨a, b, l, h1, h2, h3⟩ := row_spec h p.key
  unfold Pool.insert
  dsimp only
  rw [h1, h2, valueAt_mid, setAt_mid]
  rw [show (a ++ (p.key, l) :: b).map Prod.fst = (a ++ (p.key, replaceFirst (fun x => x.matches p.loc p.ext p.subs) p l) :: b).map Prod.fst by simp]
  refine inv_mid ?_ ?_
  · intro e he x hx
    refine h.own e.1 e.2 ?_ x hx
    rcases h3 with h3 | ⟨h3, -⟩ <;> rw [h3]
    · rcases List.mem_append.1 he with he | he <;> simp [he]
    · exact he
  · intro x hx
    rcases replaceFirst_mem hx with rfl | hx
    · rfl
    · rcases h3 with h3 | ⟨-, rfl⟩
      · exact h.own p.key l (by rw [h3]; simp) x hx
      · cases hx

theorem erase_inv {q : Pool d n} (h : Inv q) (k : Key d) (loc ext : Fin n → Rng d) (subs : Fin n → Int) :
    Inv (q.erase k loc ext subs) := by
  unfold Pool.erase
  dsimp only
  generalize OSet.find cartLess q.parts.keys k = i
  split
  · exact h
  · rename_i e he
    have hmem := List.mem_of_getElem? he
    split
    · refine ⟨?_, fun k' l' hm p hp => h.own k' l' (List.mem_of_mem_eraseIdx hm) p hp⟩
      show q.parts.keys.eraseIdx i = (q.parts.entries.eraseIdx i).map Prod.fst
      rw [h.keys]
      exact List.eraseIdx_map _ _ _
    · have hkeys : q.parts.keys = (q.parts.entries.modify i fun x => (x.1, e.2.eraseP fun p => p.matches loc ext subs)).map Prod.fst := by
        rw [h.keys]
        apply List.ext_getElem?
        intro j
        rw [List.getElem?_map, List.getElem?_map, List.getElem?_modify]
        cases q.parts.entries[j]? with
        | none => rfl
        | some x => dsimp only [Option.map_some, Option.map_eq_map]; split <;> rfl
      refine ⟨hkeys, fun k' l' hm p hp => ?_⟩
      have hm : (k', l') ∈ q.parts.entries.modify i fun x => (x.1, e.2.eraseP fun p => p.matches loc ext subs) := hm
      obtain ⟨j, hj⟩ := List.mem_iff_getElem?.1 hm
      rw [List.getElem?_modify] at hj
      split at hj
      · rename_i hij
        subst hij
        rw [he] at hj
        cases hj
        exact h.own e.1 e.2 hmem p (List.mem_of_mem_eraseP hp)
      · exact h.own k' l' (List.mem_of_getElem? (by simpa using hj)) p hp

theorem run_inv (ops : List (Op d n)) : Inv (run ops) := by
  induction ops using List.reverseRecOn with
  | nil => exact ⟨rfl, fun _ _ h => by cases h⟩
  | append_singleton ops op ih =>
    rw [show run (ops ++ [op]) = step (run ops) op by simp [run]]
    cases op with
    | fetch k l e s => exact (fetch_spec ih k l e s).1
    | insert p => exact insert_inv ih p
    | erase k l e s => exact erase_inv ih k l e s

/-- C49: the partition returned is for exactly the requested index space, ranges and subregion counts on all
processes and is stored in the pool, and all partitions stored before still are. -/
theorem C49_fetch (ops : List (Op d n)) (k : Key d) (loc ext : Fin n → Rng d) (subs : Fin n → Int) :
    let r := (run ops).fetch k loc ext subs
    Spec.Fits r.2 k loc ext subs ∧ Spec.Stored r.1 r.2 ∧ ∀ p, Spec.Stored (run ops) p → Spec.Stored r.1 p :=
  (fetch_spec (run_inv ops) k loc ext subs).2

/-- Identities of stored partitions were given before. -/
def Below (q : Pool d n) : Prop := ∀ p, Spec.Stored q p → p.id < q.next

theorem row_stored {q : Pool d n} {k : Key d} {a b : List (Key d × List (Part d n))}
    {l v : List (Part d n)} {next : Nat} {ks : List (Key d)}
    (h3 : q.parts.entries = a ++ (k, l) :: b ∨ (q.parts.entries = a ++ b ∧ l = []))
    {p : Part d n} (h : Spec.Stored (⟨⟨ks, a ++ (k, v) :: b⟩, next⟩ : Pool d n) p) :
    p ∈ v ∨ Spec.Stored q p := by
  obtain ⟨k', l', hm, hp⟩ := h
  have hm : (k', l') ∈ a ++ (k, v) :: b := hm
  have hab : (k', l') ∈ a ++ b → Spec.Stored q p := by
    intro hm
    refine ⟨k', l', ?_, hp⟩
    rcases h3 with h3 | ⟨h3, -⟩ <;> rw [h3]
    · rcases List.mem_append.1 hm with hm | hm <;> simp [hm]
    · exact hm
  rcases List.mem_append.1 hm with hm | hm
  · exact .inr (hab (by simp [hm]))
  · rcases List.mem_cons.1 hm with hm | hm
    · cases hm; exact .inl hp
    · exact .inr (hab (by simp [hm]))

theorem row_own {q : Pool d n} {k : Key d} {a b : List (Key d × List (Part d n))}
    {l : List (Part d n)}
    (h3 : q.parts.entries = a ++ (k, l) :: b ∨ (q.parts.entries = a ++ b ∧ l = []))
    {p : Part d n} (h : p ∈ l) : Spec.Stored q p := by
  rcases h3 with h3 | ⟨-, rfl⟩
  · exact ⟨k, l, by rw [h3]; simp, h⟩
  · cases h

theorem fetch_below {q : Pool d n} (h : Inv q) (hb : Below q) (k : Key d) (loc ext : Fin n → Rng d)
    (subs : Fin n → Int) : Below (q.fetch k loc ext subs).1 ∧
      (Spec.Stored q (q.fetch k loc ext subs).2 ∨ (q.fetch k loc ext subs).2.id = q.next) := by
  obtain ⟨a, b, l, h1, h2, h3⟩ := row_spec h k
  unfold Pool.fetch
  dsimp only
  rw [h1, h2, valueAt_mid]
  cases hf : l.find? fun p => p.matches loc ext subs with
  | some p =>
    refine ⟨fun x hx => ?_, .inl (row_own h3 (List.mem_of_find?_eq_some hf))⟩
    rcases row_stored h3 hx with hx | hx
    · exact hb x (row_own h3 hx)
    · exact hb x hx
  | none =>
    dsimp only
    rw [setAt_mid]
    refine ⟨fun x hx => ?_, .inr rfl⟩
    show x.id < q.next + 1
    rcases row_stored h3 hx with hx | hx
    · rcases List.mem_append.1 hx with hx | hx
      · exact Nat.lt_succ_of_lt (hb x (row_own h3 hx))
      · rw [List.mem_singleton.1 hx]; exact Nat.lt_succ_self _
    · exact Nat.lt_succ_of_lt (hb x hx)

theorem insert_below {q : Pool d n} (h : Inv q) (hb : Below q) (p : Part d n) :
    Below (q.insert p) := by
  obtain ⟨a, b, l, h1, h2, h3⟩ := row_spec h p.key
  unfold Pool.insert
  dsimp only
  rw [h1, h2, valueAt_mid, setAt_mid]
  intro x hx
  show x.id < max q.next (p.id + 1)
  rcases row_stored h3 hx with hx | hx
  · rcases replaceFirst_mem hx with rfl | hx
    · exact lt_of_lt_of_le (Nat.lt_succ_self _) (le_max_right _ _)
    · exact lt_of_lt_of_le (hb x (row_own h3 hx)) (le_max_left _ _)
  · exact lt_of_lt_of_le (hb x hx) (le_max_left _ _)

theorem erase_below {q : Pool d n} (hb : Below q) (k : Key d) (loc ext : Fin n → Rng d)
    (subs : Fin n → Int) : Below (q.erase k loc ext subs) := by
  unfold Pool.erase
  dsimp only
  generalize OSet.find cartLess q.parts.keys k = i
  split
  · exact hb
  · rename_i e he
    have hmem := List.mem_of_getElem? he
    split
    · rintro p ⟨k', l', hm, hp⟩
      exact hb p ⟨k', l', List.mem_of_mem_eraseIdx hm, hp⟩
    · rintro p ⟨k', l', hm, hp⟩
      have hm : (k', l') ∈ q.parts.entries.modify i fun x => (x.1, e.2.eraseP fun p => p.matches loc ext subs) := hm
      obtain ⟨j, hj⟩ := List.mem_iff_getElem?.1 hm
      rw [List.getElem?_modify] at hj
      split at hj
      · rename_i hij
        subst hij
        rw [he] at hj
        cases hj
        exact hb p ⟨e.1, e.2, hmem, List.mem_of_mem_eraseP hp⟩
      · exact hb p ⟨k', l', List.mem_of_getElem? (by simpa using hj), hp⟩

theorem run_below (ops : List (Op d n)) : Below (run ops) := by
  induction ops using List.reverseRecOn with
  | nil => rintro p ⟨_, _, h, _⟩; cases h
  | append_singleton ops op ih =>
    rw [show run (ops ++ [op]) = step (run ops) op by simp [run]]
    cases op with
    | fetch k l e s => exact (fetch_below (run_inv ops) ih k l e s).1
    | insert p => exact insert_below (run_inv ops) ih p
    | erase k l e s => exact erase_below ih k l e s

/-- C49: the partition returned is one of those stored before, or a new object that is none of them. -/
theorem C49_fresh (ops : List (Op d n)) (k : Key d) (loc ext : Fin n → Rng d) (subs : Fin n → Int) :
    let r := (run ops).fetch k loc ext subs
    Spec.Stored (run ops) r.2 ∨ ∀ p, Spec.Stored (run ops) p → p.id ≠ r.2.id := by
  rcases (fetch_below (run_inv ops) (run_below ops) k loc ext subs).2 with h | h
  · exact .inl h
  · refine .inr fun p hp e => ?_
    have := run_below ops p hp
    rw [e, h] at this
    exact lt_irrefl _ this

/-- A new partition after one with identity 5 was inserted. -/
example : ((run [Op.insert (⟨⟨1, ⟨⟨fun _ => 0, fun _ => 4⟩, fun _ => false, .unique⟩⟩, fun _ => ⟨fun _ => 0, fun _ => 4⟩,
    fun _ => ⟨fun _ => 0, fun _ => 4⟩, fun _ => 1, 5⟩ : Part 1 1)]).fetch
    ⟨1, ⟨⟨fun _ => 0, fun _ => 4⟩, fun _ => false, .unique⟩⟩ (fun _ => ⟨fun _ => 0, fun _ => 4⟩)
    (fun _ => ⟨fun _ => 0, fun _ => 5⟩) fun _ => 1).2.id = 6 := by decide +kernel

/-! ## C65 -/

/-- The property as stated: fetching the same partition again returns the same object, whatever was fetched in
between. -/
def C65_statement : Prop := ∀ (d n : Nat) (ops : List (Op d n)) (k : Key d) (loc ext : Fin n → Rng d)
  (subs : Fin n → Int) (others : List (Key d)),
  ((others.foldl (fun q k' => (q.fetch k' loc ext subs).1) ((run ops).fetch k loc ext subs).1).fetch k loc ext subs).2.id =
    ((run ops).fetch k loc ext subs).2.id

/-- The keys are in a consistent order. -/
def Ordered (q : Pool d n) : Prop :=
  q.parts.keys.Pairwise fun a b => cartLess a b = true ∧ cartLess b a = false

/-- A stored key is found if the keys are in a consistent order. -/
theorem lowerBound_ordered {q : Pool d n} (ho : Ordered q) {i : Nat} {k : Key d} (hk : q.parts.keys[i]? = some k) :
    OSet.lowerBound cartLess q.parts.keys k = i := by
  unfold OSet.lowerBound
  have hlt := (List.getElem?_eq_some_iff.1 hk).1
  refine bisect_eq _ _ i (fun j x hx => ?_) _ _ (by omega) (by omega) (by omega)
  have hj := (List.getElem?_eq_some_iff.1 hx).1
  have hp := List.pairwise_iff_getElem.1 ho
  rcases Nat.lt_trichotomy j i with h | h | h
  · have := (hp j i hj hlt h).1
    rw [(List.getElem?_eq_some_iff.1 hx).2, (List.getElem?_eq_some_iff.1 hk).2] at this
    exact ⟨fun _ => h, fun _ => this⟩
  · subst h
    rw [hk] at hx; cases hx
    rw [cartLess_irrefl]; simp
  · have := (hp i j hlt hj h).2
    rw [(List.getElem?_eq_some_iff.1 hx).2, (List.getElem?_eq_some_iff.1 hk).2] at this
    rw [this]
    constructor
    · intro h; cases h
    · intro h; omega

/-- C65 (the part that holds): if the index spaces in the pool are in a consistent order, fetching a stored
partition finds it and does not change the pool. -/
theorem C65_partial (ops : List (Op d n)) (k : Key d) (loc ext : Fin n → Rng d) (subs : Fin n → Int)
    (ho : Ordered ((run ops).fetch k loc ext subs).1) :
    ((run ops).fetch k loc ext subs).1.fetch k loc ext subs = (run ops).fetch k loc ext subs := by
  obtain ⟨a, b, l, h1, h2, -⟩ := row_spec (run_inv ops) k
  have key : ∀ (v : List (Part d n)) (next : Nat) (p : Part d n),
      Ordered (⟨⟨(a ++ (k, v) :: b).map Prod.fst, a ++ (k, v) :: b⟩, next⟩ : Pool d n) →
      v.find? (fun p => p.matches loc ext subs) = some p →
      Pool.fetch ⟨⟨(a ++ (k, v) :: b).map Prod.fst, a ++ (k, v) :: b⟩, next⟩ k loc ext subs =
        (⟨⟨(a ++ (k, v) :: b).map Prod.fst, a ++ (k, v) :: b⟩, next⟩, p) := by
    intro v next p ho hf
    have hkey : ((a ++ (k, v) :: b).map Prod.fst)[a.length]? = some k := by simp
    have hlb := lowerBound_ordered ho (i := a.length) (k := k) hkey
    dsimp only at hlb
    unfold Pool.fetch Pool.row OMap.fetch
    dsimp only
    rw [hlb, hkey]
    dsimp only
    rw [cartLess_irrefl, if_neg (by simp), valueAt_mid, hf]
  unfold Pool.fetch at ho ⊢
  dsimp only at ho ⊢
  rw [h1, h2, valueAt_mid] at ho ⊢
  cases hf : l.find? fun p => p.matches loc ext subs with
  | some p =>
    rw [hf] at ho
    exact key l _ p ho hf
  | none =>
    rw [hf] at ho
    dsimp only at ho ⊢
    rw [setAt_mid] at ho ⊢
    have hmap : (a ++ (k, l) :: b).map Prod.fst =
      (a ++ (k, l ++ [(⟨k, loc, ext, subs, (run ops).next⟩ : Part d n)]) :: b).map Prod.fst := by simp
    rw [hmap] at ho ⊢
    refine key _ _ _ ho ?_
    rw [List.find?_append, hf, List.find?_singleton, if_pos ((matches_iff _ _ _ _).2 ⟨rfl, rfl, rfl⟩)]
    rfl

/-- An interval as an index space. -/
def ivl (b e : Int) : Key 1 := ⟨1, ⟨⟨fun _ => b, fun _ => e⟩, fun _ => false, .unique⟩⟩

theorem ex_fetch : let r := fun _ : Fin 1 => (⟨fun _ => 0, fun _ => 4⟩ : Rng 1)
    let q0 := (run ([] : List (Op 1 1))).fetch (ivl 0 4) r r fun _ => 1
    (((q0.1.fetch (ivl (-1) 5) r r fun _ => 1).1).fetch (ivl 0 4) r r fun _ => 1).2.id = 2 ∧ q0.2.id = 0 := by
  decide +kernel

/-- C65 is false as stated: each of two nested index spaces is less than the other. -/
theorem C65_false : ¬ C65_statement := by
  intro h
  have := h 1 1 [] (ivl 0 4) (fun _ => ⟨fun _ => 0, fun _ => 4⟩) (fun _ => ⟨fun _ => 0, fun _ => 4⟩)
    (fun _ => 1) [ivl (-1) 5]
  obtain ⟨h1, h2⟩ := ex_fetch
  rw [List.foldl_cons, List.foldl_nil, h1, h2] at this
  cases this

/- A pool in a consistent order. -/
example : let r := fun _ : Fin 1 => (⟨fun _ => 0, fun _ => 4⟩ : Rng 1)
    (((run [.fetch (ivl 0 4) r r fun _ => 1, .fetch (ivl 0 3) r r fun _ => 1, .fetch (ivl 0 4) r r fun _ => 2]).fetch
      (ivl 0 4) r r fun _ => 1).2.id) = 0 := by decide +kernel

end Ovk.Pool
