import Verif.Model.Container
/-! Helper lemmas for the sorted containers. -/
namespace Ovk

/-- A comparator that is a strict total order. -/
structure IsSTO (lt : α → α → Bool) : Prop where
  irrefl : ∀ a, lt a a = false
  trans : ∀ a b c, lt a b = true → lt b c = true → lt a c = true
  tri : ∀ a b, lt a b = false → lt b a = false → a = b

theorem IsSTO.asymm {lt : α → α → Bool} (h : IsSTO lt) {a b : α} (hab : lt a b = true) :
    lt b a = false := by
  cases hba : lt b a
  · rfl
  · have := h.trans _ _ _ hab hba; rw [h.irrefl] at this; cases this

theorem IsSTO.le_trans {lt : α → α → Bool} (h : IsSTO lt) {a b c : α} (hab : lt b a = false)
    (hbc : lt b c = true) : lt a c = true := by
  cases h1 : lt a b
  · have := h.tri _ _ h1 hab; subst this; exact hbc
  · exact h.trans _ _ _ h1 hbc

/-- Strictly increasing. -/
def Sorted (lt : α → α → Bool) (l : List α) : Prop := l.Pairwise (fun a b => lt a b = true)

theorem bisect_eq (l : List α) (q : α → Bool) (k : Nat)
    (hk : ∀ i x, l[i]? = some x → (q x = true ↔ i < k)) :
    ∀ len first, first ≤ k → k ≤ first + len → first + len ≤ l.length → bisect l q first len = k := by
  intro len
  induction len using Nat.strongRecOn with
  | _ len ih =>
    intro first h1 h2 h3
    unfold bisect
    split
    · omega
    · rename_i hlen
      have hlt : first + len / 2 < l.length := by omega
      simp only [List.getElem?_eq_getElem hlt]
      have := hk _ _ (List.getElem?_eq_getElem hlt)
      split
      · rename_i hq
        have := this.1 hq
        exact ih _ (by omega) _ (by omega) (by omega) (by omega)
      · rename_i hq
        have : ¬ first + len / 2 < k := fun h => hq (this.2 h)
        exact ih _ (by omega) _ (by omega) (by omega) (by omega)

theorem bisect_append (a b : List α) (q : α → Bool) (ha : ∀ x ∈ a, q x = true)
    (hb : ∀ x ∈ b, q x = false) : bisect (a ++ b) q 0 (a ++ b).length = a.length := by
  refine bisect_eq _ _ _ ?_ _ _ (Nat.zero_le _) (by simp) (by simp)
  intro i x hx
  rcases Nat.lt_or_ge i a.length with h | h
  · rw [List.getElem?_append_left h] at hx
    simp [h, ha x (List.mem_of_getElem? hx)]
  · rw [List.getElem?_append_right h] at hx
    simp [hb x (List.mem_of_getElem? hx), h]

theorem split_mono (l : List α) (q : α → Bool)
    (hl : l.Pairwise (fun a b => q b = true → q a = true)) :
    ∃ a b, l = a ++ b ∧ (∀ x ∈ a, q x = true) ∧ (∀ x ∈ b, q x = false) := by
  induction l with
  | nil => exact ⟨[], [], rfl, by simp, by simp⟩
  | cons x l ih =>
    obtain ⟨hx, hl⟩ := List.pairwise_cons.1 hl
    cases hq : q x
    · refine ⟨[], x :: l, rfl, by simp, ?_⟩
      intro y hy
      rcases List.mem_cons.1 hy with rfl | hy
      · exact hq
      · cases hqy : q y
        · rfl
        · rw [hx y hy hqy] at hq; cases hq
    · obtain ⟨a, b, rfl, ha, hb⟩ := ih hl
      exact ⟨x :: a, b, rfl, by simpa [hq] using ha, hb⟩

/-- `lower_bound` splits a sorted array at the first position not below the value. -/
theorem lowerBound_split {lt : α → α → Bool} (h : IsSTO lt) {l : List α} (hl : Sorted lt l) (v : α) :
    ∃ a b, l = a ++ b ∧ OSet.lowerBound lt l v = a.length ∧ (∀ x ∈ a, lt x v = true) ∧
      (∀ x ∈ b, lt x v = false) := by
  obtain ⟨a, b, rfl, ha, hb⟩ := split_mono l (fun x => lt x v)
    (hl.imp fun hab hb => h.trans _ _ _ hab hb)
  exact ⟨a, b, rfl, bisect_append a b _ ha hb, ha, hb⟩

theorem upperBound_split {lt : α → α → Bool} (h : IsSTO lt) {l : List α} (hl : Sorted lt l) (v : α) :
    ∃ a b, l = a ++ b ∧ OSet.upperBound lt l v = a.length ∧ (∀ x ∈ a, lt v x = false) ∧
      (∀ x ∈ b, lt v x = true) := by
  obtain ⟨a, b, rfl, ha, hb⟩ := split_mono l (fun x => !lt v x) (hl.imp (by
    intro a b hab hb
    cases h1 : lt v a
    · rfl
    · rw [h.trans _ _ _ h1 hab] at hb; cases hb))
  exact ⟨a, b, rfl, bisect_append a b _ ha hb, by simpa using ha, by simpa using hb⟩

/-- The three situations a lookup can meet. -/
inductive Look (lt : α → α → Bool) (l : List α) (v : α) : Prop
  | absent (a b : List α) (hl : l = a ++ b) (hlb : OSet.lowerBound lt l v = a.length)
      (ha : ∀ x ∈ a, lt x v = true) (hb : ∀ x ∈ b, lt v x = true) : Look lt l v
  | present (a b : List α) (hl : l = a ++ v :: b) (hlb : OSet.lowerBound lt l v = a.length)
      (ha : ∀ x ∈ a, lt x v = true) (hb : ∀ x ∈ b, lt v x = true) : Look lt l v

theorem look {lt : α → α → Bool} (h : IsSTO lt) {l : List α} (hl : Sorted lt l) (v : α) :
    Look lt l v := by
  obtain ⟨a, b, rfl, hlb, ha, hb⟩ := lowerBound_split h hl v
  cases b with
  | nil => exact .absent a [] rfl hlb ha (by simp)
  | cons x b =>
    have hs := (List.pairwise_append.1 hl).2.1
    have hx := (List.pairwise_cons.1 hs).1
    cases hvx : lt v x
    · have := h.tri _ _ hvx (hb x (by simp)); subst this
      exact .present a b rfl hlb ha hx
    · refine .absent a (x :: b) rfl hlb ha ?_
      intro y hy
      rcases List.mem_cons.1 hy with rfl | hy
      · exact hvx
      · exact h.trans _ _ _ hvx (hx y hy)

theorem insertIdx_len (a b : List α) (v : α) : (a ++ b).insertIdx a.length v = a ++ v :: b := by
  induction a with
  | nil => simp
  | cons x a ih => simpa using ih

theorem eraseIfFrom_eq (p : α → Bool) (b : List α) :
    ∀ a : List α, OSet.eraseIfFrom p (a ++ b) a.length = a ++ b.filter (fun x => !p x) := by
  induction b with
  | nil =>
    intro a
    unfold OSet.eraseIfFrom
    split
    · simp
    · rename_i h; simp at h
  | cons x b ih =>
    intro a
    unfold OSet.eraseIfFrom
    have h1 : (a ++ x :: b)[a.length]? = some x := by simp
    split
    · rename_i h; rw [h1] at h; cases h
    · rename_i y h; rw [h1] at h; cases h
      have e1 : (a ++ x :: b).eraseIdx a.length = a ++ b := by
        rw [List.eraseIdx_append_of_length_le (Nat.le_refl _)]; simp
      cases hp : p x
      · have := ih (a ++ [x])
        simp only [List.length_append, List.length_singleton, List.append_assoc,
          List.singleton_append] at this
        simp [hp, this]
      · simp [e1, ih, hp]

theorem oset_eraseIf_eq (p : α → Bool) (l : List α) :
    OSet.eraseIf p l = l.filter (fun x => !p x) := by
  simpa [OSet.eraseIf] using eraseIfFrom_eq p l []

theorem omap_eraseIfFrom_eq (p : κ × ν → Bool) (b : List (κ × ν)) :
    ∀ a : List (κ × ν), OMap.eraseIfFrom p ⟨(a ++ b).map Prod.fst, a ++ b⟩ a.length =
      ⟨(a ++ b.filter (fun x => !p x)).map Prod.fst, a ++ b.filter (fun x => !p x)⟩ := by
  induction b with
  | nil =>
    intro a
    unfold OMap.eraseIfFrom
    split
    · simp
    · rename_i h; simp at h
  | cons x b ih =>
    intro a
    unfold OMap.eraseIfFrom
    have h1 : (a ++ x :: b)[a.length]? = some x := by simp
    split
    · rename_i h; rw [h1] at h; cases h
    · rename_i y h; rw [h1] at h; cases h
      have e1 : (a ++ x :: b).eraseIdx a.length = a ++ b := by
        rw [List.eraseIdx_append_of_length_le (Nat.le_refl _)]; simp
      have e2 : ((a ++ x :: b).map Prod.fst).eraseIdx a.length = (a ++ b).map Prod.fst := by
        rw [List.map_append, List.eraseIdx_append_of_length_le (by simp)]; simp
      cases hp : p x
      · have := ih (a ++ [x])
        simp only [List.length_append, List.length_singleton, List.append_assoc,
          List.singleton_append] at this
        simp only [hp, Bool.false_eq_true, if_false, this, Bool.not_false, List.filter_cons_of_pos]
      · simp only [if_true, e1, e2, ih]; simp [hp]

theorem omap_eraseIf_eq (p : κ × ν → Bool) (l : List (κ × ν)) :
    OMap.eraseIf p ⟨l.map Prod.fst, l⟩ =
      ⟨(l.filter (fun x => !p x)).map Prod.fst, l.filter (fun x => !p x)⟩ := by
  simpa [OMap.eraseIf] using omap_eraseIfFrom_eq p l []

section
variable {lt : α → α → Bool} (h : IsSTO lt) {l : List α} (hl : Sorted lt l)
include h hl

theorem oset_contains_iff (v : α) : OSet.contains lt l v = true ↔ v ∈ l := by
  unfold OSet.contains
  rcases look h hl v with ⟨a, b, rfl, hlb, ha, hb⟩ | ⟨a, b, rfl, hlb, ha, hb⟩
  · have hv : v ∉ a ++ b := by
      intro hv
      rcases List.mem_append.1 hv with hv | hv
      · have := ha v hv; rw [h.irrefl] at this; cases this
      · have := hb v hv; rw [h.irrefl] at this; cases this
    rw [hlb]
    cases b with
    | nil => simp; simpa using hv
    | cons x b => simp only [List.getElem?_append_right (Nat.le_refl _)]; simp [hb x]; simpa using hv
  · rw [hlb]; simp [h.irrefl]

theorem oset_insert_spec (v : α) :
    Sorted lt (OSet.insert lt l v) ∧ ∀ x, x ∈ OSet.insert lt l v ↔ x = v ∨ x ∈ l := by
  unfold OSet.insert OSet.insertAt
  rcases look h hl v with ⟨a, b, rfl, hlb, ha, hb⟩ | ⟨a, b, rfl, hlb, ha, hb⟩
  · have e : (a ++ b).insertIdx a.length v = a ++ v :: b := by
      exact insertIdx_len a b v
    have key : Sorted lt (a ++ v :: b) ∧ ∀ x, x ∈ a ++ v :: b ↔ x = v ∨ x ∈ a ++ b := by
      refine ⟨?_, by intro x; simp; constructor <;> rintro (h | h | h) <;> simp [h]⟩
      obtain ⟨h1, h2, h3⟩ := List.pairwise_append.1 hl
      refine List.pairwise_append.2 ⟨h1, List.pairwise_cons.2 ⟨hb, h2⟩, ?_⟩
      intro x hx y hy
      rcases List.mem_cons.1 hy with rfl | hy
      · exact ha x hx
      · exact h3 x hx y hy
    rw [hlb, e]
    cases b with
    | nil => simpa using key
    | cons x b => simpa [hb x] using key
  · rw [hlb]; simp only [List.getElem?_append_right (Nat.le_refl _)]; simp [h.irrefl]
    exact hl

theorem oset_erase_spec (v : α) :
    Sorted lt (OSet.erase lt l v) ∧ ∀ x, x ∈ OSet.erase lt l v ↔ x ≠ v ∧ x ∈ l := by
  unfold OSet.erase
  rcases look h hl v with ⟨a, b, rfl, hlb, ha, hb⟩ | ⟨a, b, rfl, hlb, ha, hb⟩
  · have hv : ∀ x ∈ a ++ b, x ≠ v := by
      rintro x hx rfl
      rcases List.mem_append.1 hx with hv | hv
      · have := ha _ hv; rw [h.irrefl] at this; cases this
      · have := hb _ hv; rw [h.irrefl] at this; cases this
    have key : Sorted lt (a ++ b) ∧ ∀ x, x ∈ a ++ b ↔ x ≠ v ∧ x ∈ a ++ b :=
      ⟨hl, fun x => ⟨fun hx => ⟨hv x hx, hx⟩, fun hx => hx.2⟩⟩
    rw [hlb]
    cases b with
    | nil => simpa using key
    | cons x b => simpa [hb x] using key
  · have e : (a ++ v :: b).eraseIdx a.length = a ++ b := by
      rw [List.eraseIdx_append_of_length_le (Nat.le_refl _)]; simp
    rw [hlb]
    simp only [List.getElem?_append_right (Nat.le_refl _)]
    simp only [Nat.sub_self, List.getElem?_cons_zero, h.irrefl, Bool.false_eq_true, if_false, e]
    obtain ⟨h1, h2, h3⟩ := List.pairwise_append.1 hl
    refine ⟨List.pairwise_append.2 ⟨h1, (List.pairwise_cons.1 h2).2, fun x hx y hy =>
      h3 x hx y (List.mem_cons_of_mem _ hy)⟩, ?_⟩
    intro x
    have hva : ∀ x ∈ a, x ≠ v := by
      rintro x hx rfl; have := ha _ hx; rw [h.irrefl] at this; cases this
    have hvb : ∀ x ∈ b, x ≠ v := by
      rintro x hx rfl; have := hb _ hx; rw [h.irrefl] at this; cases this
    constructor
    · intro hx
      rcases List.mem_append.1 hx with hx | hx
      · exact ⟨hva x hx, by simp [hx]⟩
      · exact ⟨hvb x hx, by simp [hx]⟩
    · rintro ⟨hne, hx⟩; simpa [hne] using hx

/-- `Find` returns the position of a present value. -/
theorem oset_find_mem (v : α) (hv : v ∈ l) : l[OSet.find lt l v]? = some v := by
  unfold OSet.find
  rcases look h hl v with ⟨a, b, rfl, hlb, ha, hb⟩ | ⟨a, b, rfl, hlb, ha, hb⟩
  · exfalso
    rcases List.mem_append.1 hv with hv | hv
    · have := ha v hv; rw [h.irrefl] at this; cases this
    · have := hb v hv; rw [h.irrefl] at this; cases this
  · rw [hlb]; simp [h.irrefl]

theorem oset_find_absent (v : α) (hv : v ∉ l) : OSet.find lt l v = l.length := by
  unfold OSet.find
  rcases look h hl v with ⟨a, b, rfl, hlb, ha, hb⟩ | ⟨a, b, rfl, hlb, ha, hb⟩
  · rw [hlb]
    cases b with
    | nil => simp
    | cons x b => simp [hb x]
  · simp at hv

end

/-- Shape of a map: the key set mirrors the entries, in increasing order. -/
def OMap.WF (lt : κ → κ → Bool) (m : OMap κ ν) : Prop :=
  m.keys = m.entries.map Prod.fst ∧ Sorted lt m.keys

theorem map_eq_append_iff' {f : α → β} {l : List α} {a b : List β} (h : l.map f = a ++ b) :
    ∃ a' b', l = a' ++ b' ∧ a'.map f = a ∧ b'.map f = b := by
  obtain ⟨a', b', h1, h2, h3⟩ := List.map_eq_append_iff.1 h
  exact ⟨a', b', h1, h2, h3⟩

/-- The two situations a map lookup can meet. -/
inductive MLook (lt : κ → κ → Bool) (m : OMap κ ν) (k : κ) : Prop
  | absent (a b : List (κ × ν)) (hm : m = ⟨(a ++ b).map Prod.fst, a ++ b⟩)
      (hlb : OSet.lowerBound lt m.keys k = a.length)
      (ha : ∀ x ∈ a, lt x.1 k = true) (hb : ∀ x ∈ b, lt k x.1 = true) : MLook lt m k
  | present (a b : List (κ × ν)) (v : ν)
      (hm : m = ⟨(a ++ (k, v) :: b).map Prod.fst, a ++ (k, v) :: b⟩)
      (hlb : OSet.lowerBound lt m.keys k = a.length)
      (ha : ∀ x ∈ a, lt x.1 k = true) (hb : ∀ x ∈ b, lt k x.1 = true) : MLook lt m k

theorem mlook {lt : κ → κ → Bool} (h : IsSTO lt) {m : OMap κ ν} (hm : m.WF lt) (k : κ) :
    MLook lt m k := by
  obtain ⟨keys, entries⟩ := m
  obtain ⟨hk, hs⟩ := hm
  simp only at hk hs
  rcases look h hs k with ⟨a, b, hl, hlb, ha, hb⟩ | ⟨a, b, hl, hlb, ha, hb⟩
  · rw [hk] at hl
    obtain ⟨a', b', rfl, rfl, rfl⟩ := map_eq_append_iff' hl
    exact .absent a' b' (by rw [hk]) (by simpa using hlb) (fun x hx => ha _ (List.mem_map_of_mem hx))
      (fun x hx => hb _ (List.mem_map_of_mem hx))
  · rw [hk] at hl
    obtain ⟨a', b', rfl, rfl, hb'⟩ := map_eq_append_iff' hl
    obtain ⟨⟨k', v⟩, b'', rfl, h1, rfl⟩ := List.map_eq_cons_iff.1 hb'
    simp only at h1; subst h1
    exact .present a' b'' v (by rw [hk]) (by simpa using hlb)
      (fun x hx => ha _ (List.mem_map_of_mem hx)) (fun x hx => hb _ (List.mem_map_of_mem hx))

/-- Value stored under a key, read off the entry list. -/
def assoc (l : List (κ × ν)) (k : κ) (v : ν) : Prop := (k, v) ∈ l

section
variable {lt : κ → κ → Bool} (h : IsSTO lt)
include h

theorem not_mem_absent {a b : List (κ × ν)} {k : κ} (ha : ∀ x ∈ a, lt x.1 k = true)
    (hb : ∀ x ∈ b, lt k x.1 = true) : (∀ v, (k, v) ∉ a) ∧ (∀ v, (k, v) ∉ b) := by
  constructor <;> intro v hv
  · have := ha _ hv; simp [h.irrefl] at this
  · have := hb _ hv; simp [h.irrefl] at this

omit h in
theorem sorted_replace {a b : List (κ × ν)} {k : κ} (ha : ∀ x ∈ a, lt x.1 k = true)
    (hb : ∀ x ∈ b, lt k x.1 = true) (hs : Sorted lt ((a ++ b).map Prod.fst)) (v : ν) :
    Sorted lt ((a ++ (k, v) :: b).map Prod.fst) := by
  unfold Sorted at *
  rw [List.map_append] at hs ⊢
  obtain ⟨h1, h2, h3⟩ := List.pairwise_append.1 hs
  refine List.pairwise_append.2 ⟨h1, ?_, ?_⟩
  · rw [List.map_cons]
    refine List.pairwise_cons.2 ⟨?_, h2⟩
    intro y hy; obtain ⟨x, hx, rfl⟩ := List.mem_map.1 hy; exact hb x hx
  · intro x hx y hy
    obtain ⟨z, hz, rfl⟩ := List.mem_map.1 hx
    rw [List.map_cons] at hy
    rcases List.mem_cons.1 hy with rfl | hy
    · exact ha z hz
    · exact h3 _ (List.mem_map_of_mem hz) y hy

theorem sorted_remove {a b : List (κ × ν)} {e : κ × ν}
    (hs : Sorted lt ((a ++ e :: b).map Prod.fst)) : Sorted lt ((a ++ b).map Prod.fst) := by
  have _ := h
  refine List.Pairwise.sublist ?_ hs
  exact (List.Sublist.append_left (List.sublist_cons_self _ _) _).map _

theorem insertAt_absent {a b : List (κ × ν)} {k : κ} (hb : ∀ x ∈ b, lt k x.1 = true) :
    OSet.insertAt lt ((a ++ b).map Prod.fst) a.length k =
      (a.map Prod.fst) ++ k :: b.map Prod.fst := by
  have _ := h
  have e : (a.map Prod.fst ++ b.map Prod.fst).insertIdx a.length k =
      a.map Prod.fst ++ k :: b.map Prod.fst := by
    have := insertIdx_len (a.map Prod.fst) (b.map Prod.fst) k
    simpa using this
  unfold OSet.insertAt
  rw [List.map_append, e]
  cases b with
  | nil => simp
  | cons x b => simp [hb x]

variable {m : OMap κ ν} (hm : m.WF lt)
include hm

theorem omap_insert_spec (k : κ) (v : ν) :
    (m.insert lt k v).WF lt ∧
    ∀ k' v', (k', v') ∈ (m.insert lt k v).entries ↔
      (k' = k ∧ v' = v) ∨ (k' ≠ k ∧ (k', v') ∈ m.entries) := by
  rcases mlook h hm k with ⟨a, b, rfl, hlb, ha, hb⟩ | ⟨a, b, v0, rfl, hlb, ha, hb⟩
  · have hna := not_mem_absent h ha hb
    have e : (a ++ b).insertIdx a.length (k, v) = a ++ (k, v) :: b := by
      exact insertIdx_len a b _
    have e2 := insertAt_absent h (a := a) (b := b) (k := k) hb
    have key : OMap.insert lt ⟨(a ++ b).map Prod.fst, a ++ b⟩ k v =
        ⟨(a ++ (k, v) :: b).map Prod.fst, a ++ (k, v) :: b⟩ := by
      unfold OMap.insert
      simp only at hlb
      simp only [hlb, e, e2]
      cases b with
      | nil => simp
      | cons x b => simp [hb x]
    rw [key]
    refine ⟨⟨rfl, sorted_replace ha hb hm.2 v⟩, ?_⟩
    intro k' v'
    by_cases hk : k' = k
    · subst hk; simp [hna.1, hna.2]
    · simp [hk]
  · have hna := not_mem_absent h ha hb
    have key : OMap.insert lt ⟨(a ++ (k, v0) :: b).map Prod.fst, a ++ (k, v0) :: b⟩ k v =
        ⟨(a ++ (k, v) :: b).map Prod.fst, a ++ (k, v) :: b⟩ := by
      unfold OMap.insert
      simp only at hlb
      simp only [hlb]
      simp [h.irrefl]
    rw [key]
    refine ⟨⟨rfl, by simpa using hm.2⟩, ?_⟩
    intro k' v'
    by_cases hk : k' = k
    · subst hk; simp [hna.1, hna.2]
    · simp [hk]

theorem omap_fetch_spec (k : κ) (v : ν) :
    (m.fetch lt k v).WF lt ∧
    ∀ k' v', (k', v') ∈ (m.fetch lt k v).entries ↔
      (k', v') ∈ m.entries ∨ (k' = k ∧ v' = v ∧ ∀ w, (k, w) ∉ m.entries) := by
  rcases mlook h hm k with ⟨a, b, rfl, hlb, ha, hb⟩ | ⟨a, b, v0, rfl, hlb, ha, hb⟩
  · have hna := not_mem_absent h ha hb
    have e : (a ++ b).insertIdx a.length (k, v) = a ++ (k, v) :: b := by
      exact insertIdx_len a b _
    have e2 := insertAt_absent h (a := a) (b := b) (k := k) hb
    have key : OMap.fetch lt ⟨(a ++ b).map Prod.fst, a ++ b⟩ k v =
        ⟨(a ++ (k, v) :: b).map Prod.fst, a ++ (k, v) :: b⟩ := by
      unfold OMap.fetch
      simp only at hlb
      simp only [hlb, e, e2]
      cases b with
      | nil => simp
      | cons x b => simp [hb x]
    rw [key]
    refine ⟨⟨rfl, sorted_replace ha hb hm.2 v⟩, ?_⟩
    intro k' v'
    by_cases hk : k' = k
    · subst hk; simp [hna.1, hna.2]
    · simp [hk]
  · have hna := not_mem_absent h ha hb
    have key : OMap.fetch lt ⟨(a ++ (k, v0) :: b).map Prod.fst, a ++ (k, v0) :: b⟩ k v =
        ⟨(a ++ (k, v0) :: b).map Prod.fst, a ++ (k, v0) :: b⟩ := by
      unfold OMap.fetch
      simp only at hlb
      simp only [hlb]
      simp [h.irrefl]
    rw [key]
    refine ⟨hm, ?_⟩
    intro k' v'
    constructor
    · exact Or.inl
    · rintro (h | ⟨-, -, h⟩)
      · exact h
      · exact absurd (by simp) (h v0)

theorem omap_erase_spec (k : κ) :
    (m.erase lt k).WF lt ∧
    ∀ k' v', (k', v') ∈ (m.erase lt k).entries ↔ k' ≠ k ∧ (k', v') ∈ m.entries := by
  rcases mlook h hm k with ⟨a, b, rfl, hlb, ha, hb⟩ | ⟨a, b, v0, rfl, hlb, ha, hb⟩
  · have hna := not_mem_absent h ha hb
    have key : OMap.erase lt ⟨(a ++ b).map Prod.fst, a ++ b⟩ k =
        ⟨(a ++ b).map Prod.fst, a ++ b⟩ := by
      unfold OMap.erase
      simp only at hlb
      simp only [hlb]
      cases b with
      | nil => simp
      | cons x b => simp [hb x]
    rw [key]
    refine ⟨hm, ?_⟩
    intro k' v'
    by_cases hk : k' = k
    · subst hk; simp [hna.1, hna.2]
    · simp [hk]
  · have hna := not_mem_absent h ha hb
    have e1 : (a ++ (k, v0) :: b).eraseIdx a.length = a ++ b := by
      rw [List.eraseIdx_append_of_length_le (Nat.le_refl _)]; simp
    have e2 : ((a ++ (k, v0) :: b).map Prod.fst).eraseIdx a.length = (a ++ b).map Prod.fst := by
      rw [List.map_append, List.eraseIdx_append_of_length_le (by simp)]; simp
    have key : OMap.erase lt ⟨(a ++ (k, v0) :: b).map Prod.fst, a ++ (k, v0) :: b⟩ k =
        ⟨(a ++ b).map Prod.fst, a ++ b⟩ := by
      unfold OMap.erase
      simp only at hlb
      simp only [hlb, e1, e2]
      simp [h.irrefl]
    rw [key]
    refine ⟨⟨rfl, sorted_remove h hm.2⟩, ?_⟩
    intro k' v'
    by_cases hk : k' = k
    · subst hk; simp [hna.1, hna.2]
    · simp [hk]

theorem omap_get_spec (k : κ) (v : ν) : (k, v) ∈ m.entries → m.get? lt k = some v := by
  rcases mlook h hm k with ⟨a, b, rfl, hlb, ha, hb⟩ | ⟨a, b, v0, rfl, hlb, ha, hb⟩
  · have hna := not_mem_absent h ha hb
    intro hv; rcases List.mem_append.1 hv with hv | hv
    · exact absurd hv (hna.1 v)
    · exact absurd hv (hna.2 v)
  · have hna := not_mem_absent h ha hb
    intro hv
    simp only at hlb
    simp only [OMap.get?, hlb]
    have : v = v0 := by simpa [hna.1, hna.2] using hv
    simp [this]

/-- Writing through a reference to a present entry. -/
theorem omap_modify_spec (k : κ) (f : ν → ν) (hk : ∃ v, (k, v) ∈ m.entries) :
    (m.modify lt k f).WF lt ∧
    ∀ k' v', (k', v') ∈ (m.modify lt k f).entries ↔
      (k' ≠ k ∧ (k', v') ∈ m.entries) ∨ (k' = k ∧ ∃ v, (k, v) ∈ m.entries ∧ v' = f v) := by
  rcases mlook h hm k with ⟨a, b, rfl, hlb, ha, hb⟩ | ⟨a, b, v0, rfl, hlb, ha, hb⟩
  · have hna := not_mem_absent h ha hb
    obtain ⟨v, hv⟩ := hk
    rcases List.mem_append.1 hv with hv | hv
    · exact absurd hv (hna.1 v)
    · exact absurd hv (hna.2 v)
  · have hna := not_mem_absent h ha hb
    have key : OMap.modify lt ⟨(a ++ (k, v0) :: b).map Prod.fst, a ++ (k, v0) :: b⟩ k f =
        ⟨(a ++ (k, f v0) :: b).map Prod.fst, a ++ (k, f v0) :: b⟩ := by
      unfold OMap.modify
      simp only at hlb
      simp only [hlb]
      congr 1
      · simp
      · rw [List.modify_eq_take_cons_drop (by simp)]
        simp
    rw [key]
    refine ⟨⟨rfl, by simpa using hm.2⟩, ?_⟩
    intro k' v'
    by_cases hk : k' = k
    · subst hk; simp [hna.1, hna.2]
    · simp [hk]

theorem omap_contains_spec (k : κ) :
    m.contains lt k = true ↔ ∃ v, (k, v) ∈ m.entries := by
  rw [OMap.contains, oset_contains_iff h hm.2, hm.1]
  simp

theorem omap_find_spec (k : κ) (v : ν) :
    m.find? lt k = some (k, v) ↔ (k, v) ∈ m.entries := by
  constructor
  · intro hf; exact List.mem_of_getElem? hf
  · intro hv
    rcases mlook h hm k with ⟨a, b, rfl, hlb, ha, hb⟩ | ⟨a, b, v0, rfl, hlb, ha, hb⟩
    · have hna := not_mem_absent h ha hb
      rcases List.mem_append.1 hv with hv | hv
      · exact absurd hv (hna.1 v)
      · exact absurd hv (hna.2 v)
    · have hna := not_mem_absent h ha hb
      have : v = v0 := by simpa [hna.1, hna.2] using hv
      subst this
      simp only at hlb
      simp only [OMap.find?, OSet.find, hlb]
      simp [h.irrefl]

theorem omap_find_none (k : κ) (hk : ∀ v, (k, v) ∉ m.entries) : m.find? lt k = none := by
  have : k ∉ m.keys := by rw [hm.1]; simpa using hk
  rw [OMap.find?, oset_find_absent h hm.2 _ this, hm.1]
  simp

end

end Ovk
