/- Correctness of the bin storage built by counting, prefix sums and filling. -/
import Verif.Model.Csr
import Mathlib.Data.List.Basic
import Mathlib.Data.List.Induction
import Mathlib.Tactic.SplitIfs
import Mathlib.Tactic.ByContra

namespace Ovk.Csr

/-- Number of ops going to bin `b`. -/
def cnt (ops : List (Nat × Nat)) (b : Nat) : Nat := (ops.map Prod.fst).count b

/-- Values going to bin `b`, in order. -/
def valsOf (ops : List (Nat × Nat)) (b : Nat) : List Nat :=
  (ops.filter fun o => o.1 == b).map Prod.snd

/-- Prefix sum. -/
def pre (f : Nat → Nat) : Nat → Nat
  | 0 => 0
  | b + 1 => pre f b + f b

theorem pre_mono (f : Nat → Nat) {a b : Nat} (h : a ≤ b) : pre f a ≤ pre f b := by
  induction b with
  | zero => have : a = 0 := by omega
            subst this; exact Nat.le_refl _
  | succ b ih =>
    by_cases hab : a = b + 1
    · subst hab; exact Nat.le_refl _
    · have := ih (by omega); simp only [pre]; omega

theorem valsOf_length (ops : List (Nat × Nat)) (b : Nat) : (valsOf ops b).length = cnt ops b := by
  induction ops with
  | nil => rfl
  | cons o os ih =>
    unfold valsOf cnt at *
    by_cases h : o.1 = b
    · simp [h] at ih ⊢; omega
    · simp [h] at ih ⊢; omega

theorem cnt_append (o1 o2 : List (Nat × Nat)) (b : Nat) : cnt (o1 ++ o2) b = cnt o1 b + cnt o2 b := by
  simp [cnt]

theorem cnt_single (o : Nat × Nat) (b : Nat) : cnt [o] b = if o.1 = b then 1 else 0 := by
  by_cases h : o.1 = b <;> simp [cnt, h]

theorem valsOf_append (o1 o2 : List (Nat × Nat)) (b : Nat) :
    valsOf (o1 ++ o2) b = valsOf o1 b ++ valsOf o2 b := by
  simp [valsOf]

theorem valsOf_single (o : Nat × Nat) (b : Nat) : valsOf [o] b = if o.1 = b then [o.2] else [] := by
  by_cases h : o.1 = b <;> simp [valsOf, h]

theorem foldlM_snoc {α β : Type} (f : β → α → Option β) (b : β) (l : List α) (a : α) :
    (l ++ [a]).foldlM f b = (l.foldlM f b).bind fun s => f s a := by
  rw [List.foldlM_append]; simp [List.foldlM]

theorem count_pass (n : Nat) (ops : List (Nat × Nat)) (h : ∀ o ∈ ops, o.1 < n) :
    (ops.map Prod.fst).foldlM bump (List.replicate n 0) =
      some ((List.range n).map (cnt ops)) := by
  induction ops using List.reverseRecOn with
  | nil =>
    simp only [List.map_nil, List.foldlM_nil]
    congr 1
    apply List.ext_getElem <;> simp [cnt]
  | append_singleton l a ih =>
    rw [List.map_append, List.map_singleton, foldlM_snoc, ih fun o ho => h o (by simp [ho])]
    have ha : a.1 < n := h a (by simp)
    simp only [Option.bind_some, bump]
    rw [List.getElem?_map, List.getElem?_range ha]
    simp only [Option.map_some, Option.pure_def, Option.bind_eq_bind, Option.bind_some]
    congr 1
    apply List.ext_getElem
    · simp
    · intro i h1 h2
      simp only [List.getElem_set, List.getElem_map, List.getElem_range, cnt_append, cnt_single]
      split_ifs with h3
      · rw [h3]
      · rfl

theorem prefix_pass (n : Nat) (f : Nat → Nat) :
    prefixPass ((List.range n).map f) (List.range n) (List.replicate n 0) =
      some ((List.range n).map (pre f), pre f n) := by
  have key : ∀ m, m ≤ n → (List.range m).foldlM (fun (s : List Nat × Nat) b => do
      let n' ← ((List.range n).map f)[b]?
      if b < s.1.length then pure (s.1.set b s.2, s.2 + n') else none) (List.replicate n 0, 0) =
      some ((List.range n).map (fun b => if b < m then pre f b else 0), pre f m) := by
    intro m
    induction m with
    | zero =>
      intro _
      simp only [List.range_zero, List.foldlM_nil, pre]
      congr 2
      apply List.ext_getElem <;> simp
    | succ m ih =>
      intro hm
      rw [List.range_succ, foldlM_snoc, ih (by omega)]
      simp only [Option.bind_some]
      rw [List.getElem?_map, List.getElem?_range (show m < n by omega)]
      simp only [Option.map_some, Option.bind_eq_bind, Option.bind_some, List.length_map,
        List.length_range, if_pos (show m < n by omega), Option.pure_def, pre]
      congr 2
      apply List.ext_getElem
      · simp
      · intro i h1 h2
        simp only [List.getElem_set, List.getElem_map, List.getElem_range]
        split_ifs <;> first | rfl | omega | (subst_vars; rfl)
  have := key n (Nat.le_refl n)
  unfold prefixPass
  rw [this]
  congr 2
  apply List.map_congr_left
  intro b hb
  rw [if_pos (List.mem_range.1 hb)]

/-- State of the filling loop after the prefix `done` of all ops. -/
structure FillInv (n : Nat) (all done : List (Nat × Nat)) (s : List Nat × List (Option Nat)) : Prop where
  cs : s.1 = (List.range n).map (cnt done)
  len : s.2.length = pre (cnt all) n
  vals : ∀ b, b < n → ∀ j (v : Nat), (valsOf done b)[j]? = some v →
    s.2[pre (cnt all) b + j]? = some (some v)

theorem bucket_disjoint (f : Nat → Nat) {b b' j j' : Nat} (hj : j < f b) (hj' : j' < f b')
    (h : pre f b + j = pre f b' + j') : b = b' ∧ j = j' := by
  rcases Nat.lt_trichotomy b b' with hlt | heq | hgt
  · have := pre_mono f (show b + 1 ≤ b' by omega); simp only [pre] at this; omega
  · subst heq; exact ⟨rfl, by omega⟩
  · have := pre_mono f (show b' + 1 ≤ b by omega); simp only [pre] at this; omega

theorem fill_pass (n : Nat) (all : List (Nat × Nat)) (h : ∀ o ∈ all, o.1 < n) :
    ∀ done rest, done ++ rest = all →
    ∃ s, done.foldlM (put ((List.range n).map (pre (cnt all))))
        (List.replicate n 0, List.replicate (pre (cnt all) n) none) = some s ∧
      FillInv n all done s := by
  intro done
  induction done using List.reverseRecOn with
  | nil =>
    intro rest _
    refine ⟨_, rfl, ?_, by simp, ?_⟩
    · apply List.ext_getElem <;> simp [cnt]
    · intro b _ j v hv; simp [valsOf] at hv
  | append_singleton l a ih =>
    intro rest hall
    obtain ⟨s, hs, inv⟩ := ih ([a] ++ rest) (by rw [← hall]; simp)
    have ha : a.1 < n := h a (by rw [← hall]; simp)
    have hroom : cnt l a.1 < cnt all a.1 := by
      rw [← hall, cnt_append, cnt_append, cnt_single]; simp; omega
    have hpos : pre (cnt all) a.1 + cnt l a.1 < pre (cnt all) n := by
      have := pre_mono (cnt all) (show a.1 + 1 ≤ n by omega); simp only [pre] at this; omega
    rw [foldlM_snoc, hs]
    have hb : bump s.1 a.1 = some (s.1.set a.1 (cnt l a.1 + 1)) := by
      unfold bump
      rw [inv.cs, List.getElem?_map, List.getElem?_range ha]; rfl
    have hc : s.1[a.1]? = some (cnt l a.1) := by
      rw [inv.cs, List.getElem?_map, List.getElem?_range ha]; rfl
    have hp : ((List.range n).map (pre (cnt all)))[a.1]? = some (pre (cnt all) a.1) := by
      rw [List.getElem?_map, List.getElem?_range ha]; rfl
    refine ⟨(s.1.set a.1 (cnt l a.1 + 1), s.2.set (pre (cnt all) a.1 + cnt l a.1) (some a.2)),
      ?_, ?_, ?_, ?_⟩
    · simp only [Option.bind_some, put, hp, hc, hb, Option.bind_eq_bind, inv.len, if_pos hpos,
        Option.pure_def]
    · rw [inv.cs]
      apply List.ext_getElem
      · simp
      · intro i h1 h2
        simp only [List.getElem_set, List.getElem_map, List.getElem_range, cnt_append, cnt_single]
        split_ifs with h3
        · rw [h3]
        · rfl
    · simp [inv.len]
    · intro b hb j v hv
      rw [valsOf_append, valsOf_single] at hv
      have hlen := valsOf_length l b
      by_cases hj : j < (valsOf l b).length
      · rw [List.getElem?_append_left hj] at hv
        rw [List.getElem?_set_ne]
        · exact inv.vals b hb j v hv
        · intro he
          have hcb : cnt l b ≤ cnt all b := by rw [← hall, cnt_append, cnt_append]; omega
          obtain ⟨h1, h2⟩ := bucket_disjoint (cnt all) hroom (show j < cnt all b by omega) he
          subst h1; omega
      · rw [List.getElem?_append_right (by omega)] at hv
        by_cases hab : a.1 = b
        · rw [if_pos hab] at hv
          have hj0 : j - (valsOf l b).length = 0 := by
            by_contra hne
            rw [List.getElem?_eq_none (by simp; omega)] at hv; exact absurd hv (by simp)
          rw [hj0] at hv
          simp only [List.getElem?_cons_zero, Option.some.injEq] at hv
          have hjj : j = cnt l b := by omega
          subst hab; subst hjj
          rw [List.getElem?_set_self (by rw [inv.len]; exact hpos), hv]
        · rw [if_neg hab] at hv; simp at hv

theorem slice_spec (entries : List (Option Nat)) (st : Nat) (vs : List Nat)
    (h : ∀ j (v : Nat), vs[j]? = some v → entries[st + j]? = some (some v))
    (hl : st + vs.length ≤ entries.length) :
    slice entries st (st + vs.length) = some vs := by
  unfold slice
  rw [if_pos ⟨by omega, hl⟩]
  have : (entries.drop st).take (st + vs.length - st) = vs.map some := by
    apply List.ext_getElem?
    intro j
    rw [List.getElem?_take, List.getElem?_drop, List.getElem?_map]
    split_ifs with hj
    · have : vs[j]? = some vs[j] := List.getElem?_eq_getElem (by omega)
      rw [h j _ this, this]; rfl
    · rw [List.getElem?_eq_none (show vs.length ≤ j by omega)]; rfl
  rw [this]
  clear h hl this
  induction vs with
  | nil => rfl
  | cons v vs ih => simp [List.mapM_cons, ih]

/-- The three passes succeed, and reading a bin returns exactly the values sent to it, in order. -/
theorem build_spec (n : Nat) (items : List (List Nat)) (h : ∀ l ∈ items, ∀ b ∈ l, b < n) :
    ∃ t, build n (List.range n) items = some t ∧
      ∀ b, b < n → retrieve t b = some (valsOf (opsOf items) b) ∧
        retrieveN t b = some (valsOf (opsOf items) b) := by
  have hops : ∀ o ∈ opsOf items, o.1 < n := by
    intro o ho
    simp only [opsOf, List.mem_flatMap, List.mem_map] at ho
    obtain ⟨x, hx, b, hb, rfl⟩ := ho
    obtain ⟨l, i⟩ := x
    have := List.mem_zipIdx hx
    simp only at this hb ⊢
    refine h l ?_ b hb
    rw [this.2.2]; exact List.getElem_mem _
  obtain ⟨s, hs, inv⟩ := fill_pass n (opsOf items) hops (opsOf items) [] (by simp)
  refine ⟨⟨s.1, (List.range n).map (pre (cnt (opsOf items))), pre (cnt (opsOf items)) n, s.2⟩, ?_, ?_⟩
  · unfold build
    simp only [count_pass n _ hops, Option.bind_eq_bind, Option.bind_some, prefix_pass, hs,
      Option.pure_def]
  · intro b hb
    have hsl : slice s.2 (pre (cnt (opsOf items)) b)
        (pre (cnt (opsOf items)) b + (valsOf (opsOf items) b).length) =
        some (valsOf (opsOf items) b) := by
      refine slice_spec _ _ _ (inv.vals b hb) ?_
      have := pre_mono (cnt (opsOf items)) (show b + 1 ≤ n by omega)
      simp only [pre] at this
      rw [valsOf_length, inv.len]; omega
    rw [valsOf_length] at hsl
    constructor
    · unfold retrieve
      have h1 : ((List.range n).map (pre (cnt (opsOf items))) ++ [pre (cnt (opsOf items)) n])[b]? =
          some (pre (cnt (opsOf items)) b) := by
        rw [List.getElem?_append_left (by simp; omega), List.getElem?_map, List.getElem?_range hb]; rfl
      have h2 : ((List.range n).map (pre (cnt (opsOf items))) ++ [pre (cnt (opsOf items)) n])[b + 1]? =
          some (pre (cnt (opsOf items)) (b + 1)) := by
        by_cases hbn : b + 1 < n
        · rw [List.getElem?_append_left (by simp; omega), List.getElem?_map,
            List.getElem?_range hbn]; rfl
        · have : b + 1 = n := by omega
          rw [List.getElem?_append_right (by simp; omega), this]; simp
      simp only [h1, h2, Option.bind_eq_bind, Option.bind_some, pre]
      exact hsl
    · unfold retrieveN
      have h1 : ((List.range n).map (pre (cnt (opsOf items))))[b]? =
          some (pre (cnt (opsOf items)) b) := by
        rw [List.getElem?_map, List.getElem?_range hb]; rfl
      have h2 : s.1[b]? = some (cnt (opsOf items) b) := by
        rw [inv.cs, List.getElem?_map, List.getElem?_range hb]; rfl
      simp only [h1, h2, Option.bind_eq_bind, Option.bind_some]
      exact hsl

theorem valsOf_opsAux (b : Nat) : ∀ (items : List (List Nat)) (k : Nat),
    (∀ l ∈ items, l.Nodup) →
    valsOf ((items.zipIdx k).flatMap fun x => x.1.map fun b => (b, x.2)) b =
      ((items.zipIdx k).filter fun x => x.1.contains b).map Prod.snd := by
  intro items
  induction items with
  | nil => intro k _; rfl
  | cons l ls ih =>
    intro k hn
    rw [List.zipIdx_cons, List.flatMap_cons, valsOf_append, ih (k + 1) fun l' h' => hn l' (by simp [h'])]
    have hl : l.Nodup := hn l (by simp)
    have : valsOf (l.map fun b => (b, k)) b = if l.contains b then [k] else [] := by
      clear ih hn
      induction l with
      | nil => rfl
      | cons c cs ih2 =>
        have h2 := ih2 (List.nodup_cons.1 hl).2
        have h3 := (List.nodup_cons.1 hl).1
        unfold valsOf at h2 ⊢
        simp only [List.map_cons, List.filter_cons]
        by_cases hcb : c = b
        · subst hcb
          simp only [BEq.rfl, if_true, List.map_cons, h2]
          simp [h3]
        · have : (c == b) = false := by simpa using hcb
          have h4 : (b == c) = false := by simpa using fun h => hcb h.symm
          simp only [this, List.contains_cons, h4, Bool.false_or]; exact h2
    dsimp only at this ⊢
    rw [this, List.filter_cons]
    split_ifs <;> simp

/-- Bins without repetition: a bin holds exactly the indices of the items listing it, ascending. -/
theorem valsOf_ops (items : List (List Nat)) (hn : ∀ l ∈ items, l.Nodup) (b : Nat) :
    valsOf (opsOf items) b =
      ((items.zipIdx).filter fun x => x.1.contains b).map Prod.snd :=
  valsOf_opsAux b items 0 hn

theorem mem_valsOf_ops (items : List (List Nat)) (b i : Nat) :
    i ∈ valsOf (opsOf items) b ↔ ∃ l, items[i]? = some l ∧ b ∈ l := by
  simp only [valsOf, opsOf, List.mem_map, List.mem_filter, List.mem_flatMap]
  constructor
  · rintro ⟨o, ⟨⟨⟨l, k⟩, hx, c, hc, rfl⟩, h2⟩, h3⟩
    simp only [beq_iff_eq] at h2 h3
    subst h2; subst h3
    have := List.mem_zipIdx_iff_getElem?.1 hx
    exact ⟨l, this, hc⟩
  · rintro ⟨l, hl, hb⟩
    refine ⟨(b, i), ⟨⟨(l, i), List.mem_zipIdx_iff_getElem?.2 hl, b, hb, rfl⟩, by simp⟩, rfl⟩

theorem sorted_valsOf_ops (items : List (List Nat)) (hn : ∀ l ∈ items, l.Nodup) (b : Nat) :
    (valsOf (opsOf items) b).Pairwise (· < ·) := by
  rw [valsOf_ops items hn]
  rw [List.pairwise_map]
  refine List.Pairwise.filter _ ?_
  have : (items.zipIdx.map Prod.snd).Pairwise (· < ·) := by
    rw [List.zipIdx_map_snd]; exact List.pairwise_lt_range'
  exact (List.pairwise_map.1 this)

end Ovk.Csr
