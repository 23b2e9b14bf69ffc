/- Lemmas on the distributed region hash: the retrieval protocol, and completeness for lawful regions. -/
import Verif.Model.DistHash
import Verif.Lemmas.Csr
import Verif.Lemmas.FieldIndex
import Verif.Lemmas.Container
import Verif.Props.RegionHash

namespace Ovk.DHash
variable {d : Nat} {K R : Type}

/-! ### Retrieval protocol -/

theorem natSTO : IsSTO (fun a b : Nat => decide (a < b)) :=
  ⟨by simp, by simp only [decide_eq_true_eq]; omega, by simp only [decide_eq_false_iff_not]; omega⟩

theorem sent_spec : ∀ (l acc : List Nat), Sorted (fun a b => decide (a < b)) acc →
    Sorted (fun a b => decide (a < b))
      (l.foldl (fun acc k => OSet.insert (fun a b => decide (a < b)) acc k) acc) ∧
    ∀ x, x ∈ l.foldl (fun acc k => OSet.insert (fun a b => decide (a < b)) acc k) acc ↔
      x ∈ l ∨ x ∈ acc
  | [], acc, h => ⟨h, by simp⟩
  | k :: l, acc, h => by
    obtain ⟨h1, h2⟩ := oset_insert_spec natSTO h k
    obtain ⟨h3, h4⟩ := sent_spec l _ h1
    refine ⟨h3, fun x => ?_⟩
    rw [List.foldl_cons, h4, h2]; simp only [List.mem_cons]; tauto

theorem sorted_nodup {l : List Nat} (h : Sorted (fun a b => decide (a < b)) l) : l.Nodup := by
  unfold Sorted at h
  exact h.imp (fun hab => by have := of_decide_eq_true hab; omega)

theorem remap_aux : ∀ (sent : List Nat) (j0 : Nat) (a : List Int), sent.Nodup →
    (∀ k ∈ sent, k < a.length) →
    (∀ j k, sent[j]? = some k →
      ((sent.zipIdx j0).foldl (fun a x => a.set x.1 (x.2 : Int)) a)[k]? = some ((j0 + j : Nat) : Int)) ∧
    (∀ k, k ∉ sent →
      ((sent.zipIdx j0).foldl (fun a x => a.set x.1 (x.2 : Int)) a)[k]? = a[k]?)
  | [], j0, a, _, _ => by simp
  | s :: sent, j0, a, hn, hl => by
    have hs : s < a.length := hl s (by simp)
    obtain ⟨hn1, hn2⟩ := List.nodup_cons.1 hn
    obtain ⟨ih1, ih2⟩ := remap_aux sent (j0 + 1) (a.set s (j0 : Int)) hn2
      (fun k hk => by simpa using hl k (by simp [hk]))
    rw [List.zipIdx_cons, List.foldl_cons]
    constructor
    · intro j k hj
      cases j with
      | zero =>
        simp only [List.getElem?_cons_zero, Option.some.injEq] at hj
        subst hj
        rw [ih2 s hn1, List.getElem?_set_self hs]; simp
      | succ j =>
        simp only [List.getElem?_cons_succ] at hj
        rw [ih1 j k hj]; congr 2; omega
    · intro k hk
      simp only [List.mem_cons, not_or] at hk
      rw [ih2 k hk.2, List.getElem?_set_ne (fun h => hk.1 h.symm)]

theorem remap_spec (n : Nat) (sent : List Nat) (hn : sent.Nodup) (hl : ∀ k ∈ sent, k < n) (j k : Nat)
    (h : sent[j]? = some k) : (remap n sent)[k]? = some (j : Int) := by
  have := (remap_aux sent 0 (List.replicate n (-1)) hn (by simpa using hl)).1 j k h
  simpa [remap] using this

theorem intervals_spec (f : Nat → List Nat) (b : Nat) {α : Type} (g : Nat → α) :
    ∀ (bins : List Nat) (pre : List α), b ∈ bins →
    ∃ pos, (intervals bins (bins.map fun x => (f x).length) pre.length).find? (fun x => x.1 == b) =
        some (b, pos, pos + (f b).length) ∧
      pos + (f b).length ≤ (pre ++ (bins.flatMap f).map g).length ∧
      ((pre ++ (bins.flatMap f).map g).drop pos).take (f b).length = (f b).map g
  | [], _, h => by simp at h
  | c :: bins, pre, h => by
    by_cases hcb : c = b
    · subst hcb
      refine ⟨pre.length, by simp [intervals], by simp, ?_⟩
      rw [List.drop_left, List.flatMap_cons, List.map_append]
      have : (f c).length = ((f c).map g).length := by simp
      rw [this, List.take_left]
    · have hb : b ∈ bins := by
        rcases List.mem_cons.1 h with h | h
        · exact absurd h.symm hcb
        · exact h
      obtain ⟨pos, h1, h2, h3⟩ := intervals_spec f b g bins (pre ++ (f c).map g) hb
      refine ⟨pos, ?_, ?_, ?_⟩
      · simp only [List.map_cons, intervals, List.find?_cons]
        have : (c == b) = false := by simpa using hcb
        rw [this]
        simpa using h1
      · simpa using h2
      · simpa using h3

theorem mapM_map_some {α β : Type} (f : α → Option β) (g : α → β) (l : List α)
    (h : ∀ x ∈ l, f x = some (g x)) : l.mapM f = some (l.map g) := CC.mapM_some f g l h

theorem mapM_getElem (data : List (Nat × R)) (dflt : Nat × R) (l : List Nat)
    (h : ∀ k ∈ l, k < data.length) :
    (l.mapM fun k => data[k]?) = some (l.map fun k => data.getD k dflt) := by
  apply mapM_map_some
  intro k hk
  rw [List.getElem?_eq_getElem (h k hk), List.getD_eq_getElem?_getD,
    List.getElem?_eq_getElem (h k hk)]; rfl

/-- Reading a retrieved bin gives the owner's regions of that bin, whatever else was asked for. -/
theorem retrieve_bin (s : Store R) (t : Csr.Table) (ht : s.table = some t) (n : Nat)
    (vals : Nat → List Nat) (hv : ∀ b, b < n → Csr.retrieveN t b = some (vals b))
    (hlt : ∀ b, b < n → ∀ k ∈ vals b, k < s.data.length)
    (bins : List Nat) (hbins : ∀ b ∈ bins, b < n) (b : Nat) (hb : b ∈ bins) :
    ∃ a l, answer s bins = some a ∧ readBin bins a b = some l ∧
      ((vals b).mapM fun k => s.data[k]?) = some l := by
  have hlists : bins.mapM (Csr.retrieveN t) = some (bins.map vals) :=
    mapM_map_some _ _ _ fun x hx => hv x (hbins x hx)
  have hflat : (bins.map vals).flatten = bins.flatMap vals := by rw [List.flatMap_def]
  obtain ⟨hs1, hs2⟩ := sent_spec (bins.flatMap vals) [] List.Pairwise.nil
  generalize hsent : (bins.flatMap vals).foldl
    (fun acc k => OSet.insert (fun a b => decide (a < b)) acc k) [] = sent at hs1 hs2
  have hnd := sorted_nodup hs1
  have hmem : ∀ x, x ∈ sent ↔ x ∈ bins.flatMap vals := by intro x; rw [hs2]; simp
  have hslt : ∀ k ∈ sent, k < s.data.length := by
    intro k hk
    rw [hmem, List.mem_flatMap] at hk
    obtain ⟨c, hc, hk⟩ := hk
    exact hlt c (hbins c hc) k hk
  by_cases hne : s.data = []
  · -- no data: then the bin is empty
    have hall : ∀ c ∈ bins, vals c = [] := by
      intro c hc
      by_contra hcon
      obtain ⟨k, hk⟩ := List.exists_mem_of_ne_nil _ hcon
      have := hlt c (hbins c hc) k hk
      rw [hne] at this; simp at this
    have hfm : bins.flatMap vals = [] := by
      rw [List.flatMap_eq_nil_iff]; exact hall
    have hse : sent = [] := by rw [← hsent, hfm]; rfl
    obtain ⟨pos, h1, h2, h3⟩ := intervals_spec vals b (fun k => ((sent.idxOf k : Nat) : Int)) bins [] hb
    refine ⟨⟨[], (bins.map vals).map List.length, []⟩, [], ?_, ?_, ?_⟩
    · unfold answer
      simp only [ht, hlists, Option.bind_eq_bind, Option.bind_some, hflat, hfm]
      simp
    · unfold readBin
      rw [List.map_map]
      simp only [List.length_nil] at h1
      have h1' : (intervals bins (List.map (List.length ∘ vals) bins) 0).find? (fun x => x.1 == b) =
        some (b, pos, pos + (vals b).length) := h1
      simp only [h1', Option.bind_eq_bind, Option.bind_some]
      rw [hfm] at h2; simp at h2
      rw [if_pos (by simp; omega)]; simp
    · rw [hall b hb]; rfl
  · obtain ⟨dflt, hd⟩ := List.exists_mem_of_ne_nil _ hne
    have hreg := mapM_getElem s.data dflt sent hslt
    have hidx : ∀ k ∈ bins.flatMap vals, (remap s.data.length sent)[k]? = some ((sent.idxOf k : Nat) : Int) := by
      intro k hk
      apply remap_spec _ _ hnd hslt
      exact List.getElem?_idxOf ((hmem k).2 hk)
    have hind := mapM_map_some (fun k => (remap s.data.length sent)[k]?)
      (fun k => ((sent.idxOf k : Nat) : Int)) (bins.flatMap vals) hidx
    obtain ⟨pos, h1, h2, h3⟩ := intervals_spec vals b (fun k => ((sent.idxOf k : Nat) : Int)) bins [] hb
    refine ⟨⟨sent.map fun k => s.data.getD k dflt, (bins.map vals).map List.length,
      (bins.flatMap vals).map fun k => ((sent.idxOf k : Nat) : Int)⟩,
      (vals b).map fun k => s.data.getD k dflt, ?_, ?_, ?_⟩
    · unfold answer
      simp only [ht, hlists, Option.bind_eq_bind, Option.bind_some, hflat, hsent, hreg, hind,
        Option.pure_def]
    · unfold readBin
      rw [List.map_map]
      have h1' : (intervals bins (List.map (List.length ∘ vals) bins) 0).find? (fun x => x.1 == b) =
        some (b, pos, pos + (vals b).length) := h1
      simp only [h1', Option.bind_eq_bind, Option.bind_some]
      simp only [List.nil_append] at h2 h3
      rw [if_pos h2, Nat.add_sub_cancel_left, h3, List.mapM_map]
      apply mapM_map_some
      intro k hk
      have hks : k ∈ sent := (hmem k).2 (List.mem_flatMap.2 ⟨b, hb, hk⟩)
      simp only [Function.comp, Int.natCast_nonneg, if_true, Int.toNat_natCast]
      rw [List.getElem?_map, List.getElem?_idxOf hks]; rfl
    · exact mapM_getElem s.data dflt _ (hlt b (hbins b hb))

end Ovk.DHash
