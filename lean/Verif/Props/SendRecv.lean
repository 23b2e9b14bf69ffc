/-
Property C21: values sent through matching send and receive maps.
-/
import Verif.Lemmas.SendRecv
import Mathlib.Data.Fin.VecNotation
import Mathlib.Data.Fintype.Prod
import Mathlib.Data.Fintype.BigOperators
import Mathlib.Data.Fintype.Card
import Mathlib.Tactic.FinCases

namespace Ovk.SR
variable {n : Nat} {V : Type}

namespace Spec
/-- The maps of all processes fit together: they come from the constructors with orders that list every
slot once, ranks are valid, and every process expects from every other as many values as that one sends
it. -/
structure Matched (s : Setup n) : Prop where
  sendBuilt : ∀ a, build (s.send a).ranks (s.send a).order = some (s.send a)
  recvBuilt : ∀ a, build (s.recv a).ranks (s.recv a).order = some (s.recv a)
  sendOrder : ∀ a, (s.send a).order.Perm (List.range (s.send a).ranks.length)
  recvOrder : ∀ a, (s.recv a).order.Perm (List.range (s.recv a).ranks.length)
  sendRanks : ∀ a, ∀ r ∈ (s.send a).ranks, r < n
  recvRanks : ∀ a, ∀ r ∈ (s.recv a).ranks, r < n
  counts : ∀ a b : Fin n, (s.send a).ranks.count (b : Int) = (s.recv b).ranks.count (a : Int)

/-- Send slots of `a` for `b`, in message order. -/
def from_ (s : Setup n) (a b : Fin n) : List Nat := slots (s.send a).order (s.send a).ranks b
/-- Receive slots of `b` for `a`, in message order. -/
def into (s : Setup n) (b a : Fin n) : List Nat := slots (s.recv b).order (s.recv b).ranks a

/-- What a process must end up with. -/
structure Received (s : Setup n) (vals : Fin n → Nat → Nat → V) (out0 : Nat → Nat → V) (b : Fin n)
    (o : Nat → Nat → V) : Prop where
  /-- the `k`-th slot for `a` gets all components of the `k`-th slot of `a` for `b` -/
  values : ∀ (a : Fin n) (k i j c : Nat), c < s.count → (from_ s a b)[k]? = some i →
    (into s b a)[k]? = some j → o c j = vals a c i
  /-- nothing else is written -/
  untouched : ∀ c j, ¬ (c < s.count ∧ ∃ r, (s.recv b).ranks[j]? = some r ∧ 0 ≤ r) → o c j = out0 c j
end Spec

theorem ok_of_built {m : Map} (h : build m.ranks m.order = some m) : MapOk m := by
  obtain ⟨m', h1, _, _, h4⟩ := build_ok m.ranks m.order
  rw [h] at h1
  obtain rfl := Option.some.inj h1
  exact h4

section
variable {s : Setup n} (hs : Spec.Matched s) (vals : Fin n → Nat → Nat → V) (out0 : Fin n → Nat → Nat → V)

/-- `data` is a message from `a` to `b`. -/
def Carries (s : Setup n) (vals : Fin n → Nat → Nat → V) (a b : Fin n) (nv : Nat) (data : Nat → Option V) : Prop :=
  ∀ k v c : Nat, c < s.count → (Spec.from_ s a b)[k]? = some v → data (c * nv + k) = some (vals a c v)

structure Inv (s : Setup n) (vals : Fin n → Nat → Nat → V) (out0 : Fin n → Nat → Nat → V) (x : State n V) :
    Prop where
  chan : ∀ a b len data, x.chan a b = some (len, data) →
    ∃ nv, nv = (s.send a).ranks.count (b : Int) ∧ len = s.count * nv ∧ Carries s vals a b nv data
  sent : ∀ a b : Fin n, x.sent a = true → (b : Int) ∈ (s.send a).ranks → ∃ y, x.chan a b = some y
  arr : ∀ b i, x.arrived b i = true → ∃ (a : Fin n) (nv : Nat), (s.recv b).msgs[i]? = some ((a : Int), nv) ∧
    Carries s vals a b nv (x.rbuf b i)
  done : ∀ b, x.finished b = true → x.posted b = true ∧ Spec.Received s vals (out0 b) b (x.out b)
  notDone : ∀ b, x.finished b = false → x.out b = out0 b

theorem inv_initial : Inv s vals out0 (initial out0) :=
  ⟨by simp [initial], by simp [initial], by simp [initial], by simp [initial], by simp [initial]⟩

include hs

theorem from_length (a b : Fin n) : (Spec.from_ s a b).length = (s.send a).ranks.count (b : Int) :=
  slots_length (hs.sendOrder a) _

theorem into_length (a b : Fin n) : (Spec.into s b a).length = (s.recv b).ranks.count (a : Int) :=
  slots_length (hs.recvOrder b) _

theorem messageTo_spec (a b : Fin n) (p : Pack V)
    (hp : PackInv (s.send a) s.count (vals a) (s.send a).order p) :
    (∀ len data, messageTo (s.send a) s.count p b = some (len, data) →
      ∃ nv, nv = (s.send a).ranks.count (b : Int) ∧ len = s.count * nv ∧ Carries s vals a b nv data) ∧
    ((b : Int) ∈ (s.send a).ranks → ∃ y, messageTo (s.send a) s.count p b = some y) := by
  have hok := ok_of_built (hs.sendBuilt a)
  constructor
  · intro len data h
    unfold messageTo at h
    split at h
    · simp at h
    · rename_i i hi
      obtain ⟨y, hy, he⟩ := Option.map_eq_some_iff.1 h
      obtain ⟨rfl, rfl⟩ := Prod.mk.inj he
      have h1 : y.1 = (b : Int) := by
        obtain ⟨hlt, h2, _⟩ := List.findIdx?_eq_some_iff_getElem.1 hi
        obtain ⟨_, hy2⟩ := List.getElem?_eq_some_iff.1 hy
        rw [hy2] at h2
        simpa using h2
      have hy' : (s.send a).msgs[i]? = some ((b : Int), y.2) := by rw [hy, ← h1]
      obtain ⟨_, _, h3⟩ := hok.msg i _ _ hy'
      refine ⟨y.2, h3, rfl, ?_⟩
      intro k v c hc hk
      exact (hp i _ _ hy').2 k v c hc hk
  · intro hb
    obtain ⟨v, hv⟩ := List.mem_iff_getElem?.1 hb
    obtain ⟨i, _, hi⟩ := hok.pos v _ hv (by omega)
    unfold messageTo
    cases hf : (s.send a).msgs.findIdx? fun x => x.1 = (b : Int) with
    | none =>
      rw [List.findIdx?_eq_none_iff] at hf
      have := hf _ (List.mem_of_getElem? hi)
      simp at this
    | some j =>
      obtain ⟨hlt, _⟩ := List.findIdx?_eq_some_iff_getElem.1 hf
      simp only [List.getElem?_eq_getElem hlt, Option.map_some]
      exact ⟨_, rfl⟩

/-- All buffers of `b` filled: unpacking works and gives the right values. -/
theorem unpack_received (x : State n V) (hx : Inv s vals out0 x) (b : Fin n)
    (harr : ∀ i, i < (s.recv b).msgs.length → x.arrived b i = true) (hnd : x.finished b = false) :
    ∃ u, unpack (s.recv b) s.count (x.rbuf b) (x.out b) = some u ∧
      Spec.Received s vals (out0 b) b u.out := by
  have hok := ok_of_built (hs.recvBuilt b)
  let nvs : Nat → Nat := fun i => (((s.recv b).msgs[i]?).map Prod.snd).getD 0
  let w : Nat → Nat → Nat → V := fun i k c => (x.rbuf b i (c * nvs i + k)).getD (out0 b 0 0)
  have hfull : ∀ (i : Nat) (r : Int) (nv : Nat), (s.recv b).msgs[i]? = some (r, nv) →
      ∃ a : Fin n, r = (a : Int) ∧ nv = (s.recv b).ranks.count (a : Int) ∧ Carries s vals a b nv (x.rbuf b i) := by
    intro i r nv hi
    obtain ⟨hlt, _⟩ := List.getElem?_eq_some_iff.1 hi
    obtain ⟨a, nv', h1, h2⟩ := hx.arr b i (harr i hlt)
    rw [hi] at h1
    obtain ⟨rfl, rfl⟩ := Prod.mk.inj (Option.some.inj h1)
    exact ⟨a, rfl, (hok.msg i _ _ hi).2.2, h2⟩
  have hval : ∀ (i : Nat) (a : Fin n) (nv : Nat), (s.recv b).msgs[i]? = some ((a : Int), nv) →
      Carries s vals a b nv (x.rbuf b i) → ∀ k v c, c < s.count → (Spec.from_ s a b)[k]? = some v →
      w i k c = vals a c v := by
    intro i a nv hi hc k v c hcc hk
    have : nvs i = nv := by simp [nvs, hi]
    simp only [w, this, hc k v c hcc hk, Option.getD_some]
  obtain ⟨u, hu, hinv⟩ := unpack_spec hok (hs.recvOrder b) s.count (x.rbuf b) w (x.out b) (by
    intro i r nv hi k hk c hc
    obtain ⟨a, rfl, hnv, hcar⟩ := hfull i r nv hi
    have hl : k < (Spec.from_ s a b).length := by rw [from_length hs, hs.counts, ← hnv]; exact hk
    have hkk := List.getElem?_eq_getElem hl
    rw [hval i a nv hi hcar k _ c hc hkk]
    exact hcar k _ c hc hkk)
  refine ⟨u, hu, ?_, ?_⟩
  · intro a k i j c hc hk1 hk2
    have hlt : (Spec.into s b a)[k]? = some j := hk2
    have hmem : (a : Int) ∈ (s.recv b).ranks := by
      have := List.mem_of_getElem? hk2
      unfold Spec.into Spec.slots at this
      rw [List.mem_filter] at this
      exact List.mem_of_getElem? (by simpa using this.2)
    obtain ⟨v, hv⟩ := List.mem_iff_getElem?.1 hmem
    obtain ⟨m, _, hm⟩ := hok.pos v _ hv (by omega)
    obtain ⟨a', ha', hnv, hcar⟩ := hfull m _ _ hm
    have : a = a' := Fin.ext (by exact_mod_cast ha')
    subst this
    rw [hinv.got m _ _ hm k j c hc hk2, hval m a _ hm hcar k i c hc hk1]
  · intro c j hno
    rw [hinv.rest c j ?_, hx.notDone b hnd]
    intro hj hc
    have : j ∈ List.range (s.recv b).ranks.length := (hs.recvOrder b).subset hj
    rw [List.mem_range] at this
    refine ⟨_, List.getElem?_eq_getElem this, ?_⟩
    by_contra hneg
    exact hno ⟨hc, _, List.getElem?_eq_getElem this, by omega⟩

theorem inv_step (x y : State n V) (e : Event n) (h : Inv s vals out0 x)
    (hy : step s vals x e = some y) : Inv s vals out0 y := by
  cases e with
  | send a =>
    simp only [step] at hy
    split_ifs at hy with hst
    obtain ⟨p, hp, rfl⟩ := Option.map_eq_some_iff.1 hy
    obtain ⟨p', hp', hpi⟩ := pack_spec (ok_of_built (hs.sendBuilt a)) (hs.sendOrder a) s.count (vals a)
    rw [hp] at hp'
    obtain rfl := Option.some.inj hp'
    refine ⟨?_, ?_, h.arr, h.done, h.notDone⟩
    · intro k b len data hk
      simp only at hk
      split_ifs at hk with hka
      · subst hka; exact (messageTo_spec hs vals k b p hpi).1 len data hk
      · exact h.chan k b len data hk
    · intro k b hk hb
      simp only at hk ⊢
      by_cases hka : k = a
      · subst hka; simp only [if_true]; exact (messageTo_spec hs vals k b p hpi).2 hb
      · simp only [hka, if_false] at hk ⊢; exact h.sent k b hk hb
  | post b =>
    simp only [step] at hy
    split_ifs at hy with hst
    obtain rfl := Option.some.inj hy
    refine ⟨h.chan, h.sent, h.arr, ?_, h.notDone⟩
    intro k hk
    refine ⟨?_, (h.done k hk).2⟩
    simp only
    split_ifs
    · rfl
    · exact (h.done k hk).1
  | deliver b i =>
    simp only [step] at hy
    split_ifs at hy with hc
    split at hy
    · simp at hy
    · rename_i r nv hi
      split_ifs at hy with hr
      split at hy
      · simp at hy
      · rename_i len data hch
        split_ifs at hy with hlen
        obtain rfl := Option.some.inj hy
        refine ⟨h.chan, h.sent, ?_, h.done, h.notDone⟩
        intro k j hk
        simp only at hk ⊢
        by_cases hkb : k = b ∧ j = i
        · obtain ⟨rfl, rfl⟩ := hkb
          obtain ⟨nv', h1, _, h3⟩ := h.chan _ _ _ _ hch
          have hra : r = ((⟨r.toNat, hr.2⟩ : Fin n) : Int) := by simp; omega
          refine ⟨⟨r.toNat, hr.2⟩, nv, by rw [← hra]; exact hi, ?_⟩
          have : nv = nv' := by
            rw [h1, hs.counts, ((ok_of_built (hs.recvBuilt k)).msg j _ _ hi).2.2, ← hra]
          subst this
          simpa using h3
        · rw [if_neg hkb] at hk ⊢; exact h.arr k j hk
  | finish b =>
    simp only [step] at hy
    split_ifs at hy with hc
    obtain ⟨u', hu', hrec⟩ := unpack_received hs vals out0 x h b hc.2.2 hc.2.1
    rw [hu'] at hy
    obtain rfl := Option.some.inj hy
    refine ⟨h.chan, h.sent, h.arr, ?_, ?_⟩
    · intro k hk
      simp only at hk ⊢
      by_cases hkb : k = b
      · subst hkb; simpa using ⟨hc.1, hrec⟩
      · simp only [hkb, if_false] at hk ⊢; exact h.done k hk
    · intro k hk
      simp only at hk ⊢
      by_cases hkb : k = b
      · simp [hkb] at hk
      · simp only [hkb, if_false] at hk ⊢; exact h.notDone k hk

theorem inv_run : ∀ (es : List (Event n)) (x y : State n V), Inv s vals out0 x →
    run s vals x es = some y → Inv s vals out0 y
  | [], x, y, h, hr => by obtain rfl := Option.some.inj hr; exact h
  | e :: es, x, y, h, hr => by
    obtain ⟨z, hz, hr⟩ := Option.bind_eq_some_iff.1 hr
    exact inv_run es z y (inv_step hs vals out0 x z e h hz) hr

/-- C21: whatever the order of calls, message completions and other processes' progress, a process whose
receive has finished holds in every slot exactly the value of the matching send slot, and nothing else
was written. -/
theorem C21_values (es : List (Event n)) (x : State n V) (hrun : run s vals (initial out0) es = some x)
    (b : Fin n) (hfin : x.finished b = true) : Spec.Received s vals (out0 b) b (x.out b) :=
  ((inv_run hs vals out0 es _ _ (inv_initial vals out0) hrun).done b hfin).2

/-- C21: every receive slot with a rank has a matching send slot and the other way round. -/
theorem C21_matching (a b : Fin n) :
    (Spec.from_ s a b).length = (Spec.into s b a).length ∧
    (∀ j : Nat, (s.recv b).ranks[j]? = some (a : Int) → ∃ k i : Nat, (Spec.into s b a)[k]? = some j ∧
      (Spec.from_ s a b)[k]? = some i ∧ (s.send a).ranks[i]? = some (b : Int)) ∧
    (Spec.into s b a).Nodup ∧ (Spec.from_ s a b).Nodup := by
  have hl : (Spec.from_ s a b).length = (Spec.into s b a).length := by
    rw [from_length hs, into_length hs, hs.counts]
  refine ⟨hl, ?_, ?_, ?_⟩
  · intro j hj
    have hlt := (List.getElem?_eq_some_iff.1 hj).1
    have : j ∈ Spec.into s b a := by
      unfold Spec.into Spec.slots
      rw [List.mem_filter]
      exact ⟨(hs.recvOrder b).symm.subset (List.mem_range.2 hlt), by simpa using hj⟩
    obtain ⟨k, hk⟩ := List.mem_iff_getElem?.1 this
    have hk' : k < (Spec.from_ s a b).length := by rw [hl]; exact (List.getElem?_eq_some_iff.1 hk).1
    refine ⟨k, _, hk, List.getElem?_eq_getElem hk', ?_⟩
    have hm : (Spec.from_ s a b)[k] ∈ (s.send a).order.filter fun v => (s.send a).ranks[v]? = some (b : Int) :=
      List.getElem_mem hk'
    rw [List.mem_filter] at hm
    simpa using hm.2
  · exact ((hs.recvOrder b).nodup_iff.2 List.nodup_range).filter _
  · exact ((hs.sendOrder a).nodup_iff.2 List.nodup_range).filter _

/-- C21: no execution gets stuck before every process has sent and received. -/
theorem C21_progress (es : List (Event n)) (x : State n V) (hrun : run s vals (initial out0) es = some x)
    (hnf : ¬ ((∀ a, x.sent a = true) ∧ ∀ b, x.finished b = true)) : ∃ e y, step s vals x e = some y := by
  have hinv := inv_run hs vals out0 es _ _ (inv_initial vals out0) hrun
  by_cases hsent : ∀ a, x.sent a = true
  · have : ∃ b, x.finished b = false := by
      by_contra hne
      push Not at hne
      exact hnf ⟨hsent, fun b => by simpa using hne b⟩
    obtain ⟨b, hb⟩ := this
    by_cases hp : x.posted b = true
    · by_cases harr : ∀ i, i < (s.recv b).msgs.length → x.arrived b i = true
      · obtain ⟨u, hu, _⟩ := unpack_received hs vals out0 x hinv b harr hb
        refine ⟨.finish b, ?_⟩
        simp only [step]
        rw [if_pos ⟨hp, hb, harr⟩, hu]
        exact ⟨_, rfl⟩
      · push Not at harr
        obtain ⟨i, hi, hna⟩ := harr
        have hna' : x.arrived b i = false := by simpa using hna
        have hok := ok_of_built (hs.recvBuilt b)
        obtain ⟨r, nv, hmi⟩ : ∃ r nv, (s.recv b).msgs[i]? = some (r, nv) :=
          ⟨_, _, List.getElem?_eq_getElem hi⟩
        obtain ⟨h0, hmem, hnv⟩ := hok.msg i r nv hmi
        have hrn := hs.recvRanks b r hmem
        have hr : 0 ≤ r ∧ r.toNat < n := by omega
        have hra : r = ((⟨r.toNat, hr.2⟩ : Fin n) : Int) := by simp; omega
        have hcnt : (s.send ⟨r.toNat, hr.2⟩).ranks.count (b : Int) = nv := by
          rw [hs.counts, ← hra, hnv]
        have hin : (b : Int) ∈ (s.send ⟨r.toNat, hr.2⟩).ranks := by
          apply List.count_pos_iff.1
          rw [hcnt, hnv]
          exact List.count_pos_iff.2 hmem
        obtain ⟨⟨len, data⟩, hy⟩ := hinv.sent ⟨r.toNat, hr.2⟩ b (hsent _) hin
        obtain ⟨nv', h1, h2, _⟩ := hinv.chan _ _ _ _ hy
        refine ⟨.deliver b i, ?_⟩
        simp only [step]
        rw [if_pos ⟨hp, hna'⟩, hmi]
        simp only [hr, and_self, dif_pos, hy]
        rw [if_pos (by rw [h2, h1, hcnt])]
        exact ⟨_, rfl⟩
    · exact ⟨.post b, by simp only [step]; rw [if_neg hp]; exact ⟨_, rfl⟩⟩
  · push Not at hsent
    obtain ⟨a, ha⟩ := hsent
    obtain ⟨p, hp, _⟩ := pack_spec (ok_of_built (hs.sendBuilt a)) (hs.sendOrder a) s.count (vals a)
    refine ⟨.send a, ?_⟩
    simp only [step]
    rw [if_neg ha, hp]
    exact ⟨_, rfl⟩

end

/-- Calls not made, receives not completed, completions not run. -/
def remaining (s : Setup n) (x : State n V) : Nat :=
  (Finset.univ.filter fun a => x.sent a = false).card + (Finset.univ.filter fun a => x.posted a = false).card +
  (Finset.univ.filter fun a => x.finished a = false).card +
  (Finset.univ.filter fun y : (b : Fin n) × Fin (s.recv b).msgs.length => x.arrived y.1 y.2 = false).card

theorem card_drop {α : Type} [Fintype α] [DecidableEq α] (f : α → Bool) (a : α) (h : f a = false) :
    (Finset.univ.filter fun k => (if k = a then true else f k) = false).card <
      (Finset.univ.filter fun k => f k = false).card := by
  apply Finset.card_lt_card
  rw [Finset.ssubset_iff_of_subset]
  · exact ⟨a, by simpa using h, by simp⟩
  · intro k hk
    simp only [Finset.mem_filter, Finset.mem_univ, true_and] at hk ⊢
    by_cases hka : k = a
    · simp [hka] at hk
    · simpa [hka] using hk

theorem remaining_step (s : Setup n) (vals : Fin n → Nat → Nat → V) (x y : State n V) (e : Event n)
    (h : step s vals x e = some y) : remaining s y < remaining s x := by
  cases e with
  | send a =>
    simp only [step] at h
    split_ifs at h with hst
    obtain ⟨p, _, rfl⟩ := Option.map_eq_some_iff.1 h
    have := card_drop x.sent a (by simpa using hst)
    unfold remaining
    simp only at this ⊢
    omega
  | post b =>
    simp only [step] at h
    split_ifs at h with hst
    obtain rfl := Option.some.inj h
    have := card_drop x.posted b (by simpa using hst)
    unfold remaining
    simp only at this ⊢
    omega
  | finish b =>
    simp only [step] at h
    split_ifs at h with hc
    obtain ⟨p, _, rfl⟩ := Option.map_eq_some_iff.1 h
    have := card_drop x.finished b hc.2.1
    unfold remaining
    simp only at this ⊢
    omega
  | deliver b i =>
    simp only [step] at h
    split_ifs at h with hc
    split at h
    · simp at h
    · rename_i r nv hi
      split_ifs at h with hr
      split at h
      · simp at h
      · split_ifs at h
        obtain rfl := Option.some.inj h
        have hlt : i < (s.recv b).msgs.length := (List.getElem?_eq_some_iff.1 hi).1
        have := card_drop (fun y : (b : Fin n) × Fin (s.recv b).msgs.length => x.arrived y.1 y.2) ⟨b, i, hlt⟩ hc.2
        unfold remaining
        simp only at this ⊢
        have e : (Finset.univ.filter fun y : (b : Fin n) × Fin (s.recv b).msgs.length =>
              (if y.1 = b ∧ (y.2 : Nat) = i then true else x.arrived y.1 y.2) = false) =
            Finset.univ.filter fun k : (b : Fin n) × Fin (s.recv b).msgs.length =>
              (if k = ⟨b, i, hlt⟩ then true else x.arrived k.1 k.2) = false := by
          ext ⟨b', i'⟩
          simp only [Finset.mem_filter, Finset.mem_univ, true_and]
          have : (b' = b ∧ (i' : Nat) = i) ↔ (⟨b', i'⟩ : (b : Fin n) × Fin (s.recv b).msgs.length) = ⟨b, i, hlt⟩ := by
            constructor
            · rintro ⟨rfl, rfl⟩; rfl
            · intro h
              cases h
              exact ⟨rfl, rfl⟩
          simp only [this]
        rw [e]
        omega

/-- C21: every execution ends. -/
theorem C21_terminates (s : Setup n) (vals out0 : Fin n → Nat → Nat → V) (es : List (Event n)) (x : State n V)
    (h : run s vals (initial out0) es = some x) :
    es.length ≤ 3 * n + ∑ b : Fin n, (s.recv b).msgs.length := by
  have key : ∀ (es : List (Event n)) (x y : State n V), run s vals x es = some y →
      es.length + remaining s y ≤ remaining s x := by
    intro es
    induction es with
    | nil => intro x y h; simp only [run, Option.some.injEq] at h; subst h; simp
    | cons e es ih =>
      intro x y h
      simp only [run, Option.bind_eq_some_iff] at h
      obtain ⟨z, hz, h⟩ := h
      have h1 := remaining_step s vals x z e hz
      have h2 := ih z y h
      simp only [List.length_cons]; omega
  have h1 := key es _ _ h
  have h2 : remaining s (initial out0) ≤ 3 * n + ∑ b : Fin n, (s.recv b).msgs.length := by
    unfold remaining
    have g1 := Finset.card_le_univ (Finset.univ.filter fun a : Fin n => (initial out0).sent a = false)
    have g2 := Finset.card_le_univ (Finset.univ.filter fun a : Fin n => (initial out0).posted a = false)
    have g3 := Finset.card_le_univ (Finset.univ.filter fun a : Fin n => (initial out0).finished a = false)
    have g4 := Finset.card_le_univ (Finset.univ.filter fun y : (b : Fin n) × Fin (s.recv b).msgs.length =>
      (initial out0).arrived y.1 y.2 = false)
    rw [Fintype.card_fin] at g1 g2 g3
    rw [Fintype.card_sigma] at g4
    simp only [Fintype.card_fin] at g4
    omega
  omega

/-- The default order lists every slot once. -/
theorem C21_default_order (ranks : List Int) :
    (defaultOrder ranks.length).Perm (List.range ranks.length) := List.Perm.refl _

/- Two processes; process 0 sends slots 2 and 0 to process 1 in that order and nothing from slot 1; process
1 sends its slot 0 to itself. -/
def exSend : Fin 2 → Map := ![⟨[1, -1, 1], [2, 1, 0], [(1, 2)], [0, -1, 0]⟩, ⟨[1], [0], [(1, 1)], [0]⟩]
def exRecv : Fin 2 → Map := ![⟨[], [], [], []⟩, ⟨[1, 0, -1, 0], [0, 1, 2, 3], [(0, 2), (1, 1)], [1, 0, -1, 0]⟩]
def exSetup : Setup 2 := ⟨exSend, exRecv, 2⟩

instance : DecidableEq Map := fun a b => decidable_of_iff
  (a.ranks = b.ranks ∧ a.order = b.order ∧ a.msgs = b.msgs ∧ a.idx = b.idx) (by
    cases a; cases b; simp)

example : Spec.Matched exSetup where
  sendBuilt := by decide +kernel
  recvBuilt := by decide +kernel
  sendOrder := by decide +kernel
  recvOrder := by decide +kernel
  sendRanks := by decide +kernel
  recvRanks := by decide +kernel
  counts := by decide +kernel

/- Process 1 posts first, messages arrive in reverse order; slot 2 keeps its value. -/
example : ((run exSetup (fun a c i => 100 * (a : Nat) + 10 * c + i) (initial fun _ _ _ => 999)
      [.post 1, .send 1, .deliver 1 1, .send 0, .deliver 1 0, .finish 1, .post 0, .finish 0]).map fun x =>
    [0, 1].map fun c => [0, 1, 2, 3].map fun j => x.out 1 c j) =
    some [[100, 2, 999, 0], [110, 12, 999, 10]] := by decide +kernel

end Ovk.SR
