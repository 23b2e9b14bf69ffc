/-
Property C124: the messages of matching and distribution of XINTOUT data, and of distributed region hashes, meet the
receives meant for them, and no process waits forever.
-/
import Verif.Model.ImportComm
import Verif.Props.Schedule

namespace Ovk.ImpComm
open Sched (Cmd Swap Comm Op Label Stage Staged Good Bal peers messages msgOps chan flat opsOf swapStage)
variable {n : Nat}

namespace Spec
/-- The result of a handshake: each process hears of exactly the processes that named it, once. -/
def Heard (G : Group n) (to_ from_ : Fin n → List (Fin n)) : Prop :=
  ∀ p, G.mem p = true → (from_ p).Nodup ∧ ∀ q, q ∈ from_ p ↔ G.mem q = true ∧ p ∈ to_ q

/-- The processes of a communicator name only processes of it, and handshakes have the right results. -/
structure Sound (G : Group n) (H : Hash n) : Prop where
  regions : ∀ p, G.mem p = true → ∀ r ∈ H.regions p, ∀ q : Fin n, (q : Int) ∈ r → G.mem q = true
  bins : ∀ p, G.mem p = true → ∀ q : Fin n, (q : Int) ∈ H.bins p → G.mem q = true
  recvFrom : Heard G (fun q => peers (H.regions q).flatten) H.recvFrom
  retrieving : Heard G (fun q => peers (H.bins q)) H.retrieving

/-- The same for all grids of an import. -/
structure Fit (I : Import n) : Prop where
  hash : ∀ g ∈ I.grids, Sound ⟨some g, I.loc g⟩ (I.hash g)
  donors : ∀ g ∈ I.grids, ∀ p, I.loc g p = true → ∀ q : Fin n, (q : Int) ∈ I.donorRanks g p → I.loc g q = true
  receivers : ∀ g ∈ I.grids, ∀ p, I.loc g p = true → ∀ q : Fin n, (q : Int) ∈ I.receiverRanks g p → I.loc g q = true
end Spec

/-! ### Stages -/

theorem single_staged (s : Stage n) (h : ∀ c, Bal [s] c) : Staged s.prog := by
  refine ⟨[s], fun p => by simp [flat], ?_, h⟩
  intro A t B e p cs _ c _
  cases A with
  | nil =>
    simp only [List.nil_append, List.cons.injEq] at e
    rw [← e.1]
    exact h c
  | cons a A => simp at e

theorem coll_paired (G : Group n) (s : Nat) : Sched.Spec.Paired (G.coll s) where
  agree a b := by
    simp only [Group.coll, Group.members, List.mem_filter, List.mem_finRange, true_and]
    exact And.comm
  toOnce _ := (List.nodup_finRange n).filter _
  fromOnce _ := (List.nodup_finRange n).filter _

theorem colls_staged (G : Group n) {l : List (Swap n)} (h : ∀ w ∈ l, ∃ s, w = G.coll s) :
    Staged fun p => l.flatMap (·.prog p) :=
  Sched.staged_swaps fun w hw => by
    obtain ⟨s, rfl⟩ := h w hw
    exact coll_paired G s

theorem coll_staged (G : Group n) (s : Nat) : Staged fun p => (G.coll s).prog p := by
  have := colls_staged G (l := [G.coll s]) fun w hw => ⟨s, by simpa using hw⟩
  simpa using this

theorem mem_sync {G : Group n} {on : Bool} {s : Nat} {w : Swap n} (h : w ∈ G.sync on s) : ∃ s, w = G.coll s := by
  unfold Group.sync at h
  split at h
  · exact ⟨s, by simpa using h⟩
  · cases h

/-- The two sides of the messages of one kind. -/
structure Part.Ok (G : Group n) (x : Part n) : Prop where
  agree : ∀ a b, (G.mem a = true ∧ b ∈ x.to_ a) ↔ (G.mem b = true ∧ a ∈ x.from_ b)
  toOnce : ∀ a, G.mem a = true → (x.to_ a).Nodup
  fromOnce : ∀ a, G.mem a = true → (x.from_ a).Nodup

section
variable (G : Group n) (s : Nat) (parts : List (Part n))

def recvStage : Stage n where
  ops p := if G.mem p then parts.flatMap fun x => msgOps (G.tag x.tag) false s (x.tag, 0) x.copies (x.from_ p) else []
  wait _ := none

def sendStage : Stage n where
  ops p := if G.mem p then parts.flatMap fun x => msgOps (G.tag x.tag) true s (x.tag, 0) x.copies (x.to_ p) else []
  wait p := if G.mem p then some (parts.map fun x => G.tag x.tag) else none

variable {G s parts}

theorem chan_recv (h : ∀ x ∈ parts, x.Ok G) (p : Fin n) (t : Bool) (c : Comm) (q : Fin n) :
    chan ((recvStage G s parts).ops p) t c q = parts.flatMap fun x =>
      if t = false ∧ G.tag x.tag = c ∧ G.mem p = true ∧ q ∈ x.from_ p then (List.range x.copies).map fun j => (s, (x.tag, 0), j)
      else [] := by
  unfold recvStage
  dsimp only
  by_cases hm : G.mem p = true
  · rw [if_pos hm, Sched.chan_flatMap]
    apply Sched.flatMap_congr'
    intro x hx
    rw [Sched.chan_msgOps _ _ _ _ _ ((h x hx).fromOnce p hm)]
    simp [hm, eq_comm]
  · simp [hm, chan]

theorem chan_send (h : ∀ x ∈ parts, x.Ok G) (p : Fin n) (t : Bool) (c : Comm) (q : Fin n) :
    chan ((sendStage G s parts).ops p) t c q = parts.flatMap fun x =>
      if t = true ∧ G.tag x.tag = c ∧ G.mem p = true ∧ q ∈ x.to_ p then (List.range x.copies).map fun j => (s, (x.tag, 0), j)
      else [] := by
  unfold sendStage
  dsimp only
  by_cases hm : G.mem p = true
  · rw [if_pos hm, Sched.chan_flatMap]
    apply Sched.flatMap_congr'
    intro x hx
    rw [Sched.chan_msgOps _ _ _ _ _ ((h x hx).toOnce p hm)]
    simp [hm, eq_comm]
  · simp [hm, chan]

theorem exchange_staged (h : ∀ x ∈ parts, x.Ok G) {between : List (Swap n)} (hb : ∀ w ∈ between, ∃ s, w = G.coll s) :
    Staged fun p => exchange G s parts between p := by
  -- on communicators of collective operations there are no messages
  have hr : ∀ c, (∀ t, c ≠ G.tag t) → Bal [recvStage G s parts] c := by
    intro c hc a b
    have : ∀ p t q, chan (opsOf [recvStage G s parts] p) t c q = [] := by
      intro p t q
      simp only [opsOf, List.flatMap_cons, List.flatMap_nil, List.append_nil]
      rw [chan_recv h, List.flatMap_eq_nil_iff]
      intro x _
      rw [if_neg fun e => hc _ e.2.1.symm]
    rw [this, this]
  have hs : ∀ T : List (Stage n), (∀ t ∈ T, t ∈ between.map swapStage) → ∀ c, Bal T c := fun T hT c =>
    Sched.bal_of_all fun t ht => by
      obtain ⟨w, hw, rfl⟩ := List.mem_map.1 (hT t ht)
      obtain ⟨k, rfl⟩ := hb w hw
      exact Sched.bal_swap (coll_paired G k) c
  have hall : ∀ c, Bal ([recvStage G s parts] ++ between.map swapStage ++ [sendStage G s parts]) c := by
    intro c a b
    have hm : ∀ p t q, opsOf ([recvStage G s parts] ++ between.map swapStage ++ [sendStage G s parts]) p =
        (recvStage G s parts).ops p ++ opsOf (between.map swapStage) p ++ (sendStage G s parts).ops p ∧
        (∀ t', c = G.tag t' → chan (opsOf (between.map swapStage) p) t c q = []) := by
      intro p t q
      refine ⟨by simp [opsOf], fun t' ht' => ?_⟩
      unfold opsOf
      rw [Sched.chan_flatMap, List.flatMap_eq_nil_iff]
      intro st hst
      obtain ⟨w, hw, rfl⟩ := List.mem_map.1 hst
      obtain ⟨k, rfl⟩ := hb w hw
      rw [Sched.chan_swap (coll_paired G k), if_neg]
      rintro ⟨e, -⟩
      rw [ht'] at e
      simp [Group.coll, Group.tag] at e
    by_cases hc : ∃ t, c = G.tag t
    · obtain ⟨t, ht⟩ := hc
      rw [(hm b false a).1, (hm a true b).1, Sched.chan_append, Sched.chan_append, Sched.chan_append, Sched.chan_append,
        (hm b false a).2 t ht, (hm a true b).2 t ht, chan_recv h, chan_recv h, chan_send h, chan_send h]
      simp only [Bool.false_eq_true, Bool.true_eq_false, true_and, false_and, if_false]
      have hz : (parts.flatMap fun _ => ([] : List Label)) = [] := by simp
      rw [hz, List.append_nil, List.append_nil, List.nil_append]
      apply Sched.flatMap_congr'
      intro x hx
      have := (h x hx).agree a b
      by_cases e : G.tag x.tag = c
      · simp only [e, true_and]
        by_cases hx' : G.mem a = true ∧ b ∈ x.to_ a
        · rw [if_pos hx', if_pos (this.1 hx')]
        · rw [if_neg hx', if_neg fun y => hx' (this.2 y)]
      · simp [e]
    · have hn : ∀ t, c ≠ G.tag t := fun t ht => hc ⟨t, ht⟩
      refine ((hr c hn).append (hs _ (fun _ h => h) c)).append (fun a b => ?_) a b
      have : ∀ p t q, chan (opsOf [sendStage G s parts] p) t c q = [] := by
        intro p t q
        simp only [opsOf, List.flatMap_cons, List.flatMap_nil, List.append_nil]
        rw [chan_send h, List.flatMap_eq_nil_iff]
        intro x _
        rw [if_neg fun e => hn _ e.2.1.symm]
      rw [this, this]
  refine ⟨[recvStage G s parts] ++ between.map swapStage ++ [sendStage G s parts], fun p => ?_, ?_, hall⟩
  · rw [Sched.flat_append, Sched.flat_append, Sched.flat_swaps]
    unfold exchange
    by_cases hm : G.mem p = true
    · simp only [flat, List.flatMap_cons, List.flatMap_nil, List.append_nil, Stage.prog, recvStage, sendStage, hm, if_true,
        List.map_flatMap, Sched.messages_eq, Option.toList_none, Option.toList_some, List.map_nil, List.map_cons,
        List.append_assoc]
    · have : between.flatMap (·.prog p) = [] := by
        rw [List.flatMap_eq_nil_iff]
        intro w hw
        obtain ⟨k, rfl⟩ := hb w hw
        simp [Swap.prog, Group.coll, hm]
      rw [this]
      simp [flat, Stage.prog, recvStage, sendStage, hm]
  · intro A t B e p cs hw c hcs
    by_cases hB : B = []
    · subst hB
      rw [← e]
      exact hall c
    · obtain ⟨B', x, rfl⟩ := List.eq_nil_or_concat B |>.resolve_left hB
      have e' : [recvStage G s parts] ++ between.map swapStage = A ++ t :: B' := by
        have : ([recvStage G s parts] ++ between.map swapStage) ++ [sendStage G s parts] = (A ++ t :: B') ++ [x] := by
          rw [e]; simp
        exact (List.append_inj' this rfl).1
      cases A with
      | nil =>
        simp only [List.cons_append, List.nil_append, List.cons.injEq] at e'
        rw [← e'.1] at hw
        simp [recvStage] at hw
      | cons a A =>
        simp only [List.cons_append, List.nil_append, List.cons.injEq] at e'
        obtain ⟨rfl, e'⟩ := e'
        have ht : t ∈ between.map swapStage := by rw [e']; simp
        obtain ⟨w, hw', rfl⟩ := List.mem_map.1 ht
        obtain ⟨k, rfl⟩ := hb w hw'
        have hc : c = .all G.id := by
          unfold swapStage at hw
          dsimp only at hw
          split at hw
          · obtain rfl := Option.some.inj hw
            simpa [Group.coll] using hcs
          · cases hw
        have := (hr c (by rw [hc]; simp [Group.tag])).append (hs (A ++ [swapStage (G.coll k)]) (fun y hy => by
          rw [e']
          simp only [List.mem_append, List.mem_cons, List.not_mem_nil, or_false] at hy ⊢
          tauto) c)
        simpa using this
end

/-! ### Hashes -/

section
variable {G : Group n} {H : Hash n}

theorem Heard.ok {to_ from_ : Fin n → List (Fin n)} (h : Spec.Heard G to_ from_) (ho : ∀ p, (to_ p).Nodup)
    (hm : ∀ p, G.mem p = true → ∀ q ∈ to_ p, G.mem q = true) (t k : Nat) :
    Part.Ok G ⟨t, k, from_, to_⟩ ∧ Part.Ok G ⟨t, k, to_, from_⟩ := by
  have key : ∀ a b, (G.mem a = true ∧ b ∈ to_ a) ↔ (G.mem b = true ∧ a ∈ from_ b) := by
    intro a b
    constructor
    · rintro ⟨h1, h2⟩
      have := hm a h1 b h2
      exact ⟨this, ((h b this).2 a).2 ⟨h1, h2⟩⟩
    · rintro ⟨h1, h2⟩
      exact ((h b h1).2 a).1 h2
  exact ⟨⟨key, fun a _ => ho a, fun a ha => (h a ha).1⟩, ⟨fun a b => (key b a).symm, fun a ha => (h a ha).1, fun a _ => ho a⟩⟩

theorem mem_sendTo {p q : Fin n} : q ∈ H.sendTo p ↔ ∃ r ∈ H.sets p, q ∈ r := by
  unfold Hash.sendTo Hash.sets
  rw [Sched.mem_peers, List.mem_flatten]
  constructor
  · rintro ⟨r, hr, hq⟩
    exact ⟨peers r, List.mem_map.2 ⟨r, hr, rfl⟩, (Sched.mem_peers _ _).2 hq⟩
  · rintro ⟨r, hr, hq⟩
    obtain ⟨r', hr', rfl⟩ := List.mem_map.1 hr
    exact ⟨r', hr', (Sched.mem_peers _ _).1 hq⟩

def dealStage (G : Group n) (H : Hash n) (s : Nat) : Stage n where
  ops p := if G.mem p then
    ((H.recvFrom p).flatMap fun q => (H.indices q p).map fun i => ⟨G.tag 0, false, q, (s, (0, 0), i)⟩) ++
      (H.sets p).zipIdx.flatMap fun x => x.1.map fun q => ⟨G.tag 0, true, q, (s, (0, 0), x.2)⟩ else []
  wait p := if G.mem p then some [G.tag 0] else none

theorem chan_deal_recv {l : List (Fin n)} (hl : l.Nodup) (c : Comm) (f : Fin n → List Label) (t : Bool) (c' : Comm) (q : Fin n) :
    chan (l.flatMap fun q => (f q).map fun i => (⟨c, false, q, i⟩ : Op n)) t c' q =
      if t = false ∧ c = c' ∧ q ∈ l then f q else [] := by
  induction l with
  | nil => simp [chan]
  | cons y l ih =>
    obtain ⟨h1, h2⟩ := List.nodup_cons.1 hl
    rw [List.flatMap_cons, Sched.chan_append, ih h2]
    have hy : chan ((f y).map fun i => (⟨c, false, y, i⟩ : Op n)) t c' q = if t = false ∧ c = c' ∧ y = q then f y else [] := by
      unfold chan
      rw [List.filterMap_map]
      by_cases h : t = false ∧ c = c' ∧ y = q
      · rw [if_pos h]
        simp only [Function.comp_def, h, and_self, if_true]
        simp
      · rw [if_neg h]
        have : ¬ (false = t ∧ c = c' ∧ y = q) := fun e => h ⟨e.1.symm, e.2⟩
        simp only [Function.comp_def, this, if_false]
        simp
    rw [hy]
    by_cases hsc : t = false ∧ c = c'
    · by_cases hyq : y = q
      · subst hyq
        simp [hsc, h1]
      · simp [hsc, hyq, Ne.symm hyq]
    · have : ∀ P : Prop, ¬ (t = false ∧ c = c' ∧ P) := fun P h => hsc ⟨h.1, h.2.1⟩
      rw [if_neg (this _), if_neg (this _), if_neg (this _), List.append_nil]

theorem chan_deal_send (c : Comm) (s : Nat) (t : Bool) (c' : Comm) (q : Fin n) (l : List (List (Fin n) × Nat))
    (hl : ∀ x ∈ l, x.1.Nodup) :
    chan (l.flatMap fun x => x.1.map fun q => (⟨c, true, q, (s, (0, 0), x.2)⟩ : Op n)) t c' q =
      if t = true ∧ c = c' then ((l.filter fun x => x.1.contains q).map Prod.snd).map fun i => (s, (0, 0), i) else [] := by
  induction l with
  | nil => simp [chan]
  | cons x l ih =>
    rw [List.flatMap_cons, Sched.chan_append, ih fun y hy => hl y (by simp [hy])]
    have hx : chan (x.1.map fun q => (⟨c, true, q, (s, (0, 0), x.2)⟩ : Op n)) t c' q =
        if t = true ∧ c = c' ∧ q ∈ x.1 then [(s, (0, 0), x.2)] else [] := by
      unfold chan
      rw [List.filterMap_map]
      by_cases h : t = true ∧ c = c'
      · have := Sched.filterMap_peer x.1 (hl x (by simp)) q (s, (0, 0), x.2)
        simpa [Function.comp_def, h] using this
      · have h' : ∀ P : Prop, ¬ (true = t ∧ c = c' ∧ P) := fun P e => h ⟨e.1.symm, e.2.1⟩
        rw [if_neg fun e => h ⟨e.1, e.2.1⟩]
        simp only [Function.comp_def, h', if_false]
        simp
    rw [hx, List.filter_cons]
    by_cases h : t = true ∧ c = c'
    · by_cases hq : q ∈ x.1 <;> simp [h, hq]
    · have h' : ¬ (t = true ∧ c = c' ∧ q ∈ x.1) := fun e => h ⟨e.1, e.2.1⟩
      rw [if_neg h, if_neg h', if_neg h]
      rfl

theorem deal_staged (h : Spec.Sound G H) (s : Nat) : Staged fun p => H.deal G s p := by
  have e : (fun p => H.deal G s p) = (dealStage G H s).prog := by
    funext p
    unfold Hash.deal dealStage Stage.prog
    by_cases hm : G.mem p = true
    · simp [hm, List.map_flatMap, Function.comp_def]
    · simp [hm]
  rw [e]
  apply single_staged
  intro c a b
  have e1 : ∀ p, opsOf [dealStage G H s] p = (dealStage G H s).ops p := fun p => by simp [opsOf]
  have hn : ∀ p, ∀ x ∈ (H.sets p).zipIdx, x.1.Nodup := by
    intro p x hx
    have := List.fst_mem_of_mem_zipIdx hx
    obtain ⟨r, -, e⟩ := List.mem_map.1 this
    rw [← e]
    exact Sched.peers_nodup r
  have key : ∀ p q t, chan ((dealStage G H s).ops p) t c q = if G.tag 0 = c ∧ G.mem p = true then
      (if t = true then ((H.indices p q).map fun i => (s, (0, 0), i)) else
        if q ∈ H.recvFrom p then (H.indices q p).map fun i => (s, (0, 0), i) else []) else [] := by
    intro p q t
    unfold dealStage
    dsimp only
    by_cases hm : G.mem p = true
    · rw [if_pos hm, Sched.chan_append, chan_deal_send _ _ _ _ _ _ (hn p)]
      have := chan_deal_recv (h.recvFrom p hm).1 (G.tag 0) (fun q => (H.indices q p).map fun i => (s, (0, 0), i)) t c q
      simp only [List.map_map, Function.comp_def] at this ⊢
      rw [this]
      by_cases hc : G.tag 0 = c
      · cases t <;> simp [hc, hm, Hash.indices]
      · simp [hc]
    · simp [hm, chan]
  rw [e1, e1, key, key]
  by_cases hc : G.tag 0 = c
  · simp only [hc, true_and, Bool.false_eq_true, if_false, if_true]
    have hnil : ∀ x y, y ∉ H.sendTo x → H.indices x y = [] := by
      intro x y hy
      unfold Hash.indices
      rw [List.map_eq_nil_iff, List.filter_eq_nil_iff]
      intro z hz hc
      exact hy (mem_sendTo.2 ⟨z.1, List.fst_mem_of_mem_zipIdx hz, by simpa using hc⟩)
    by_cases hb : G.mem b = true
    · rw [if_pos hb]
      by_cases ha : a ∈ H.recvFrom b
      · rw [if_pos ha, if_pos (((h.recvFrom b hb).2 a).1 ha).1]
      · rw [if_neg ha]
        by_cases hma : G.mem a = true
        · rw [if_pos hma, hnil a b fun h' => ha (((h.recvFrom b hb).2 a).2 ⟨hma, h'⟩)]
          rfl
        · rw [if_neg hma]
    · rw [if_neg hb]
      by_cases hma : G.mem a = true
      · rw [if_pos hma, hnil a b fun h' => ?_]
        · rfl
        · have : (b : Int) ∈ (H.regions a).flatten := (Sched.mem_peers _ _).1 h'
          obtain ⟨r, hr, hbr⟩ := List.mem_flatten.1 this
          exact hb (h.regions a hma r hr b hbr)
      · rw [if_neg hma]
  · simp [hc]

theorem construct_staged (h : Spec.Sound G H) (s : Nat) : Staged fun p => H.construct G s p := by
  have ok := (Heard.ok h.recvFrom (fun p => Sched.peers_nodup _) (fun p hp q hq => by
    obtain ⟨r, hr, hbr⟩ := List.mem_flatten.1 ((Sched.mem_peers _ _).1 hq)
    exact h.regions p hp r hr q hbr) 0 1).1
  unfold Hash.construct
  refine (((((colls_staged G ?_).append (exchange_staged ?_ (by simp))).append (deal_staged h _)).append
    (coll_staged G _)).append (deal_staged h _)).append (deal_staged h _)
  · intro w hw
    simp only [List.mem_cons, List.not_mem_nil, or_false] at hw
    rcases hw with rfl | rfl | rfl <;> exact ⟨_, rfl⟩
  · intro x hx
    obtain rfl := List.mem_singleton.1 hx
    exact ok

theorem retrieve_staged (h : Spec.Sound G H) (s : Nat) : Staged fun p => H.retrieve G s p := by
  have ok := fun k => Heard.ok h.retrieving (fun p => Sched.peers_nodup _) (fun p hp q hq =>
    h.bins p hp q ((Sched.mem_peers _ _).1 hq)) 0 k
  have f : ∀ s, Staged fun p => exchange G s [⟨0, 1, H.retrieving, H.binRanks⟩] [] p := fun s =>
    exchange_staged (fun x hx => by obtain rfl := List.mem_singleton.1 hx; exact (ok 1).1) (by simp)
  have g : ∀ k s, Staged fun p => exchange G s [⟨0, k, H.binRanks, H.retrieving⟩] [] p := fun k s =>
    exchange_staged (fun x hx => by obtain rfl := List.mem_singleton.1 hx; exact (ok k).2) (by simp)
  unfold Hash.retrieve
  exact ((((((coll_staged G _).append (f _)).append (f _)).append (g _ _)).append (g _ _)).append (g _ _)).append (g _ _)
end

/-! ### Matching and distribution -/

theorem heard_asking (G : Group n) (to_ : Fin n → List (Fin n)) : Spec.Heard G to_ (asking G to_) := by
  intro p _
  refine ⟨((List.nodup_finRange n).filter _).filter _, fun q => ?_⟩
  simp [asking, Group.members, and_comm]

theorem parts_ok {G : Group n} {D R : Fin n → List (Fin n)} (h1 : ∀ p, (D p).Nodup) (h2 : ∀ p, (R p).Nodup)
    (h3 : ∀ p, G.mem p = true → ∀ q ∈ D p, G.mem q = true) (h4 : ∀ p, G.mem p = true → ∀ q ∈ R p, G.mem q = true)
    (k k' : Nat) (back : Bool) : ∀ x ∈ parts G D R k k' back, x.Ok G := by
  have a := Heard.ok (heard_asking G D) h1 h3 0 k
  have b := Heard.ok (heard_asking G R) h2 h4 1 k'
  intro x hx
  unfold parts at hx
  split at hx <;> simp only [List.mem_cons, List.not_mem_nil, or_false] at hx <;> rcases hx with rfl | rfl
  · exact a.2
  · exact b.2
  · exact a.1
  · exact b.1

variable {I : Import n}

theorem match_staged (I : Import n) : Staged fun p => I.match p := by
  have ok := parts_ok (G := (world : Group n)) (D := fun q => I.bins (I.donors q)) (R := fun q => I.bins (I.receivers q))
    (fun p => Sched.peers_nodup _) (fun p => Sched.peers_nodup _) (fun _ _ _ _ => rfl) (fun _ _ _ _ => rfl)
  unfold Import.match
  refine ((((colls_staged world ?_).append (exchange_staged (ok _ _ _) (by simp))).append
    (exchange_staged (ok _ _ _) (by simp))).append (colls_staged world ?_)).append (exchange_staged (ok _ _ _) ?_)
    |>.append (colls_staged world ?_)
  · intro w hw
    simp only [List.mem_append, List.mem_cons, List.not_mem_nil, or_false] at hw
    rcases hw with ((((rfl | rfl | rfl) | h) | h) | (rfl | rfl)) | h
    all_goals first | exact ⟨_, rfl⟩ | exact mem_sync h
  · intro w hw
    exact mem_sync hw
  · intro w hw
    rcases List.mem_append.1 hw with h | h <;> exact mem_sync h
  · intro w hw
    rcases List.mem_append.1 hw with h | h
    · exact mem_sync h
    · exact ⟨_, List.mem_singleton.1 h⟩

theorem grid_staged (h : Spec.Fit I) {g : Nat} (hg : g ∈ I.grids) : Staged fun p => I.distributeGrid g p := by
  have ok := parts_ok (G := I.group g) (D := fun q => peers (I.donorRanks g q)) (R := fun q => peers (I.receiverRanks g q))
    (fun p => Sched.peers_nodup _) (fun p => Sched.peers_nodup _)
    (fun p hp q hq => h.donors g hg p hp q ((Sched.mem_peers _ _).1 hq))
    (fun p hp q hq => h.receivers g hg p hp q ((Sched.mem_peers _ _).1 hq))
  have hs : Spec.Sound (I.group g) (I.hash g) := h.hash g hg
  unfold Import.distributeGrid
  refine (((((construct_staged hs 0).append (colls_staged (I.group g) ?_)).append (retrieve_staged hs 10)).append
    (colls_staged (I.group g) ?_)).append (exchange_staged (ok _ _ _) (by simp))).append (exchange_staged (ok _ _ _) (by simp))
  · intro w hw
    rcases List.mem_append.1 hw with h | h <;> exact mem_sync h
  · intro w hw
    simp only [List.mem_append, List.mem_cons, List.not_mem_nil, or_false] at hw
    rcases hw with ((h | h) | (rfl | rfl)) | h
    all_goals first | exact ⟨_, rfl⟩ | exact mem_sync h

/-- Processes that are not in a grid do nothing for it. -/
theorem grid_none {g : Nat} {p : Fin n} (h : I.loc g p = false) : I.distributeGrid g p = [] := by
  have hc : ∀ s, ((I.group g).coll s).prog p = [] := fun s => by simp [Swap.prog, Group.coll, Import.group, h]
  have hs : ∀ on s, ((I.group g).sync on s).flatMap (·.prog p) = [] := fun on s => by
    unfold Group.sync
    cases on <;> simp [hc]
  have hx : ∀ s x b, exchange (I.group g) s x b p = [] := fun s x b => by simp [exchange, Import.group, h]
  have hd : ∀ s, (I.hash g).deal (I.group g) s p = [] := fun s => by simp [Hash.deal, Import.group, h]
  unfold Import.distributeGrid Hash.construct Hash.retrieve
  simp [hc, hs, hx, hd]

theorem distribute_staged (h : Spec.Fit I) : Staged fun p => I.distribute p := by
  unfold Import.distribute
  refine ((coll_staged world _).append ?_).append (coll_staged world _)
  have e : (fun p => (I.grids.filter fun g => I.loc g p).flatMap fun g => I.distributeGrid g p) =
      fun p => I.grids.flatMap fun g => I.distributeGrid g p := by
    funext p
    rw [Sched.flatMap_filter_if]
    apply Sched.flatMap_congr'
    intro g _
    by_cases hl : I.loc g p = true
    · rw [if_pos hl]
    · rw [if_neg hl, grid_none (by simpa using hl)]
  rw [e]
  exact Sched.staged_flatMap fun g hg => grid_staged h hg

theorem safe_of_staged {f : Fin n → List (Cmd n)} (h : Staged f) : Sched.Spec.Safe f := by
  obtain ⟨S, h1, h2, h3⟩ := h
  have := Sched.safe_of_good h2 h3
  rwa [show flat S = f from funext h1] at this

/-- **C124.** A hash that is constructed on a communicator and from which bins are retrieved. -/
theorem C124_hash {G : Group n} {H : Hash n} (h : Spec.Sound G H) :
    Sched.Spec.Safe fun p => H.construct G 0 p ++ H.retrieve G 8 p :=
  safe_of_staged ((construct_staged h 0).append (retrieve_staged h 8))

/-- **C124.** Matching and distribution of XINTOUT data. -/
theorem C124_import (h : Spec.Fit I) : Sched.Spec.Safe I.prog := by
  apply safe_of_staged
  unfold Import.prog
  exact ((((colls_staged world fun w hw => mem_sync hw).append (match_staged I)).append
    (colls_staged world fun w hw => mem_sync hw)).append (distribute_staged h)).append
    (colls_staged world fun w hw => mem_sync hw)

/-! ### An example, and a wrong version -/

/-- A hash on three processes: two regions of process 0, one of process 1. -/
def exHash : Hash 3 where
  regions p := if p = 0 then [[0, 1], [1]] else if p = 1 then [[1]] else []
  recvFrom p := if p = 0 then [0] else if p = 1 then [0, 1] else []
  bins p := if p = 0 then [1] else if p = 1 then [0, 1] else [0]
  retrieving p := if p = 0 then [1, 2] else if p = 1 then [0, 1] else []

theorem exHash_sound (g : Option Nat) : Spec.Sound ⟨g, fun _ => true⟩ exHash := by
  refine ⟨fun _ _ _ _ _ _ => rfl, fun _ _ _ _ => rfl, fun p _ => ⟨?_, fun q => ?_⟩, fun p _ => ⟨?_, fun q => ?_⟩⟩
  · exact (by decide : ∀ p, (exHash.recvFrom p).Nodup) p
  · rw [Sched.mem_peers]
    exact (by decide : ∀ p q : Fin 3, q ∈ exHash.recvFrom p ↔ true = true ∧ (p : Int) ∈ (exHash.regions q).flatten) p q
  · exact (by decide : ∀ p, (exHash.retrieving p).Nodup) p
  · rw [Sched.mem_peers]
    exact (by decide : ∀ p q : Fin 3, q ∈ exHash.retrieving p ↔ true = true ∧ (p : Int) ∈ exHash.bins q) p q

/-- Two grids with that hash; processes read donors and receivers with other connection IDs than those of their bins. -/
def exImport : Import 3 where
  sync := true
  binSize := 2
  donors p := if p = 0 then [4, 0] else if p = 1 then [1, 2] else []
  receivers p := if p = 2 then [0, 1, 2] else if p = 1 then [4] else []
  grids := [1, 2]
  loc _ _ := true
  hash _ := exHash
  donorRanks _ p := if p = 2 then [0, 1] else [2]
  receiverRanks _ p := if p = 0 then [1, 1, 2] else []

example : Spec.Fit exImport := ⟨fun _ _ => exHash_sound _, fun _ _ _ _ _ _ => rfl, fun _ _ _ _ _ _ => rfl⟩

/-- Process 0 sends donors to processes 0 and 2, process 1 gets two regions of process 0. -/
example : (2 : Fin 3) ∈ exImport.bins (exImport.donors 0) ∧ (0 : Fin 3) ∈ exImport.bins (exImport.donors 0) ∧
    (1 : Fin 3) ∉ exImport.bins (exImport.donors 0) ∧ (1 : Fin 3) ∈ exHash.sendTo 0 := by
  refine ⟨(Sched.mem_peers _ _).2 ?_, (Sched.mem_peers _ _).2 ?_, fun h => absurd ((Sched.mem_peers _ _).1 h) ?_,
    (Sched.mem_peers _ _).2 ?_⟩ <;> decide +kernel

example : exHash.indices 0 1 = [0, 1] := by
  have h : ∀ l : List Int, ∀ q : Fin 3, (peers l).contains q = decide ((q : Int) ∈ l) := fun l q => by
    rw [Bool.eq_iff_iff, List.contains_iff_mem, Sched.mem_peers, decide_eq_true_iff]
  simp only [Hash.indices, Hash.sets, exHash, if_true, List.map_cons, List.map_nil, List.zipIdx_cons, List.zipIdx_nil,
    List.filter_cons, h, List.filter_nil]
  decide

/-- **C124.** If processes distributed the data of their grids in different orders, none would go on. -/
theorem C124_order : ¬ Sched.Spec.Safe fun p : Fin 2 =>
    let I : Import 2 := ⟨false, 1, fun _ => [], fun _ => [], [1, 2], fun _ _ => true,
      fun _ => ⟨fun _ => [], fun _ => [], fun _ => [], fun _ => []⟩, fun _ _ => [], fun _ _ => []⟩
    (if p = 0 then [1, 2] else [2, 1]).flatMap fun g => I.distributeGrid g p := by
  intro h
  obtain ⟨p, y, hp⟩ := h.progress ((List.replicate 4 [0, 1]).flatten) (fun _ => 4) (by decide +kernel) ⟨0, by decide +kernel⟩
  revert hp
  have : ∀ f : Fin 2 → List (Cmd 2), (∀ p, Sched.step f (fun _ => 4) p = none) →
    Sched.step f (fun _ => 4) p = some y → False := fun f h e => by rw [h] at e; cases e
  exact this _ (by decide +kernel)

end Ovk.ImpComm
