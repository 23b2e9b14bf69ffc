/-
What holds in every state of halo exchanges (Model/HaloPool.lean), and that every step keeps it.
-/
import Verif.Model.HaloPool
import Mathlib.Tactic.Push
import Mathlib.Data.List.Basic

namespace Ovk.HaloPool

/-- The maps of all processes fit together: neighbours know each other, what one sends the other has room for, and
no point is received twice from the same neighbour. -/
structure Fit (maps : Nat → HaloMap) : Prop where
  sym : ∀ p q : Nat, q ∈ (maps p).nbrs → p ∈ (maps q).nbrs
  len : ∀ p q : Nat, q ∈ (maps p).nbrs → ((maps q).send p).length = ((maps p).recv q).length
  nodup : ∀ p q : Nat, q ∈ (maps p).nbrs → ((maps p).recv q).Nodup

/-- `D q p` messages from `q` to `p` have arrived, `h p k` are the values `p` had when it started exchange `k`. -/
structure Inv (maps : Nat → HaloMap) (ty : Nat → Ty) (prog : Nat → Nat) (h : Nat → Nat → Nat → Value)
    (D : Nat → Nat → Nat) (R : Nat → List (Option Req)) (E : Nat → Ref → Option Exch) (C : Nat → Nat → List Msg)
    (P : Nat → Nat → List Ref) : Prop where
  out : ∀ (p k : Nat) (req : Req), (R p)[k]? = some (some req) →
    req.field = prog k ∧ req.ref.ty = ty (prog k) ∧ ∃ e, E p req.ref = some e ∧ e.active = true ∧
      ∀ q ∈ (maps p).nbrs,
        (e.recvDone q = true ↔ k < D q p) ∧
        (e.recvDone q = true → e.recvBuf q = pack ((maps q).send p) (h q k)) ∧
        (e.unpacked q = true → e.recvDone q = true) ∧
        e.sendBuf q = pack ((maps p).send q) (h p k) ∧
        (e.sendDone q = false → ∃ i, D p q + i = k ∧ (C p q)[i]? = some ⟨req.ref, none⟩)
  inj : ∀ (p k k' : Nat) (a b : Req), (R p)[k]? = some (some a) → (R p)[k']? = some (some b) → a.ref = b.ref → k = k'
  chanLen : ∀ q p : Nat, p ∈ (maps q).nbrs → (C q p).length + D q p = (R q).length
  postLen : ∀ p q : Nat, q ∈ (maps p).nbrs → (P p q).length + D q p = (R p).length
  chanNil : ∀ q p : Nat, p ∉ (maps q).nbrs → C q p = []
  postNil : ∀ p q : Nat, q ∉ (maps p).nbrs → P p q = []
  chanData : ∀ (q p i : Nat) (r : Ref) (d : List Nat), (C q p)[i]? = some ⟨r, some d⟩ →
    d = pack ((maps q).send p) (h q (D q p + i))
  chanNone : ∀ (q p i : Nat) (r : Ref), (C q p)[i]? = some ⟨r, none⟩ →
    ∃ req, (R q)[D q p + i]? = some (some req) ∧ req.ref = r ∧ ∃ e, E q r = some e ∧ e.sendDone p = false
  post : ∀ (p q i : Nat) (r : Ref), (P p q)[i]? = some r →
    ∃ req, (R p)[D q p + i]? = some (some req) ∧ req.ref = r
  act : ∀ (p : Nat) (r : Ref) (e : Exch), E p r = some e → e.active = true →
    ∃ (k : Nat) (req : Req), (R p)[k]? = some (some req) ∧ req.ref = r

variable {maps : Nat → HaloMap} {ty : Nat → Ty} {prog : Nat → Nat} {h : Nat → Nat → Nat → Value}
  {D : Nat → Nat → Nat} {R : Nat → List (Option Req)} {E : Nat → Ref → Option Exch} {C : Nat → Nat → List Msg}
  {P : Nat → Nat → List Ref}

theorem Inv.init : Inv maps ty prog h (fun _ _ => 0) (fun _ => []) (fun _ _ => none) (fun _ _ => []) (fun _ _ => []) := by
  constructor <;> simp

/-- Two functions with two arguments that differ in one place. -/
def upd2 {α : Type} (f : Nat → Nat → α) (a b : Nat) (x : α) : Nat → Nat → α :=
  Function.update f a (Function.update (f a) b x)

theorem upd2_apply {α : Type} (f : Nat → Nat → α) (a b : Nat) (x : α) (a' b' : Nat) :
    upd2 f a b x a' b' = if a' = a ∧ b' = b then x else f a' b' := by
  unfold upd2
  by_cases ha : a' = a
  · subst ha
    by_cases hb : b' = b
    · subst hb; simp
    · simp [hb]
  · simp [ha]

/-- One exchanger of one process changes. -/
def updE (E : Nat → Ref → Option Exch) (p : Nat) (r : Ref) (e : Exch) : Nat → Ref → Option Exch :=
  Function.update E p (Function.update (E p) r (some e))

theorem updE_apply (E : Nat → Ref → Option Exch) (p : Nat) (r : Ref) (e : Exch) (p' : Nat) (r' : Ref) :
    updE E p r e p' r' = if p' = p ∧ r' = r then some e else E p' r' := by
  unfold updE
  by_cases ha : p' = p
  · subst ha
    by_cases hb : r' = r
    · subst hb; simp
    · simp [hb]
  · simp [ha]

theorem updE_pos (E : Nat → Ref → Option Exch) (p : Nat) (r : Ref) (e : Exch) (r' : Ref) (hr : r' = r) :
    updE E p r e p r' = some e := by
  rw [updE_apply, if_pos ⟨rfl, hr⟩]

theorem Inv.lt (I : Inv maps ty prog h D R E C P) {q p i : Nat} {m : Msg} (hm : (C q p)[i]? = some m) :
    p ∈ (maps q).nbrs ∧ D q p + i < (R q).length := by
  have hp : p ∈ (maps q).nbrs := by
    by_contra hp
    rw [I.chanNil q p hp] at hm
    simp at hm
  have h1 := I.chanLen q p hp
  have h2 : i < (C q p).length := by
    by_contra h3
    rw [List.getElem?_eq_none (by omega)] at hm
    simp at hm
  exact ⟨hp, by omega⟩

/-- One step only of a receive that was seen. -/
theorem Inv.unpack (I : Inv maps ty prog h D R E C P) {p k q : Nat} {req : Req} {e : Exch}
    (hk : (R p)[k]? = some (some req)) (he : E p req.ref = some e) (hd : e.recvDone q = true) :
    Inv maps ty prog h D R (updE E p req.ref { e with unpacked := Function.update e.unpacked q true }) C P := by
  refine { I with out := ?_, chanNone := ?_, act := ?_ }
  · intro p' k' req' hk'
    obtain ⟨h1, h2, e', he', ha, hq⟩ := I.out p' k' req' hk'
    refine ⟨h1, h2, ?_⟩
    by_cases hp : p' = p ∧ req'.ref = req.ref
    · obtain ⟨rfl, hr⟩ := hp
      rw [hr, he] at he'
      cases he'
      refine ⟨_, updE_pos E _ _ _ _ hr, ha, ?_⟩
      intro q' hq'
      obtain ⟨a1, a2, a3, a4, a5⟩ := hq q' hq'
      refine ⟨a1, a2, ?_, a4, a5⟩
      intro hu
      dsimp only at hu ⊢
      rw [Function.update_apply] at hu
      split at hu
      · rename_i hqq; rw [hqq]; exact hd
      · exact a3 hu
    · exact ⟨e', by rw [updE_apply, if_neg hp]; exact he', ha, hq⟩
  · intro q' p' i r hi
    obtain ⟨req', h1, h2, e', he', hs⟩ := I.chanNone q' p' i r hi
    refine ⟨req', h1, h2, ?_⟩
    by_cases hp : q' = p ∧ r = req.ref
    · obtain ⟨rfl, rfl⟩ := hp
      rw [he] at he'
      cases he'
      exact ⟨_, updE_pos E _ _ _ _ rfl, hs⟩
    · exact ⟨e', by rw [updE_apply, if_neg hp]; exact he', hs⟩
  · intro p' r e' he' ha
    rw [updE_apply] at he'
    split at he'
    · rename_i hp
      obtain ⟨rfl, rfl⟩ := hp
      exact ⟨k, req, hk, rfl⟩
    · exact I.act p' r e' he' ha

theorem Inv.finish (I : Inv maps ty prog h D R E C P) {p k : Nat} {req : Req} {e : Exch}
    (hk : (R p)[k]? = some (some req)) (he : E p req.ref = some e)
    (hd : ∀ q ∈ (maps p).nbrs, e.sendDone q = true ∧ e.unpacked q = true) :
    Inv maps ty prog h D (Function.update R p ((R p).set k none)) (updE E p req.ref { e with active := false }) C P := by
  -- what is outstanding afterwards was so before, and has another exchanger
  have hR : ∀ (p' k' : Nat) (req' : Req), (Function.update R p ((R p).set k none) p')[k']? = some (some req') →
      (R p')[k']? = some (some req') ∧ ¬ (p' = p ∧ req'.ref = req.ref) := by
    intro p' k' req' hk'
    by_cases hp : p' = p
    · subst hp
      rw [Function.update_self, List.getElem?_set] at hk'
      split at hk'
      · split at hk' <;> simp at hk'
      · rename_i hne
        exact ⟨hk', fun hc => hne (I.inj p' k k' req req' hk hk' hc.2.symm)⟩
    · rw [Function.update_of_ne hp] at hk'
      exact ⟨hk', fun hc => hp hc.1⟩
  have hR' : ∀ (p' k' : Nat) (req' : Req), (R p')[k']? = some (some req') → ¬ (p' = p ∧ k' = k) →
      (Function.update R p ((R p).set k none) p')[k']? = some (some req') := by
    intro p' k' req' hk' hne
    by_cases hp : p' = p
    · subst hp
      rw [Function.update_self, List.getElem?_set, if_neg (fun hc => hne ⟨rfl, hc.symm⟩)]
      exact hk'
    · rw [Function.update_of_ne hp]; exact hk'
  have hL : ∀ p', (Function.update R p ((R p).set k none) p').length = (R p').length := by
    intro p'
    by_cases hp : p' = p
    · subst hp; simp
    · rw [Function.update_of_ne hp]
  refine { out := ?_, inj := ?_, chanLen := ?_, postLen := ?_, chanNil := I.chanNil, postNil := I.postNil,
           chanData := I.chanData, chanNone := ?_, post := ?_, act := ?_ }
  · intro p' k' req' hk'
    obtain ⟨hk0, hne⟩ := hR p' k' req' hk'
    obtain ⟨h1, h2, e', he', ha, hq⟩ := I.out p' k' req' hk0
    exact ⟨h1, h2, e', by rw [updE_apply, if_neg hne]; exact he', ha, hq⟩
  · intro p' k1 k2 a b h1 h2
    exact I.inj p' k1 k2 a b (hR p' k1 a h1).1 (hR p' k2 b h2).1
  · intro q' p' hp; rw [hL]; exact I.chanLen q' p' hp
  · intro q' p' hp; rw [hL]; exact I.postLen q' p' hp
  · intro q' p' i r hi
    obtain ⟨req', h1, h2, e', he', hs⟩ := I.chanNone q' p' i r hi
    have hnb := (I.lt hi).1
    have hne : ¬ (q' = p ∧ r = req.ref) := by
      rintro ⟨rfl, rfl⟩
      rw [he] at he'
      cases he'
      rw [(hd p' hnb).1] at hs
      exact absurd hs (by simp)
    refine ⟨req', ?_, h2, e', by rw [updE_apply, if_neg hne]; exact he', hs⟩
    apply hR' _ _ _ h1
    rintro ⟨rfl, hkk⟩
    rw [hkk, hk] at h1
    cases h1
    exact hne ⟨rfl, h2.symm⟩
  · intro p' q' i r hi
    obtain ⟨req', h1, h2⟩ := I.post p' q' i r hi
    refine ⟨req', ?_, h2⟩
    apply hR' _ _ _ h1
    rintro ⟨rfl, hkk⟩
    have hnb : q' ∈ (maps p').nbrs := by
      by_contra hc
      rw [I.postNil p' q' hc] at hi
      simp at hi
    obtain ⟨_, _, e', he', _, hq⟩ := I.out p' k req hk
    rw [he] at he'
    cases he'
    obtain ⟨a1, _, a3, _⟩ := hq q' hnb
    have := a1.1 (a3 (hd q' hnb).2)
    omega
  · intro p' r e' he' ha
    rw [updE_apply] at he'
    split at he'
    · cases he'
      simp at ha
    · rename_i hne
      obtain ⟨k', req', h1, h2⟩ := I.act p' r e' he' ha
      refine ⟨k', req', hR' _ _ _ h1 ?_, h2⟩
      rintro ⟨rfl, rfl⟩
      rw [hk] at h1
      cases h1
      exact hne ⟨rfl, h2.symm⟩

theorem Inv.buffer (I : Inv maps ty prog h D R E C P) {q p i : Nat} {r : Ref} {e : Exch}
    (hm : (C q p)[i]? = some ⟨r, none⟩) (he : E q r = some e) :
    Inv maps ty prog h D R (updE E q r { e with sendDone := Function.update e.sendDone p true })
      (upd2 C q p ((C q p).set i ⟨r, some (e.sendBuf p)⟩)) P := by
  obtain ⟨hnb, _⟩ := I.lt hm
  obtain ⟨req, hk, hr, _⟩ := I.chanNone q p i r hm
  have hC : ∀ (q' p' i' : Nat), upd2 C q p ((C q p).set i ⟨r, some (e.sendBuf p)⟩) q' p' =
      if q' = q ∧ p' = p then (C q p).set i ⟨r, some (e.sendBuf p)⟩ else C q' p' := by
    intro q' p' _; rw [upd2_apply]
  have hlen : i < (C q p).length := by
    by_contra hc
    rw [List.getElem?_eq_none (by omega)] at hm
    simp at hm
  -- a message that is not yet copied is one that was not before
  have hN : ∀ (q' p' i' : Nat) (r' : Ref), (upd2 C q p ((C q p).set i ⟨r, some (e.sendBuf p)⟩) q' p')[i']? =
      some ⟨r', none⟩ → (C q' p')[i']? = some ⟨r', none⟩ ∧ ¬ (q' = q ∧ p' = p ∧ i' = i) := by
    intro q' p' i' r' hi
    rw [hC q' p' i'] at hi
    split at hi
    · rename_i hqp
      obtain ⟨rfl, rfl⟩ := hqp
      rw [List.getElem?_set] at hi
      split at hi
      · simp at hi
      · rename_i hne
        exact ⟨hi, fun hc => hne hc.2.2.symm⟩
    · rename_i hqp
      exact ⟨hi, fun hc => hqp ⟨hc.1, hc.2.1⟩⟩
  refine { out := ?_, inj := I.inj, chanLen := ?_, postLen := I.postLen, chanNil := ?_, postNil := I.postNil,
           chanData := ?_, chanNone := ?_, post := I.post, act := ?_ }
  · intro p' k' req' hk'
    obtain ⟨h1, h2, e', he', ha, hq⟩ := I.out p' k' req' hk'
    refine ⟨h1, h2, ?_⟩
    by_cases hp : p' = q ∧ req'.ref = r
    · obtain ⟨rfl, hr'⟩ := hp
      rw [hr', he] at he'
      cases he'
      refine ⟨_, updE_pos E _ _ _ _ hr', ha, ?_⟩
      intro q' hq'
      obtain ⟨a1, a2, a3, a4, a5⟩ := hq q' hq'
      refine ⟨a1, a2, a3, a4, ?_⟩
      intro hs
      dsimp only at hs
      rw [Function.update_apply] at hs
      split at hs
      · simp at hs
      · rename_i hne
        obtain ⟨i', h3, h4⟩ := a5 hs
        exact ⟨i', h3, by rw [hC p' q' i', if_neg (fun hc => hne hc.2)]; exact h4⟩
    · refine ⟨e', by rw [updE_apply, if_neg hp]; exact he', ha, ?_⟩
      intro q' hq'
      obtain ⟨a1, a2, a3, a4, a5⟩ := hq q' hq'
      refine ⟨a1, a2, a3, a4, ?_⟩
      intro hs
      obtain ⟨i', h3, h4⟩ := a5 hs
      refine ⟨i', h3, ?_⟩
      rw [hC p' q' i']
      split
      · rename_i hqp
        obtain ⟨rfl, rfl⟩ := hqp
        rw [List.getElem?_set]
        split
        · rename_i hii
          subst hii
          rw [hm] at h4
          simp only [Option.some.injEq, Msg.mk.injEq] at h4
          exact absurd ⟨rfl, h4.1.symm⟩ hp
        · exact h4
      · exact h4
  · intro q' p' hp
    rw [hC q' p' 0]
    split
    · rename_i hqp
      obtain ⟨rfl, rfl⟩ := hqp
      rw [List.length_set]
      exact I.chanLen q' p' hp
    · exact I.chanLen q' p' hp
  · intro q' p' hp
    rw [hC q' p' 0, if_neg]
    · exact I.chanNil q' p' hp
    · rintro ⟨rfl, rfl⟩
      exact hp hnb
  · intro q' p' i' r' d hi
    rw [hC q' p' i'] at hi
    split at hi
    · rename_i hqp
      obtain ⟨rfl, rfl⟩ := hqp
      rw [List.getElem?_set] at hi
      split at hi
      · rename_i hii
        subst hii
        simp only [Option.some.injEq, Msg.mk.injEq] at hi
        rw [← hi.2]
        obtain ⟨_, _, e', he', _, hq⟩ := I.out q' _ req hk
        rw [hr, he] at he'
        cases he'
        exact (hq p' hnb).2.2.2.1
      · exact I.chanData q' p' i' r' d hi
    · exact I.chanData q' p' i' r' d hi
  · intro q' p' i' r' hi
    obtain ⟨hi0, hne⟩ := hN q' p' i' r' hi
    obtain ⟨req', h1, h2, e', he', hs⟩ := I.chanNone q' p' i' r' hi0
    refine ⟨req', h1, h2, ?_⟩
    by_cases hp : q' = q ∧ r' = r
    · obtain ⟨rfl, rfl⟩ := hp
      rw [he] at he'
      cases he'
      refine ⟨_, updE_pos E _ _ _ _ rfl, ?_⟩
      dsimp only
      rw [Function.update_apply, if_neg]
      · exact hs
      · rintro rfl
        have := I.inj q' _ _ req req' hk h1 (hr.trans h2.symm)
        exact hne ⟨rfl, rfl, by omega⟩
    · exact ⟨e', by rw [updE_apply, if_neg hp]; exact he', hs⟩
  · intro p' r' e' he' ha
    rw [updE_apply] at he'
    split at he'
    · rename_i hp
      obtain ⟨rfl, rfl⟩ := hp
      exact ⟨_, req, hk, hr⟩
    · exact I.act p' r' e' he' ha

theorem Inv.deliver (I : Inv maps ty prog h D R E C P) {q p : Nat} {r0 r : Ref} {d : List Nat} {ms : List Msg}
    {rs : List Ref} {e : Exch} (hc : C q p = ⟨r0, some d⟩ :: ms) (hP : P p q = r :: rs) (he : E p r = some e) :
    Inv maps ty prog h (upd2 D q p (D q p + 1)) R
      (updE E p r { e with recvBuf := Function.update e.recvBuf q d, recvDone := Function.update e.recvDone q true })
      (upd2 C q p ms) (upd2 P p q rs) := by
  obtain ⟨hnb, _⟩ := I.lt (q := q) (p := p) (i := 0) (m := ⟨r0, some d⟩) (by rw [hc]; rfl)
  have hnb' : q ∈ (maps p).nbrs := by
    by_contra hx
    rw [I.postNil p q hx] at hP
    simp at hP
  obtain ⟨req, hk, hr⟩ := I.post p q 0 r (by rw [hP]; rfl)
  rw [Nat.add_zero] at hk
  have hd := I.chanData q p 0 r0 d (by rw [hc]; rfl)
  rw [Nat.add_zero] at hd
  -- what is still on its way was so before
  have hM : ∀ (q' p' i' : Nat) (m : Msg), (upd2 C q p ms q' p')[i']? = some m →
      ∃ j, (C q' p')[j]? = some m ∧ D q' p' + j = upd2 D q p (D q p + 1) q' p' + i' := by
    intro q' p' i' m hi
    rw [upd2_apply] at hi ⊢
    split at hi
    · rename_i hqp
      obtain ⟨rfl, rfl⟩ := hqp
      refine ⟨i' + 1, by rw [hc, List.getElem?_cons_succ]; exact hi, ?_⟩
      rw [if_pos ⟨rfl, rfl⟩]; omega
    · rename_i hqp
      refine ⟨i', hi, ?_⟩
      rw [if_neg hqp]
  refine { out := ?_, inj := I.inj, chanLen := ?_, postLen := ?_, chanNil := ?_, postNil := ?_,
           chanData := ?_, chanNone := ?_, post := ?_, act := ?_ }
  · intro p' k' req' hk'
    obtain ⟨h1, h2, e', he', ha, hq⟩ := I.out p' k' req' hk'
    refine ⟨h1, h2, ?_⟩
    -- sends that are not complete are still on their way
    have hS : ∀ q' : Nat, (∃ i, D p' q' + i = k' ∧ (C p' q')[i]? = some ⟨req'.ref, none⟩) →
        ∃ i, upd2 D q p (D q p + 1) p' q' + i = k' ∧ (upd2 C q p ms p' q')[i]? = some ⟨req'.ref, none⟩ := by
      rintro q' ⟨i, h3, h4⟩
      rw [upd2_apply, upd2_apply]
      by_cases hqp : p' = q ∧ q' = p
      · obtain ⟨rfl, rfl⟩ := hqp
        rw [if_pos ⟨rfl, rfl⟩, if_pos ⟨rfl, rfl⟩]
        rw [hc] at h4
        cases i with
        | zero => simp at h4
        | succ i => exact ⟨i, by omega, by simpa using h4⟩
      · rw [if_neg hqp, if_neg hqp]
        exact ⟨i, h3, h4⟩
    by_cases hp : p' = p ∧ req'.ref = r
    · obtain ⟨rfl, hr'⟩ := hp
      rw [hr', he] at he'
      cases he'
      have hkk : k' = D q p' := I.inj p' _ _ req' req hk' hk (hr'.trans hr.symm)
      refine ⟨_, updE_pos E _ _ _ _ hr', ha, ?_⟩
      intro q' hq'
      obtain ⟨a1, a2, a3, a4, a5⟩ := hq q' hq'
      refine ⟨?_, ?_, ?_, a4, fun hs => hS q' (a5 hs)⟩
      · dsimp only
        rw [Function.update_apply, upd2_apply]
        by_cases hqq : q' = q
        · subst hqq
          simp only [and_self, if_true, true_iff]
          omega
        · rw [if_neg hqq, if_neg (fun hx => hqq hx.1)]
          exact a1
      · dsimp only
        rw [Function.update_apply, Function.update_apply]
        by_cases hqq : q' = q
        · subst hqq
          intro _
          rw [if_pos rfl, hkk]
          exact hd
        · rw [if_neg hqq, if_neg hqq]
          exact a2
      · dsimp only
        rw [Function.update_apply]
        by_cases hqq : q' = q
        · rw [if_pos hqq]; exact fun _ => rfl
        · rw [if_neg hqq]; exact a3
    · refine ⟨e', by rw [updE_apply, if_neg hp]; exact he', ha, ?_⟩
      intro q' hq'
      obtain ⟨a1, a2, a3, a4, a5⟩ := hq q' hq'
      refine ⟨?_, a2, a3, a4, fun hs => hS q' (a5 hs)⟩
      rw [upd2_apply]
      split
      · rename_i hqp
        obtain ⟨rfl, rfl⟩ := hqp
        have : k' ≠ D q' p' := by
          rintro rfl
          rw [hk] at hk'
          cases hk'
          exact hp ⟨rfl, hr⟩
        rw [a1]; omega
      · exact a1
  · intro q' p' hp
    have := I.chanLen q' p' hp
    rw [upd2_apply, upd2_apply]
    split
    · rename_i hqp
      obtain ⟨rfl, rfl⟩ := hqp
      rw [hc, List.length_cons] at this
      omega
    · exact this
  · intro p' q' hp
    have := I.postLen p' q' hp
    rw [upd2_apply, upd2_apply]
    by_cases hqp : p' = p ∧ q' = q
    · obtain ⟨rfl, rfl⟩ := hqp
      rw [hP, List.length_cons] at this
      simp only [and_self, if_true]
      omega
    · rw [if_neg hqp, if_neg (fun hx => hqp ⟨hx.2, hx.1⟩)]
      exact this
  · intro q' p' hp
    rw [upd2_apply, if_neg]
    · exact I.chanNil q' p' hp
    · rintro ⟨rfl, rfl⟩; exact hp hnb
  · intro p' q' hp
    rw [upd2_apply, if_neg]
    · exact I.postNil p' q' hp
    · rintro ⟨rfl, rfl⟩; exact hp hnb'
  · intro q' p' i' r' d' hi
    obtain ⟨j, h1, h2⟩ := hM q' p' i' _ hi
    rw [← h2]
    exact I.chanData q' p' j r' d' h1
  · intro q' p' i' r' hi
    obtain ⟨j, h1, h2⟩ := hM q' p' i' _ hi
    obtain ⟨req', h3, h4, e', he', hs⟩ := I.chanNone q' p' j r' h1
    rw [h2] at h3
    refine ⟨req', h3, h4, ?_⟩
    by_cases hp : q' = p ∧ r' = r
    · obtain ⟨rfl, rfl⟩ := hp
      rw [he] at he'
      cases he'
      exact ⟨_, updE_pos E _ _ _ _ rfl, hs⟩
    · exact ⟨e', by rw [updE_apply, if_neg hp]; exact he', hs⟩
  · intro p' q' i' r' hi
    rw [upd2_apply] at hi
    rw [upd2_apply]
    by_cases hqp : p' = p ∧ q' = q
    · obtain ⟨rfl, rfl⟩ := hqp
      rw [if_pos ⟨rfl, rfl⟩] at hi
      rw [if_pos ⟨rfl, rfl⟩]
      obtain ⟨req', h1, h2⟩ := I.post p' q' (i' + 1) r' (by rw [hP, List.getElem?_cons_succ]; exact hi)
      refine ⟨req', ?_, h2⟩
      rw [← h1]; congr 1; omega
    · rw [if_neg hqp] at hi
      rw [if_neg (fun hx => hqp ⟨hx.2, hx.1⟩)]
      exact I.post p' q' i' r' hi
  · intro p' r' e' he' ha
    rw [updE_apply] at he'
    split at he'
    · rename_i hp
      obtain ⟨rfl, rfl⟩ := hp
      exact ⟨_, req, hk, hr⟩
    · exact I.act p' r' e' he' ha

theorem getElem?_snoc {α : Type} (l : List α) (x : α) (i : Nat) :
    (l ++ [x])[i]? = if i = l.length then some x else l[i]? := by
  split
  · rename_i hi; subst hi; simp
  · rename_i hi
    by_cases hl : i < l.length
    · rw [List.getElem?_append_left hl]
    · rw [List.getElem?_eq_none (by simp; omega), List.getElem?_eq_none (by omega)]

theorem Inv.start (F : Fit maps) (I : Inv maps ty prog h D R E C P) {p : Nat} {r : Ref} {e : Exch} (v : Nat → Value)
    (hf : ∀ e0, E p r = some e0 → e0.active = false) (hty : r.ty = ty (prog (R p).length))
    (ha : e.active = true) (hs : ∀ q, e.sendDone q = false) (hrd : ∀ q, e.recvDone q = false)
    (hu : ∀ q, e.unpacked q = false) (hb : ∀ q, e.sendBuf q = pack ((maps p).send q) v) :
    Inv maps ty prog (upd2 h p (R p).length v) D
      (Function.update R p (R p ++ [some ⟨r, prog (R p).length⟩])) (updE E p r e)
      (Function.update C p fun q => if q ∈ (maps p).nbrs then C p q ++ [⟨r, none⟩] else C p q)
      (Function.update P p fun q => if q ∈ (maps p).nbrs then P p q ++ [r] else P p q) := by
  -- the exchanger belongs to nobody
  have hfree : ∀ (k : Nat) (req : Req), (R p)[k]? = some (some req) → req.ref ≠ r := by
    rintro k req hk rfl
    obtain ⟨_, _, e', he', ha', _⟩ := I.out p k req hk
    rw [hf e' he'] at ha'
    simp at ha'
  have hR : ∀ (p' k' : Nat) (req' : Req),
      (Function.update R p (R p ++ [some ⟨r, prog (R p).length⟩]) p')[k']? = some (some req') →
      ((R p')[k']? = some (some req') ∧ ¬ (p' = p ∧ req'.ref = r) ∧ ¬ (p' = p ∧ k' = (R p).length)) ∨
      (p' = p ∧ k' = (R p).length ∧ req' = ⟨r, prog (R p).length⟩) := by
    intro p' k' req' hk'
    by_cases hp : p' = p
    · subst hp
      rw [Function.update_self, getElem?_snoc] at hk'
      split at hk'
      · rename_i hkk
        simp only [Option.some.injEq] at hk'
        exact Or.inr ⟨rfl, hkk, hk'.symm⟩
      · rename_i hkk
        exact Or.inl ⟨hk', fun hx => hfree k' req' hk' hx.2, fun hx => hkk hx.2⟩
    · rw [Function.update_of_ne hp] at hk'
      exact Or.inl ⟨hk', fun hx => hp hx.1, fun hx => hp hx.1⟩
  have hlt : ∀ (p' k' : Nat) (x : Option Req), (R p')[k']? = some x → k' < (R p').length := by
    intro p' k' x hx
    by_contra hc
    rw [List.getElem?_eq_none (by omega)] at hx
    simp at hx
  have hR' : ∀ (p' k' : Nat) (req' : Req), (R p')[k']? = some (some req') →
      (Function.update R p (R p ++ [some ⟨r, prog (R p).length⟩]) p')[k']? = some (some req') := by
    intro p' k' req' hk'
    by_cases hp : p' = p
    · subst hp
      rw [Function.update_self, getElem?_snoc, if_neg (Nat.ne_of_lt (hlt _ _ _ hk'))]
      exact hk'
    · rw [Function.update_of_ne hp]; exact hk'
  have hH : ∀ (q' k' : Nat), k' < (R q').length → upd2 h p (R p).length v q' k' = h q' k' := by
    intro q' k' hk
    rw [upd2_apply, if_neg]
    rintro ⟨rfl, rfl⟩
    omega
  have hC : ∀ (q' p' : Nat), (Function.update C p fun q => if q ∈ (maps p).nbrs then C p q ++ [⟨r, none⟩] else C p q)
      q' p' = if q' = p ∧ p' ∈ (maps p).nbrs then C p p' ++ [⟨r, none⟩] else C q' p' := by
    intro q' p'
    by_cases hp : q' = p
    · subst hp
      rw [Function.update_self]
      simp
    · rw [Function.update_of_ne hp, if_neg (fun hx => hp hx.1)]
  have hP : ∀ (p' q' : Nat), (Function.update P p fun q => if q ∈ (maps p).nbrs then P p q ++ [r] else P p q)
      p' q' = if p' = p ∧ q' ∈ (maps p).nbrs then P p q' ++ [r] else P p' q' := by
    intro q' p'
    by_cases hp : q' = p
    · subst hp
      rw [Function.update_self]
      simp
    · rw [Function.update_of_ne hp, if_neg (fun hx => hp hx.1)]
  have hM : ∀ (q' p' i' : Nat) (m : Msg),
      (Function.update C p (fun q => if q ∈ (maps p).nbrs then C p q ++ [⟨r, none⟩] else C p q) q' p')[i']? = some m →
      (C q' p')[i']? = some m ∨
        (q' = p ∧ p' ∈ (maps p).nbrs ∧ D q' p' + i' = (R p).length ∧ m = ⟨r, none⟩) := by
    intro q' p' i' m hi
    rw [hC] at hi
    split at hi
    · rename_i hqp
      obtain ⟨rfl, hqp⟩ := hqp
      rw [getElem?_snoc] at hi
      split at hi
      · rename_i hii
        simp only [Option.some.injEq] at hi
        have := I.chanLen q' p' hqp
        exact Or.inr ⟨rfl, hqp, by omega, hi.symm⟩
      · exact Or.inl hi
    · exact Or.inl hi
  refine { out := ?_, inj := ?_, chanLen := ?_, postLen := ?_, chanNil := ?_, postNil := ?_,
           chanData := ?_, chanNone := ?_, post := ?_, act := ?_ }
  · intro p' k' req' hk'
    rcases hR p' k' req' hk' with ⟨hk0, hne, hnk⟩ | ⟨rfl, rfl, rfl⟩
    · obtain ⟨h1, h2, e', he', ha', hq⟩ := I.out p' k' req' hk0
      refine ⟨h1, h2, e', by rw [updE_apply, if_neg hne]; exact he', ha', ?_⟩
      intro q' hq'
      obtain ⟨a1, a2, a3, a4, a5⟩ := hq q' hq'
      refine ⟨a1, ?_, a3, ?_, ?_⟩
      · intro hx
        rw [hH q' k']
        · exact a2 hx
        · have := I.chanLen q' p' (F.sym p' q' hq')
          have := a1.1 hx
          omega
      · rw [hH p' k' (hlt _ _ _ hk0)]; exact a4
      · intro hx
        obtain ⟨i, h3, h4⟩ := a5 hx
        refine ⟨i, h3, ?_⟩
        rw [hC]
        split
        · rename_i hpp
          obtain ⟨rfl, _⟩ := hpp
          rw [getElem?_snoc, if_neg]
          · exact h4
          · rintro rfl
            rw [List.getElem?_eq_none (by omega)] at h4
            simp at h4
        · exact h4
    · refine ⟨rfl, hty, e, updE_pos E _ _ _ _ rfl, ha, ?_⟩
      intro q' hq'
      have hpl := I.postLen p' q' hq'
      have hcl := I.chanLen p' q' hq'
      refine ⟨?_, ?_, ?_, ?_, ?_⟩
      · rw [hrd]
        constructor
        · intro hx; simp at hx
        · intro hx; omega
      · intro hx; rw [hrd] at hx; simp at hx
      · intro hx; rw [hu] at hx; simp at hx
      · rw [hb, upd2_apply, if_pos ⟨rfl, rfl⟩]
      · intro _
        refine ⟨(C p' q').length, by omega, ?_⟩
        rw [hC, if_pos ⟨rfl, hq'⟩, getElem?_snoc, if_pos rfl]
  · intro p' k1 k2 a b h1 h2 hab
    rcases hR p' k1 a h1 with ⟨x1, x2, _⟩ | ⟨rfl, rfl, rfl⟩
    · rcases hR p' k2 b h2 with ⟨y1, y2, _⟩ | ⟨rfl, rfl, rfl⟩
      · exact I.inj p' k1 k2 a b x1 y1 hab
      · exact absurd ⟨rfl, hab⟩ x2
    · rcases hR p' k2 b h2 with ⟨y1, y2, _⟩ | ⟨_, rfl, rfl⟩
      · exact absurd ⟨rfl, hab.symm⟩ y2
      · rfl
  · intro q' p' hp
    have := I.chanLen q' p' hp
    rw [hC]
    by_cases hq : q' = p
    · subst hq
      rw [if_pos ⟨rfl, hp⟩, Function.update_self]
      simp only [List.length_append, List.length_singleton]
      omega
    · rw [if_neg (fun hx => hq hx.1), Function.update_of_ne hq]
      exact this
  · intro q' p' hp
    have := I.postLen q' p' hp
    rw [hP]
    by_cases hq : q' = p
    · subst hq
      rw [if_pos ⟨rfl, hp⟩, Function.update_self]
      simp only [List.length_append, List.length_singleton]
      omega
    · rw [if_neg (fun hx => hq hx.1), Function.update_of_ne hq]
      exact this
  · intro q' p' hp
    rw [hC, if_neg]
    · exact I.chanNil q' p' hp
    · rintro ⟨rfl, hx⟩; exact hp hx
  · intro q' p' hp
    rw [hP, if_neg]
    · exact I.postNil q' p' hp
    · rintro ⟨rfl, hx⟩; exact hp hx
  · intro q' p' i' r' d hi
    rcases hM q' p' i' _ hi with hx | ⟨_, _, _, hx⟩
    · rw [hH _ _ (I.lt hx).2]
      exact I.chanData q' p' i' r' d hx
    · simp at hx
  · intro q' p' i' r' hi
    rcases hM q' p' i' _ hi with hx | ⟨rfl, hnb, hD, hx⟩
    · obtain ⟨req', h1, h2, e', he', hs'⟩ := I.chanNone q' p' i' r' hx
      refine ⟨req', hR' _ _ _ h1, h2, e', ?_, hs'⟩
      rw [updE_apply, if_neg]
      · exact he'
      · rintro ⟨rfl, rfl⟩
        exact hfree _ req' h1 h2
    · simp only [Msg.mk.injEq, and_true] at hx
      subst hx
      refine ⟨⟨r', prog (R q').length⟩, ?_, rfl, e, updE_pos E _ _ _ _ rfl, hs p'⟩
      rw [hD, Function.update_self, getElem?_snoc, if_pos rfl]
  · intro p' q' i' r' hi
    rw [hP] at hi
    split at hi
    · rename_i hpp
      obtain ⟨rfl, hnb⟩ := hpp
      rw [getElem?_snoc] at hi
      split at hi
      · rename_i hii
        simp only [Option.some.injEq] at hi
        subst hi
        have := I.postLen p' q' hnb
        refine ⟨⟨r, prog (R p').length⟩, ?_, rfl⟩
        rw [Function.update_self, getElem?_snoc, if_pos (by omega)]
      · obtain ⟨req', h1, h2⟩ := I.post p' q' i' r' hi
        exact ⟨req', hR' _ _ _ h1, h2⟩
    · obtain ⟨req', h1, h2⟩ := I.post p' q' i' r' hi
      exact ⟨req', hR' _ _ _ h1, h2⟩
  · intro p' r' e' he' ha'
    rw [updE_apply] at he'
    split at he'
    · rename_i hp
      obtain ⟨rfl, rfl⟩ := hp
      exact ⟨(R p').length, ⟨r', prog (R p').length⟩, by rw [Function.update_self, getElem?_snoc, if_pos rfl], rfl⟩
    · obtain ⟨k', req', h1, h2⟩ := I.act p' r' e' he' ha'
      exact ⟨k', req', hR' _ _ _ h1, h2⟩

end Ovk.HaloPool
