/-
C131: halo exchanges that are in progress at the same time do not disturb each other (Model/HaloPool.lean).
-/
import Verif.Lemmas.HaloPool
import Mathlib.Tactic.IntervalCases

namespace Ovk.HaloPool

namespace Spec

/-- A field of type `bool` has values of type `bool`, others have numbers. -/
def Typed (t : Ty) : Value → Prop
  | .bool _ => t = .bool
  | .num _ => t ≠ .bool

/-- What MPI and waiting functions do by themselves. -/
def Net : Op → Prop
  | .buffer _ _ _ | .deliver _ _ | .unpack _ _ _ => True
  | _ => False

/-- Is this the unpacking of what `q` sent for exchange `k` of process `p`? -/
def isUnpack (p k q : Nat) : Op → Bool
  | .unpack p' k' q' => p' == p && k' == k && q' == q
  | _ => false

/-- All runs in which every process starts the same exchanges in the same order: the `k`th of field `prog k`.
`h p k` are the values process `p` had in that field when it started exchange `k`. -/
inductive Run (maps : Nat → HaloMap) (ty : Nat → Ty) (prog : Nat → Nat) :
    List Op → (Nat → Nat → Nat → Value) → State → Prop
  | init (fields : Nat → Nat → Nat → Value) (h : Nat → Nat → Nat → Value)
      (typed : ∀ p f i, Typed (ty f) (fields p f i)) : Run maps ty prog [] h (State.init fields)
  | start {ops : List Op} {h : Nat → Nat → Nat → Value} {s s' : State} (p n f : Nat) (hn : (s.proc p).reqs.length = n)
      (hf : prog n = f) (run : Run maps ty prog ops h s) (hs : step maps ty s (.start p f) = some s') :
      Run maps ty prog (ops ++ [.start p f])
        (fun p' k' => if p' = p ∧ k' = n then (s.proc p).fields f else h p' k') s'
  | write {ops : List Op} {h : Nat → Nat → Nat → Value} {s s' : State} (p f : Nat) (v : Nat → Value)
      (typed : ∀ i, Typed (ty f) (v i)) (run : Run maps ty prog ops h s)
      (hs : step maps ty s (.write p f v) = some s') : Run maps ty prog (ops ++ [.write p f v]) h s'
  | net {ops : List Op} {h : Nat → Nat → Nat → Value} {s s' : State} (o : Op) (hn : Net o)
      (run : Run maps ty prog ops h s) (hs : step maps ty s o = some s') : Run maps ty prog (ops ++ [o]) h s'
  | finish {ops : List Op} {h : Nat → Nat → Nat → Value} {s s' : State} (p k : Nat)
      (run : Run maps ty prog ops h s) (hs : step maps ty s (.finish p k) = some s') :
      Run maps ty prog (ops ++ [.finish p k]) h s'

end Spec

open Spec

theorem ofMpi_toMpi {t : Ty} {v : Value} (hv : Typed t v) : ofMpi t (toMpi v) = v := by
  cases v with
  | bool b =>
    have : t = .bool := hv
    subst this
    cases b <;> rfl
  | num n =>
    have : t ≠ .bool := hv
    simp [ofMpi, toMpi, this]

/-! ### Steps and what holds in every state -/

theorem exch_setExch {x : Proc} {r : Ref} {e : Exch} (he : x.exch r = some e) (e' : Exch) (r' : Ref) :
    (x.setExch r e').exch r' = if r' = r then some e' else x.exch r' := by
  unfold Proc.exch at he ⊢
  unfold Proc.setExch
  dsimp only
  have hlt : r.idx < (x.pool r.ty).length := by
    by_contra hc
    rw [List.getElem?_eq_none (by omega)] at he
    simp at he
  by_cases ht : r'.ty = r.ty
  · rw [ht, Function.update_self, List.getElem?_set]
    by_cases hi : r.idx = r'.idx
    · have : r' = r := by cases r; cases r'; simp_all
      rw [if_pos hi, if_pos hlt, if_pos this]
    · rw [if_neg hi, if_neg (fun hx => hi (by rw [hx]))]
  · rw [Function.update_of_ne ht, if_neg (fun hx => ht (by rw [hx]))]

def reqsOf (s : State) : Nat → List (Option Req) := fun p => (s.proc p).reqs
def exchOf (s : State) : Nat → Ref → Option Exch := fun p r => (s.proc p).exch r
def postOf (s : State) : Nat → Nat → List Ref := fun p => (s.proc p).posted

theorem exchOf_setProc {s : State} {p : Nat} {r : Ref} {e e' : Exch} {x : Proc} (he : (s.proc p).exch r = some e)
    (hx : x.pool = ((s.proc p).setExch r e').pool) : exchOf (s.setProc p x) = updE (exchOf s) p r e' := by
  funext p' r'
  rw [updE_apply]
  unfold exchOf State.setProc
  dsimp only
  rw [Function.update_apply]
  by_cases hp : p' = p
  · subst hp
    rw [if_pos rfl]
    have : x.exch r' = ((s.proc p').setExch r e').exch r' := by unfold Proc.exch; rw [hx]
    rw [this, exch_setExch he]
    simp
  · rw [if_neg hp, if_neg (fun hc => hp hc.1)]

theorem reqsOf_setProc (s : State) (p : Nat) (x : Proc) :
    reqsOf (s.setProc p x) = Function.update (reqsOf s) p x.reqs := by
  funext p'
  unfold reqsOf State.setProc
  dsimp only
  rw [Function.update_apply, Function.update_apply]
  split <;> rfl

theorem postOf_setProc (s : State) (p : Nat) (x : Proc) :
    postOf (s.setProc p x) = Function.update (postOf s) p x.posted := by
  funext p'
  unfold postOf State.setProc
  dsimp only
  rw [Function.update_apply, Function.update_apply]
  split <;> rfl

structure Holds (maps : Nat → HaloMap) (ty : Nat → Ty) (prog : Nat → Nat) (h : Nat → Nat → Nat → Value) (s : State) :
    Prop where
  inv : ∃ D, Inv maps ty prog h D (reqsOf s) (exchOf s) s.chan (postOf s)
  typed : ∀ p f i, Typed (ty f) ((s.proc p).fields f i)
  typedH : ∀ p k, k < (s.proc p).reqs.length → ∀ i, Typed (ty (prog k)) (h p k i)

section

variable {maps : Nat → HaloMap} {ty : Nat → Ty} {prog : Nat → Nat} {h : Nat → Nat → Nat → Value} {s s' : State}
  {ops : List Op}

theorem acquire_spec (l : List Exch) :
    (acquire l).1 < (acquire l).2.length ∧ (∀ j, j ≠ (acquire l).1 → (acquire l).2[j]? = l[j]?) ∧
      (∀ e, l[(acquire l).1]? = some e → e.active = false) := by
  unfold acquire
  dsimp only
  have hle : l.findIdx (fun e => !e.active) ≤ l.length := List.findIdx_le_length
  split
  · rename_i hi
    refine ⟨by simp [hi], ?_, ?_⟩
    · intro j hj
      rw [getElem?_snoc, if_neg (by omega)]
    · intro e he
      rw [hi] at he
      simp at he
  · rename_i hi
    have hlt : l.findIdx (fun e => !e.active) < l.length := by omega
    refine ⟨hlt, fun _ _ => rfl, ?_⟩
    intro e he
    have h1 := List.findIdx_getElem (w := hlt)
    rw [List.getElem?_eq_getElem hlt] at he
    cases he
    simpa using h1

theorem copyLocal_typed {t : Ty} (ps : List (Nat × Nat)) (f : Nat → Value) (hf : ∀ i, Typed t (f i)) :
    ∀ i, Typed t (copyLocal ps f i) := by
  unfold copyLocal
  induction ps generalizing f with
  | nil => exact hf
  | cons a ps ih =>
    rw [List.foldl_cons]
    apply ih
    intro i
    rw [Function.update_apply]
    split
    · exact hf _
    · exact hf _

theorem foldl_typed {t : Ty} (l : List (Nat × Nat)) (f : Nat → Value) (hf : ∀ i, Typed t (f i)) :
    ∀ i, Typed t (l.foldl (fun f y => Function.update f y.1 (ofMpi t y.2)) f i) := by
  induction l generalizing f with
  | nil => exact hf
  | cons a ps ih =>
    rw [List.foldl_cons]
    apply ih
    intro i
    rw [Function.update_apply]
    split
    · unfold ofMpi
      split
      · assumption
      · assumption
    · exact hf _

/-- What a start does to the parts. -/
theorem Holds.start (F : Fit maps) (H : Holds maps ty prog h s) (p n f : Nat) (hn : (s.proc p).reqs.length = n)
    (hf : prog n = f) :
    Holds maps ty prog (fun p' k' => if p' = p ∧ k' = n then (s.proc p).fields f else h p' k')
      (start maps p f (ty f) s) := by
  obtain ⟨⟨D, I⟩, hT, hTH⟩ := H
  subst hf
  subst hn
  have hacq := acquire_spec ((s.proc p).pool (ty (prog (s.proc p).reqs.length)))
  set t := ty (prog (s.proc p).reqs.length) with ht
  set a := acquire ((s.proc p).pool t) with ha
  obtain ⟨a1, a2, a3⟩ := hacq
  refine ⟨⟨D, ?_⟩, ?_, ?_⟩
  · have := Inv.start F I (p := p) (r := ⟨t, a.1⟩)
      (e := { active := true, sendBuf := fun q => pack ((maps p).send q) ((s.proc p).fields (prog (s.proc p).reqs.length))
              recvBuf := ((a.2)[a.1]?.getD Exch.new).recvBuf
              sendDone := fun _ => false, recvDone := fun _ => false, unpacked := fun _ => false })
      ((s.proc p).fields (prog (s.proc p).reqs.length))
      (fun e0 he0 => a3 e0 he0) ht rfl (fun _ => rfl) (fun _ => rfl) (fun _ => rfl) (fun _ => rfl)
    convert this using 1
    · funext p' k'
      rw [upd2_apply]
      rfl
    · funext p'
      unfold reqsOf HaloPool.start
      dsimp only
      rw [Function.update_apply, Function.update_apply]
      split
      · rename_i hp; subst hp; rfl
      · rfl
    · funext p' r'
      rw [updE_apply]
      unfold exchOf HaloPool.start
      dsimp only
      rw [Function.update_apply]
      by_cases hp : p' = p
      · subst hp
        rw [if_pos rfl]
        unfold Proc.exch
        dsimp only
        by_cases htt : r'.ty = t
        · rw [htt, Function.update_self, List.getElem?_set]
          by_cases hi : a.1 = r'.idx
          · have : r' = ⟨t, a.1⟩ := by cases r'; simp_all
            rw [if_pos hi, if_pos a1, if_pos ⟨rfl, this⟩]
          · rw [if_neg hi, if_neg (fun hx => hi (by rw [hx.2])), a2 _ (fun hx => hi hx.symm)]
        · rw [Function.update_of_ne htt, if_neg (fun hx => htt (by rw [hx.2]))]
      · rw [if_neg hp, if_neg (fun hc => hp hc.1)]
    · funext p'
      unfold HaloPool.start
      rfl
    · funext p'
      unfold postOf HaloPool.start
      dsimp only
      rw [Function.update_apply, Function.update_apply]
      split
      · rename_i hp; subst hp; rfl
      · rfl
  · intro p' f' i
    unfold HaloPool.start
    dsimp only
    rw [Function.update_apply]
    split
    · dsimp only
      rw [Function.update_apply]
      split
      · rename_i hff
        rw [hff]
        exact copyLocal_typed _ _ (hT p _) i
      · exact hT p f' i
    · exact hT p' f' i
  · intro p' k' hk' i
    split
    · rename_i hpk
      rw [hpk.2]
      exact hT p _ i
    · rename_i hpk
      apply hTH
      unfold HaloPool.start at hk'
      dsimp only at hk'
      rw [Function.update_apply] at hk'
      split at hk'
      · rename_i hpp
        subst hpp
        dsimp only at hk'
        rw [List.length_append, List.length_singleton] at hk'
        have : k' ≠ (s.proc p').reqs.length := fun hx => hpk ⟨rfl, hx⟩
        omega
      · exact hk'

theorem Holds.write (H : Holds maps ty prog h s) (p f : Nat) (v : Nat → Value) (hv : ∀ i, Typed (ty f) (v i)) :
    Holds maps ty prog h (write p f v s) := by
  obtain ⟨⟨D, I⟩, hT, hTH⟩ := H
  have h1 : reqsOf (HaloPool.write p f v s) = reqsOf s := by
    unfold HaloPool.write
    rw [reqsOf_setProc]
    exact Function.update_eq_self p (reqsOf s)
  have h2 : postOf (HaloPool.write p f v s) = postOf s := by
    unfold HaloPool.write
    rw [postOf_setProc]
    exact Function.update_eq_self p (postOf s)
  have h3 : exchOf (HaloPool.write p f v s) = exchOf s := by
    funext p' r'
    unfold exchOf HaloPool.write State.setProc
    dsimp only
    rw [Function.update_apply]
    split
    · rename_i hp; subst hp; rfl
    · rfl
  refine ⟨⟨D, ?_⟩, ?_, ?_⟩
  · rw [h1, h2, h3]
    exact I
  · intro p' f' i
    unfold HaloPool.write State.setProc
    dsimp only
    rw [Function.update_apply]
    split
    · dsimp only
      rw [Function.update_apply]
      split
      · rename_i hff; rw [hff]; exact hv i
      · exact hT p f' i
    · exact hT p' f' i
  · intro p' k' hk'
    apply hTH
    have := congrFun h1 p'
    unfold reqsOf at this
    rw [← this]
    exact hk'

theorem setExch_reqs (x : Proc) (r : Ref) (e : Exch) : (x.setExch r e).reqs = x.reqs := rfl
theorem setExch_posted (x : Proc) (r : Ref) (e : Exch) : (x.setExch r e).posted = x.posted := rfl
theorem setExch_fields (x : Proc) (r : Ref) (e : Exch) : (x.setExch r e).fields = x.fields := rfl

/-- What `buffer` does. -/
theorem buffer_eq {q p i : Nat} (hb : buffer q p i s = some s') :
    ∃ r e, (s.chan q p)[i]? = some ⟨r, none⟩ ∧ (s.proc q).exch r = some e ∧
      reqsOf s' = reqsOf s ∧ postOf s' = postOf s ∧ (∀ p', (s'.proc p').fields = (s.proc p').fields) ∧
      exchOf s' = updE (exchOf s) q r { e with sendDone := Function.update e.sendDone p true } ∧
      s'.chan = upd2 s.chan q p ((s.chan q p).set i ⟨r, some (e.sendBuf p)⟩) := by
  unfold buffer at hb
  split at hb
  · rename_i r hr
    split at hb
    · simp at hb
    · rename_i e he
      simp only [Option.some.injEq] at hb
      subst hb
      refine ⟨r, e, hr, he, ?_, ?_, ?_, ?_, rfl⟩
      · exact (reqsOf_setProc s q _).trans (Function.update_eq_self q (reqsOf s))
      · exact (postOf_setProc s q _).trans (Function.update_eq_self q (postOf s))
      · intro p'
        unfold State.setChan State.setProc
        dsimp only
        rw [Function.update_apply]
        split
        · rename_i hp; subst hp; rfl
        · rfl
      · exact exchOf_setProc (s := s) he rfl
  · simp at hb

theorem deliver_eq {q p : Nat} (hb : deliver maps q p s = some s') :
    ∃ r0 d ms r rs e, s.chan q p = ⟨r0, some d⟩ :: ms ∧ (s.proc p).posted q = r :: rs ∧ (s.proc p).exch r = some e ∧
      reqsOf s' = reqsOf s ∧ postOf s' = upd2 (postOf s) p q rs ∧ (∀ p', (s'.proc p').fields = (s.proc p').fields) ∧
      exchOf s' = updE (exchOf s) p r
        { e with recvBuf := Function.update e.recvBuf q d, recvDone := Function.update e.recvDone q true } ∧
      s'.chan = upd2 s.chan q p ms := by
  unfold deliver at hb
  split at hb
  · rename_i r0 d ms r rs hc hp
    unfold arrive at hb
    have hpr : ∀ x : Proc, ((s.setChan q p ms).setProc p x).proc p = x := by
      intro x
      unfold State.setProc
      exact Function.update_self _ _ _
    dsimp only at hb
    rw [hpr] at hb
    split at hb
    · simp at hb
    · rename_i e he
      split at hb
      · simp only [Option.some.injEq] at hb
        subst hb
        have he0 : (s.proc p).exch r = some e := he
        refine ⟨r0, d, ms, r, rs, e, hc, hp, he0, ?_, ?_, ?_, ?_, rfl⟩
        · rw [reqsOf_setProc, reqsOf_setProc]
          funext p'
          by_cases hpp : p' = p
          · subst hpp; rw [Function.update_self]; rfl
          · rw [Function.update_of_ne hpp, Function.update_of_ne hpp]; rfl
        · rw [postOf_setProc, postOf_setProc]
          funext p'
          by_cases hpp : p' = p
          · subst hpp
            rw [Function.update_self]
            unfold upd2
            rw [Function.update_self]
            rfl
          · unfold upd2
            rw [Function.update_of_ne hpp, Function.update_of_ne hpp, Function.update_of_ne hpp]; rfl
        · intro p'
          unfold State.setProc
          dsimp only
          rw [Function.update_apply]
          split
          · rename_i hpp; subst hpp; rfl
          · rename_i hpp; rw [Function.update_of_ne hpp]; rfl
        · rw [exchOf_setProc (e := e) (r := r)
            (e' := { e with recvBuf := Function.update e.recvBuf q d, recvDone := Function.update e.recvDone q true })]
          · congr 1
            funext p' r'
            unfold exchOf State.setProc
            dsimp only
            rw [Function.update_apply]
            split
            · rename_i hpp; subst hpp; rfl
            · rfl
          · rw [hpr]; exact he
          · rw [hpr]
      · simp at hb
  · simp at hb

theorem unpack_eq {p k q : Nat} (hb : unpack maps p k q s = some s') :
    ∃ req e, (s.proc p).reqs[k]? = some (some req) ∧ (s.proc p).exch req.ref = some e ∧ q ∈ (maps p).nbrs ∧
      e.recvDone q = true ∧ e.unpacked q = false ∧
      reqsOf s' = reqsOf s ∧ postOf s' = postOf s ∧ (∀ p', p' ≠ p → (s'.proc p').fields = (s.proc p').fields) ∧
      (s'.proc p).fields = Function.update (s.proc p).fields req.field ((((maps p).recv q).zip (e.recvBuf q)).foldl
          (fun f y => Function.update f y.1 (ofMpi req.ref.ty y.2)) ((s.proc p).fields req.field)) ∧
      exchOf s' = updE (exchOf s) p req.ref { e with unpacked := Function.update e.unpacked q true } ∧
      s'.chan = s.chan := by
  unfold unpack at hb
  split at hb
  · rename_i req hk
    split at hb
    · simp at hb
    · rename_i e he
      split at hb
      · rename_i hc
        simp only [Option.some.injEq] at hb
        subst hb
        refine ⟨req, e, hk, he, hc.1, hc.2.1, hc.2.2, ?_, ?_, ?_, ?_, ?_, rfl⟩
        · exact (reqsOf_setProc s p _).trans (Function.update_eq_self p (reqsOf s))
        · exact (postOf_setProc s p _).trans (Function.update_eq_self p (postOf s))
        · intro p' hp
          unfold State.setProc
          dsimp only
          rw [Function.update_of_ne hp]
        · unfold State.setProc
          dsimp only
          rw [Function.update_self]
          rfl
        · exact exchOf_setProc (s := s) he rfl
      · simp at hb
  · simp at hb

theorem finish_eq {p k : Nat} (hb : finish maps p k s = some s') :
    ∃ req e, (s.proc p).reqs[k]? = some (some req) ∧ (s.proc p).exch req.ref = some e ∧
      (∀ q ∈ (maps p).nbrs, e.sendDone q = true ∧ e.unpacked q = true) ∧
      reqsOf s' = Function.update (reqsOf s) p ((reqsOf s p).set k none) ∧ postOf s' = postOf s ∧
      (∀ p', (s'.proc p').fields = (s.proc p').fields) ∧
      exchOf s' = updE (exchOf s) p req.ref { e with active := false } ∧ s'.chan = s.chan := by
  unfold finish at hb
  split at hb
  · rename_i req hk
    split at hb
    · simp at hb
    · rename_i e he
      split at hb
      · rename_i hc
        simp only [Option.some.injEq] at hb
        subst hb
        refine ⟨req, e, hk, he, hc, ?_, ?_, ?_, ?_, rfl⟩
        · exact reqsOf_setProc s p _
        · exact (postOf_setProc s p _).trans (Function.update_eq_self p (postOf s))
        · intro p'
          unfold State.setProc
          dsimp only
          rw [Function.update_apply]
          split
          · rename_i hp; subst hp; rfl
          · rfl
        · exact exchOf_setProc (s := s) he rfl
      · simp at hb
  · simp at hb

theorem length_of_reqsOf {s s' : State} (hr : reqsOf s' = reqsOf s) (p : Nat) :
    (s'.proc p).reqs.length = (s.proc p).reqs.length := by
  have := congrFun hr p
  unfold reqsOf at this
  rw [this]

theorem Holds.net (H : Holds maps ty prog h s) {o : Op} (hn : Net o) (hs : step maps ty s o = some s') :
    Holds maps ty prog h s' := by
  obtain ⟨⟨D, I⟩, hT, hTH⟩ := H
  cases o with
  | start => exact absurd hn (by simp [Net])
  | write => exact absurd hn (by simp [Net])
  | finish => exact absurd hn (by simp [Net])
  | buffer q p i =>
    obtain ⟨r, e, hm, he, h1, h2, h3, h4, h5⟩ := buffer_eq hs
    refine ⟨⟨D, ?_⟩, fun p' f i => by rw [h3]; exact hT p' f i, fun p' k hk => hTH p' k (by
      rw [length_of_reqsOf h1] at hk; exact hk)⟩
    rw [h1, h2, h4, h5]
    exact I.buffer hm he
  | deliver q p =>
    obtain ⟨r0, d, ms, r, rs, e, hc, hp, he, h1, h2, h3, h4, h5⟩ := deliver_eq hs
    refine ⟨⟨upd2 D q p (D q p + 1), ?_⟩, fun p' f i => by rw [h3]; exact hT p' f i, fun p' k hk => hTH p' k (by
      rw [length_of_reqsOf h1] at hk; exact hk)⟩
    rw [h1, h2, h4, h5]
    exact I.deliver hc hp he
  | unpack p k q =>
    obtain ⟨req, e, hk, he, hnb, hd, hu, h1, h2, h3, h3', h4, h5⟩ := unpack_eq hs
    refine ⟨⟨D, ?_⟩, ?_, fun p' k hk => hTH p' k (by rw [length_of_reqsOf h1] at hk; exact hk)⟩
    · rw [h1, h2, h4, h5]
      exact I.unpack hk he hd
    · intro p' f i
      by_cases hp : p' = p
      · subst hp
        rw [h3', Function.update_apply]
        split
        · rename_i hff
          obtain ⟨b1, b2, _⟩ := I.out p' k req hk
          rw [b2, hff, b1]
          exact foldl_typed _ _ (hT p' _) i
        · exact hT p' f i
      · rw [h3 p' hp]; exact hT p' f i

theorem Holds.finish (H : Holds maps ty prog h s) {p k : Nat} (hs : finish maps p k s = some s') :
    Holds maps ty prog h s' := by
  obtain ⟨⟨D, I⟩, hT, hTH⟩ := H
  obtain ⟨req, e, hk, he, hd, h1, h2, h3, h4, h5⟩ := finish_eq hs
  refine ⟨⟨D, ?_⟩, fun p' f i => by rw [h3]; exact hT p' f i, fun p' k hk => hTH p' k ?_⟩
  · rw [h1, h2, h4, h5]
    exact I.finish hk he hd
  · have := congrFun h1 p'
    unfold reqsOf at this
    rw [this, Function.update_apply] at hk
    split at hk
    · rename_i hpp; subst hpp; rw [List.length_set] at hk; exact hk
    · exact hk

theorem Spec.Run.holds (F : Fit maps) (hr : Run maps ty prog ops h s) : Holds maps ty prog h s := by
  induction hr with
  | init fields h typed =>
    refine ⟨⟨fun _ _ => 0, ?_⟩, typed, fun p k hk => ?_⟩
    · exact Inv.init
    · simp [State.init] at hk
  | start p n f hn hf _ hs ih =>
    simp only [step, Option.some.injEq] at hs
    subst hs
    exact ih.start F p n f hn hf
  | write p f v typed _ hs ih =>
    simp only [step, Option.some.injEq] at hs
    subst hs
    exact ih.write p f v typed
  | net o hn _ hs ih => exact ih.net hn hs
  | finish p k _ hs ih => exact ih.finish hs

/-! ### Unpacking -/

theorem foldl_get (t : Ty) (l : List (Nat × Nat)) (f : Nat → Value) (hnd : (l.map Prod.fst).Nodup) :
    (∀ i v, (i, v) ∈ l → l.foldl (fun f y => Function.update f y.1 (ofMpi t y.2)) f i = ofMpi t v) ∧
    (∀ i, i ∉ l.map Prod.fst → l.foldl (fun f y => Function.update f y.1 (ofMpi t y.2)) f i = f i) := by
  induction l generalizing f with
  | nil => simp
  | cons a l ih =>
    rw [List.map_cons, List.nodup_cons] at hnd
    obtain ⟨h1, h2⟩ := ih (Function.update f a.1 (ofMpi t a.2)) hnd.2
    constructor
    · intro i v hm
      rw [List.foldl_cons]
      rcases List.mem_cons.1 hm with hx | hx
      · subst hx
        rw [h2 _ hnd.1, Function.update_self]
      · exact h1 i v hx
    · intro i hi
      rw [List.map_cons, List.mem_cons, not_or] at hi
      rw [List.foldl_cons, h2 i hi.2, Function.update_of_ne hi.1]

/-- **C131** (values).  Unpacking what `q` sent for exchange `k` puts in the points received from `q` the values `q` had
in this field when it started exchange `k`, whatever else is in progress, and changes nothing else. -/
theorem C131_values (F : Fit maps) (hr : Run maps ty prog ops h s) {p k q : Nat}
    (hs : step maps ty s (.unpack p k q) = some s') :
    k < (s.proc q).reqs.length ∧ ((maps q).send p).length = ((maps p).recv q).length ∧
    (∀ j i i' : Nat, ((maps p).recv q)[j]? = some i → ((maps q).send p)[j]? = some i' →
      (s'.proc p).fields (prog k) i = h q k i') ∧
    (∀ i, i ∉ (maps p).recv q → (s'.proc p).fields (prog k) i = (s.proc p).fields (prog k) i) ∧
    (∀ f, f ≠ prog k → (s'.proc p).fields f = (s.proc p).fields f) ∧
    (∀ p', p' ≠ p → (s'.proc p').fields = (s.proc p').fields) := by
  obtain ⟨⟨D, I⟩, hT, hTH⟩ := hr.holds F
  obtain ⟨req, e, hk, he, hnb, hd, hu, h1, h2, h3, h3', h4, h5⟩ := unpack_eq hs
  obtain ⟨b1, b2, e', he', b4, b5⟩ := I.out p k req hk
  have hee : e' = e := by
    have : some e' = some e := he'.symm.trans he
    simpa using this
  subst hee
  obtain ⟨c1, c2, _⟩ := b5 q hnb
  have hbuf := c2 hd
  have hlt : k < (s.proc q).reqs.length := by
    have hx := I.chanLen q p (F.sym p q hnb)
    have hy := c1.1 hd
    unfold reqsOf at hx
    omega
  have hlen := F.len p q hnb
  have hfst : (((maps p).recv q).zip (e'.recvBuf q)).map Prod.fst = (maps p).recv q := by
    apply List.map_fst_zip
    rw [hbuf, pack, List.length_map, hlen]
  obtain ⟨g1, g2⟩ := foldl_get req.ref.ty (((maps p).recv q).zip (e'.recvBuf q)) ((s.proc p).fields req.field)
    (by rw [hfst]; exact F.nodup p q hnb)
  refine ⟨hlt, hlen, ?_, ?_, ?_, h3⟩
  · intro j i i' hi hi'
    rw [h3', ← b1, Function.update_self, g1 i (toMpi (h q k i')), b2, ofMpi_toMpi (hTH q k hlt i')]
    apply List.mem_of_getElem? (i := j)
    rw [List.getElem?_zip_eq_some]
    refine ⟨hi, ?_⟩
    rw [hbuf, pack, List.getElem?_map, hi']
    rfl
  · intro i hi
    rw [h3', ← b1, Function.update_self, g2 i (by rw [hfst]; exact hi)]
  · intro f hf
    rw [h3', Function.update_of_ne (by rw [b1]; exact hf)]

/-! ### Exchangers -/

/-- **C131** (buffers).  The exchanger a new exchange takes is not used by any exchange in progress: no request refers to
it, no receive waits for a message in its buffers, no message that MPI has not copied is in its buffers. -/
theorem C131_buffers (F : Fit maps) (hr : Run maps ty prog ops h s) {p f : Nat}
    (hs : step maps ty s (.start p f) = some s') :
    ∃ r : Ref, r.ty = ty f ∧ (s'.proc p).reqs = (s.proc p).reqs ++ [some ⟨r, f⟩] ∧
      (∀ (k : Nat) (req : Req), (s.proc p).reqs[k]? = some (some req) → req.ref ≠ r) ∧
      (∀ q, r ∉ (s.proc p).posted q) ∧ (∀ q, (⟨r, none⟩ : Msg) ∉ s.chan p q) ∧
      (∀ r' : Ref, r' ≠ r → (s'.proc p).exch r' = (s.proc p).exch r') := by
  obtain ⟨⟨D, I⟩, hT, hTH⟩ := hr.holds F
  simp only [step, Option.some.injEq] at hs
  subst hs
  obtain ⟨a1, a2, a3⟩ := acquire_spec ((s.proc p).pool (ty f))
  have hfree : ∀ (k : Nat) (req : Req), (s.proc p).reqs[k]? = some (some req) →
      req.ref ≠ ⟨ty f, (acquire ((s.proc p).pool (ty f))).1⟩ := by
    intro k req hk hx
    obtain ⟨_, _, e, he, ha, _⟩ := I.out p k req hk
    rw [hx] at he
    rw [a3 e he] at ha
    simp at ha
  refine ⟨⟨ty f, (acquire ((s.proc p).pool (ty f))).1⟩, rfl, ?_, hfree, ?_, ?_, ?_⟩
  · unfold start
    dsimp only
    rw [Function.update_self]
  · intro q hq
    obtain ⟨i, hi⟩ := List.getElem?_of_mem hq
    obtain ⟨req, hk, hx⟩ := I.post p q i _ hi
    exact hfree _ req hk hx
  · intro q hq
    obtain ⟨i, hi⟩ := List.getElem?_of_mem hq
    obtain ⟨req, hk, hx, _⟩ := I.chanNone p q i _ hi
    exact hfree _ req hk hx
  · intro r' hr'
    unfold start
    dsimp only
    rw [Function.update_self]
    unfold Proc.exch
    dsimp only
    by_cases ht : r'.ty = ty f
    · rw [ht, Function.update_self, List.getElem?_set, if_neg, a2]
      · intro hx
        exact hr' (by cases r'; simp_all)
      · intro hx
        exact hr' (by cases r'; simp_all)
    · rw [Function.update_of_ne ht]

/-- **C131** (reuse).  A new exchanger is made only if every exchanger of the type is in use by an exchange in progress;
exchangers of other types are as before. -/
theorem C131_reuse (F : Fit maps) (hr : Run maps ty prog ops h s) {p f : Nat}
    (hs : step maps ty s (.start p f) = some s') :
    (((s'.proc p).pool (ty f)).length = ((s.proc p).pool (ty f)).length ∨
      (((s'.proc p).pool (ty f)).length = ((s.proc p).pool (ty f)).length + 1 ∧
        ∀ i < ((s.proc p).pool (ty f)).length,
          ∃ (k : Nat) (req : Req), (s.proc p).reqs[k]? = some (some req) ∧ req.ref = ⟨ty f, i⟩)) ∧
    (∀ t, t ≠ ty f → (s'.proc p).pool t = (s.proc p).pool t) := by
  obtain ⟨⟨D, I⟩, hT, hTH⟩ := hr.holds F
  simp only [step, Option.some.injEq] at hs
  subst hs
  have hpool : ((start maps p f (ty f) s).proc p).pool = Function.update (s.proc p).pool (ty f)
      (((start maps p f (ty f) s).proc p).pool (ty f)) := by
    unfold start
    dsimp only
    rw [Function.update_self]
    dsimp only
    rw [Function.update_self]
  constructor
  · unfold start
    dsimp only
    rw [Function.update_self]
    dsimp only
    rw [Function.update_self, List.length_set]
    unfold acquire
    dsimp only
    split
    · rename_i hi
      refine Or.inr ⟨by simp, ?_⟩
      intro i hlt
      have hact : ((s.proc p).pool (ty f))[i].active = true := by
        rw [List.findIdx_eq_length] at hi
        simpa using hi _ (List.getElem_mem hlt)
      exact I.act p ⟨ty f, i⟩ _ (List.getElem?_eq_getElem hlt) hact
    · exact Or.inl rfl
  · intro t ht
    rw [hpool, Function.update_of_ne ht]

/-! ### Every message is unpacked once -/

theorem count_snoc (p k q : Nat) (ops : List Op) (o : Op) :
    (ops ++ [o]).countP (isUnpack p k q) = ops.countP (isUnpack p k q) + if isUnpack p k q o then 1 else 0 := by
  rw [List.countP_append, List.countP_singleton]

structure Counts (maps : Nat → HaloMap) (ops : List Op) (s : State) : Prop where
  new : ∀ p k q : Nat, (s.proc p).reqs.length ≤ k → ops.countP (isUnpack p k q) = 0
  out : ∀ (p k q : Nat) (req : Req) (e : Exch), (s.proc p).reqs[k]? = some (some req) →
    (s.proc p).exch req.ref = some e → q ∈ (maps p).nbrs →
    ops.countP (isUnpack p k q) = if e.unpacked q then 1 else 0
  done : ∀ p k q : Nat, (s.proc p).reqs[k]? = some none → q ∈ (maps p).nbrs → ops.countP (isUnpack p k q) = 1

theorem Counts.same {s s' : State} (c : Counts maps ops s) (o : Op) (ho : ∀ p k q, isUnpack p k q o = false)
    (hR : reqsOf s' = reqsOf s) (hE : ∀ (p : Nat) (r : Ref) (e' : Exch), exchOf s' p r = some e' →
      ∃ e, exchOf s p r = some e ∧ e.unpacked = e'.unpacked) : Counts maps (ops ++ [o]) s' := by
  have hR' : ∀ p, (s'.proc p).reqs = (s.proc p).reqs := fun p => congrFun hR p
  refine ⟨?_, ?_, ?_⟩
  · intro p k q hk
    rw [hR'] at hk
    rw [count_snoc, c.new p k q hk, ho]
    rfl
  · intro p k q req e' hk he hq
    rw [hR'] at hk
    obtain ⟨e, h1, h2⟩ := hE p req.ref e' he
    rw [count_snoc, c.out p k q req e hk h1 hq, ho, h2]
    rfl
  · intro p k q hk hq
    rw [hR'] at hk
    rw [count_snoc, c.done p k q hk hq, ho]
    rfl

theorem Spec.Run.counts (F : Fit maps) (hr : Run maps ty prog ops h s) : Counts maps ops s := by
  induction hr with
  | init fields h typed =>
    refine ⟨fun _ _ _ _ => rfl, ?_, ?_⟩
    · intro p k q req e hk
      simp [State.init] at hk
    · intro p k q hk
      simp [State.init] at hk
  | @start ops h s s' p n f hn hf run hs c =>
    obtain ⟨r, hrt, hrq, hfree, _, _, hrest⟩ := C131_buffers F run hs
    have hother : ∀ p', p' ≠ p → s'.proc p' = s.proc p' := by
      intro p' hp
      simp only [step, Option.some.injEq] at hs
      subst hs
      unfold HaloPool.start
      dsimp only
      rw [Function.update_of_ne hp]
    have hnew : ∀ e, (s'.proc p).exch r = some e → ∀ q, e.unpacked q = false := by
      intro e he q
      obtain ⟨_, _, hI⟩ := acquire_spec ((s.proc p).pool (ty f))
      simp only [step, Option.some.injEq] at hs
      subst hs
      have hr2 : r = ⟨ty f, (acquire ((s.proc p).pool (ty f))).1⟩ := by
        unfold HaloPool.start at hrq
        dsimp only at hrq
        rw [Function.update_self] at hrq
        have := List.append_cancel_left hrq
        simp only [List.cons.injEq, Option.some.injEq, Req.mk.injEq, and_true] at this
        exact this.symm
      unfold HaloPool.start at he
      dsimp only at he
      rw [Function.update_self, hr2] at he
      unfold Proc.exch at he
      dsimp only at he
      rw [Function.update_self, List.getElem?_set, if_pos rfl,
        if_pos (acquire_spec ((s.proc p).pool (ty f))).1] at he
      simp only [Option.some.injEq] at he
      rw [← he]
    refine ⟨?_, ?_, ?_⟩
    · intro p' k q hk
      rw [count_snoc]
      by_cases hp : p' = p
      · subst hp
        rw [hrq, List.length_append, List.length_singleton] at hk
        rw [c.new p' k q (by omega)]
        rfl
      · rw [hother p' hp] at hk
        rw [c.new p' k q hk]
        rfl
    · intro p' k q req e hk he hq
      rw [count_snoc]
      by_cases hp : p' = p
      · subst hp
        rw [hrq, getElem?_snoc] at hk
        split at hk
        · rename_i hkk
          simp only [Option.some.injEq] at hk
          subst hk
          rw [c.new p' k q (by omega), hnew e he q]
          rfl
        · rw [hrest _ (hfree k req hk)] at he
          rw [c.out p' k q req e hk he hq]
          rfl
      · rw [hother p' hp] at hk he
        rw [c.out p' k q req e hk he hq]
        rfl
    · intro p' k q hk hq
      rw [count_snoc]
      by_cases hp : p' = p
      · subst hp
        rw [hrq, getElem?_snoc] at hk
        split at hk
        · simp at hk
        · rw [c.done p' k q hk hq]
          rfl
      · rw [hother p' hp] at hk
        rw [c.done p' k q hk hq]
        rfl
  | @write ops h s s' p f v typed run hs c =>
    simp only [step, Option.some.injEq] at hs
    subst hs
    refine c.same _ (fun _ _ _ => rfl) ?_ ?_
    · unfold HaloPool.write
      rw [reqsOf_setProc]
      exact Function.update_eq_self p (reqsOf s)
    · intro p' r e' he'
      refine ⟨e', ?_, rfl⟩
      rw [← he']
      unfold exchOf HaloPool.write State.setProc
      dsimp only
      rw [Function.update_apply]
      split
      · rename_i hp; subst hp; rfl
      · rfl
  | @net ops h s s' o hn run hs c =>
    cases o with
    | start => exact absurd hn (by simp [Net])
    | write => exact absurd hn (by simp [Net])
    | finish => exact absurd hn (by simp [Net])
    | buffer q p i =>
      obtain ⟨r, e, hm, he, h1, h2, h3, h4, h5⟩ := buffer_eq hs
      refine c.same _ (fun _ _ _ => rfl) h1 ?_
      intro p' r' e' he'
      rw [h4, updE_apply] at he'
      split at he'
      · rename_i hp
        obtain ⟨rfl, rfl⟩ := hp
        simp only [Option.some.injEq] at he'
        exact ⟨e, he, by rw [← he']⟩
      · exact ⟨e', he', rfl⟩
    | deliver q p =>
      obtain ⟨r0, d, ms, r, rs, e, hc, hp, he, h1, h2, h3, h4, h5⟩ := deliver_eq hs
      refine c.same _ (fun _ _ _ => rfl) h1 ?_
      intro p' r' e' he'
      rw [h4, updE_apply] at he'
      split at he'
      · rename_i hp
        obtain ⟨rfl, rfl⟩ := hp
        simp only [Option.some.injEq] at he'
        exact ⟨e, he, by rw [← he']⟩
      · exact ⟨e', he', rfl⟩
    | unpack p k q =>
      obtain ⟨⟨D, I⟩, _, _⟩ := run.holds F
      obtain ⟨req, e, hk, he, hnb, hd, hu, h1, h2, h3, h3', h4, h5⟩ := unpack_eq hs
      have hR' : ∀ p, (s'.proc p).reqs = (s.proc p).reqs := fun p => congrFun h1 p
      have hkl : k < (s.proc p).reqs.length := by
        by_contra hc
        rw [List.getElem?_eq_none (by omega)] at hk
        simp at hk
      refine ⟨?_, ?_, ?_⟩
      · intro p' k' q' hk'
        rw [hR'] at hk'
        rw [count_snoc, c.new p' k' q' hk', if_neg]
        simp only [isUnpack, Bool.and_eq_true, beq_iff_eq]
        rintro ⟨⟨rfl, rfl⟩, _⟩
        omega
      · intro p' k' q' req' e' hk' he' hq'
        rw [hR'] at hk'
        have he2 : exchOf s' p' req'.ref = some e' := he'
        rw [h4, updE_apply] at he2
        rw [count_snoc]
        split at he2
        · rename_i hp
          obtain ⟨rfl, hrr⟩ := hp
          simp only [Option.some.injEq] at he2
          have hkk : k' = k := I.inj p' k' k req' req hk' hk hrr
          subst hkk
          rw [c.out p' k' q' req' e hk' (by rw [hrr]; exact he) hq']
          have hup : e'.unpacked q' = if q' = q then true else e.unpacked q' := by
            rw [← he2]
            exact Function.update_apply _ _ _ _
          rw [hup]
          by_cases hqq : q' = q
          · subst hqq
            simp [isUnpack, hu]
          · have : ¬ q = q' := fun hx => hqq hx.symm
            simp [isUnpack, hqq, this]
        · rename_i hp
          rw [c.out p' k' q' req' e' hk' he2 hq']
          have : isUnpack p' k' q' (.unpack p k q) = false := by
            by_contra hx
            simp only [isUnpack, Bool.not_eq_false, Bool.and_eq_true, beq_iff_eq] at hx
            obtain ⟨⟨rfl, rfl⟩, _⟩ := hx
            rw [hk] at hk'
            cases hk'
            exact hp ⟨rfl, rfl⟩
          rw [this]
          rfl
      · intro p' k' q' hk' hq'
        rw [hR'] at hk'
        rw [count_snoc, c.done p' k' q' hk' hq', if_neg]
        simp only [isUnpack, Bool.and_eq_true, beq_iff_eq]
        rintro ⟨⟨rfl, rfl⟩, _⟩
        rw [hk] at hk'
        simp at hk'
  | @finish ops h s s' p k run hs c =>
    obtain ⟨⟨D, I⟩, _, _⟩ := run.holds F
    obtain ⟨req, e, hk, he, hd, h1, h2, h3, h4, h5⟩ := finish_eq hs
    have hR' : ∀ p', (s'.proc p').reqs = if p' = p then ((s.proc p).reqs).set k none else (s.proc p').reqs := by
      intro p'
      have := congrFun h1 p'
      rw [Function.update_apply] at this
      exact this
    refine ⟨?_, ?_, ?_⟩
    · intro p' k' q' hk'
      rw [count_snoc, c.new p' k' q']
      · rfl
      · rw [hR'] at hk'
        split at hk'
        · rename_i hp; subst hp; rw [List.length_set] at hk'; exact hk'
        · exact hk'
    · intro p' k' q' req' e' hk' he' hq'
      have he2 : exchOf s' p' req'.ref = some e' := he'
      rw [h4, updE_apply] at he2
      have hk2 : (s.proc p').reqs[k']? = some (some req') ∧ ¬ (p' = p ∧ k' = k) := by
        rw [hR'] at hk'
        split at hk'
        · rename_i hp
          subst hp
          rw [List.getElem?_set] at hk'
          split at hk'
          · split at hk' <;> simp at hk'
          · rename_i hne
            exact ⟨hk', fun hx => hne hx.2.symm⟩
        · rename_i hp
          exact ⟨hk', fun hx => hp hx.1⟩
      rw [count_snoc]
      split at he2
      · rename_i hp
        obtain ⟨rfl, hrr⟩ := hp
        exact absurd ⟨rfl, I.inj p' k' k req' req hk2.1 hk hrr⟩ hk2.2
      · rw [c.out p' k' q' req' e' hk2.1 he2 hq']
        rfl
    · intro p' k' q' hk' hq'
      rw [count_snoc]
      rw [hR'] at hk'
      split at hk'
      · rename_i hp
        subst hp
        rw [List.getElem?_set] at hk'
        split at hk'
        · rename_i hkk
          subst hkk
          rw [c.out p' k q' req e hk he hq', (hd q' hq').2]
          rfl
        · rw [c.done p' k' q' hk' hq']
          rfl
      · rw [c.done p' k' q' hk' hq']
        rfl

/-- **C131** (once).  When an exchange is complete on a process, what each neighbour sent for it was unpacked exactly
once there, also if it was waited for together with others. -/
theorem C131_once (F : Fit maps) (hr : Run maps ty prog ops h s) {p k : Nat}
    (hk : (s.proc p).reqs[k]? = some none) : ∀ q ∈ (maps p).nbrs, ops.countP (isUnpack p k q) = 1 :=
  fun q hq => (hr.counts F).done p k q hk hq

/-- **C131** (at most once, while in progress).  -/
theorem C131_at_most_once (F : Fit maps) (hr : Run maps ty prog ops h s) (p k q : Nat) (hq : q ∈ (maps p).nbrs) :
    ops.countP (isUnpack p k q) ≤ 1 := by
  have c := hr.counts F
  obtain ⟨⟨D, I⟩, _, _⟩ := hr.holds F
  by_cases hk : k < (s.proc p).reqs.length
  · have hg := List.getElem?_eq_getElem hk
    cases hx : (s.proc p).reqs[k] with
    | none =>
      rw [hx] at hg
      rw [c.done p k q hg hq]
    | some req =>
      rw [hx] at hg
      obtain ⟨_, _, e, he, _⟩ := I.out p k req hg
      rw [c.out p k q req e hg he hq]
      split <;> omega
  · rw [c.new p k q (by omega)]
    omega

/-! ### Exchanges complete -/

/-- Nothing is undone from `s` to `s'`, and no exchange is started or finished. -/
structure Later (s s' : State) : Prop where
  reqs : ∀ p, (s'.proc p).reqs = (s.proc p).reqs
  exch : ∀ (p : Nat) (r : Ref) (e : Exch), (s.proc p).exch r = some e → ∃ e', (s'.proc p).exch r = some e' ∧
    ∀ q, (e.sendDone q = true → e'.sendDone q = true) ∧ (e.recvDone q = true → e'.recvDone q = true) ∧
      (e.unpacked q = true → e'.unpacked q = true)

theorem Later.refl (s : State) : Later s s := ⟨fun _ => rfl, fun _ _ e he => ⟨e, he, fun _ => ⟨id, id, id⟩⟩⟩

theorem Later.trans {a b c : State} (h1 : Later a b) (h2 : Later b c) : Later a c := by
  refine ⟨fun p => (h2.reqs p).trans (h1.reqs p), ?_⟩
  intro p r e he
  obtain ⟨e1, he1, hq1⟩ := h1.exch p r e he
  obtain ⟨e2, he2, hq2⟩ := h2.exch p r e1 he1
  exact ⟨e2, he2, fun q => ⟨fun hx => (hq2 q).1 ((hq1 q).1 hx), fun hx => (hq2 q).2.1 ((hq1 q).2.1 hx),
    fun hx => (hq2 q).2.2 ((hq1 q).2.2 hx)⟩⟩

theorem later_updE {s s' : State} {p : Nat} {r : Ref} {e e' : Exch} (he : (s.proc p).exch r = some e)
    (hR : reqsOf s' = reqsOf s) (hE : exchOf s' = updE (exchOf s) p r e')
    (hq : ∀ q, (e.sendDone q = true → e'.sendDone q = true) ∧ (e.recvDone q = true → e'.recvDone q = true) ∧
      (e.unpacked q = true → e'.unpacked q = true)) : Later s s' := by
  refine ⟨fun p' => congrFun hR p', ?_⟩
  intro p' r' e0 he0
  have hx : exchOf s' p' r' = if p' = p ∧ r' = r then some e' else exchOf s p' r' := by rw [hE, updE_apply]
  by_cases hp : p' = p ∧ r' = r
  · rw [if_pos hp] at hx
    obtain ⟨rfl, rfl⟩ := hp
    rw [he] at he0
    cases he0
    exact ⟨e', hx, hq⟩
  · rw [if_neg hp] at hx
    exact ⟨e0, hx.trans he0, fun _ => ⟨id, id, id⟩⟩

theorem later_net {o : Op} (hn : Net o) (hs : step maps ty s o = some s') : Later s s' := by
  have hup : ∀ (f : Nat → Bool) (a b : Nat), f b = true → Function.update f a true b = true := by
    intro f a b hb
    rw [Function.update_apply]
    split
    · rfl
    · exact hb
  cases o with
  | start => exact absurd hn (by simp [Net])
  | write => exact absurd hn (by simp [Net])
  | finish => exact absurd hn (by simp [Net])
  | buffer q p i =>
    obtain ⟨r, e, hm, he, h1, h2, h3, h4, h5⟩ := buffer_eq hs
    exact later_updE he h1 h4 (fun q' => ⟨hup _ _ _, id, id⟩)
  | deliver q p =>
    obtain ⟨r0, d, ms, r, rs, e, hc, hp, he, h1, h2, h3, h4, h5⟩ := deliver_eq hs
    exact later_updE he h1 h4 (fun q' => ⟨id, hup _ _ _, id⟩)
  | unpack p k q =>
    obtain ⟨req, e, hk, he, hnb, hd, hu, h1, h2, h3, h3', h4, h5⟩ := unpack_eq hs
    exact later_updE he h1 h4 (fun q' => ⟨id, id, hup _ _ _⟩)

/-- `s'` can be reached from `s` by what MPI and waiting functions do by themselves. -/
def Reach (maps : Nat → HaloMap) (ty : Nat → Ty) (prog : Nat → Nat) (ops : List Op) (h : Nat → Nat → Nat → Value)
    (s : State) (G : State → Prop) : Prop :=
  ∃ ops' s', (∀ o ∈ ops', Net o) ∧ Run maps ty prog (ops ++ ops') h s' ∧ Later s s' ∧ G s'

theorem Reach.here {G : State → Prop} (hr : Run maps ty prog ops h s) (hg : G s) : Reach maps ty prog ops h s G :=
  ⟨[], s, by simp, by rw [List.append_nil]; exact hr, Later.refl s, hg⟩

theorem Reach.bind {G G' : State → Prop} (hx : Reach maps ty prog ops h s G)
    (hy : ∀ ops' s', Run maps ty prog ops' h s' → Later s s' → G s' → Reach maps ty prog ops' h s' G') :
    Reach maps ty prog ops h s G' := by
  obtain ⟨o1, s1, a1, a2, a3, a4⟩ := hx
  obtain ⟨o2, s2, b1, b2, b3, b4⟩ := hy _ _ a2 a3 a4
  refine ⟨o1 ++ o2, s2, ?_, by rw [← List.append_assoc]; exact b2, a3.trans b3, b4⟩
  intro o ho
  rcases List.mem_append.1 ho with hx | hx
  · exact a1 o hx
  · exact b1 o hx

theorem Reach.step {G : State → Prop} (hr : Run maps ty prog ops h s) {o : Op} (hn : Net o)
    (hs : step maps ty s o = some s') (hg : G s') : Reach maps ty prog ops h s G :=
  ⟨[o], s', by simpa using hn, hr.net o hn hs, later_net hn hs, hg⟩

theorem buffer_enabled (F : Fit maps) (hr : Run maps ty prog ops h s) {q p i : Nat} {r : Ref}
    (hm : (s.chan q p)[i]? = some ⟨r, none⟩) : ∃ s', step maps ty s (.buffer q p i) = some s' := by
  obtain ⟨⟨D, I⟩, _, _⟩ := hr.holds F
  obtain ⟨req, _, _, e, he, _⟩ := I.chanNone q p i r hm
  have he' : (s.proc q).exch r = some e := he
  simp only [HaloPool.step, buffer, hm, he']
  exact ⟨_, rfl⟩

/-- The next message can always arrive. -/
theorem deliver_enabled (F : Fit maps) (hr : Run maps ty prog ops h s) {q p : Nat} {r0 r : Ref} {d : List Nat}
    {ms : List Msg} {rs : List Ref} (hc : s.chan q p = ⟨r0, some d⟩ :: ms) (hP : (s.proc p).posted q = r :: rs) :
    ∃ s', step maps ty s (.deliver q p) = some s' := by
  obtain ⟨⟨D, I⟩, _, _⟩ := hr.holds F
  obtain ⟨req, hk, hrr⟩ := I.post p q 0 r (by
    show ((s.proc p).posted q)[0]? = some r
    rw [hP]; rfl)
  obtain ⟨_, _, e, he, _⟩ := I.out p _ req hk
  rw [hrr] at he
  have hnb : q ∈ (maps p).nbrs := by
    by_contra hx
    have : (s.proc p).posted q = [] := I.postNil p q hx
    rw [this] at hP
    simp at hP
  have hd := I.chanData q p 0 r0 d (by rw [hc]; rfl)
  have hlen : d.length = ((maps p).recv q).length := by
    rw [hd, pack, List.length_map, F.len p q hnb]
  have hpr : ∀ x : Proc, ((s.setChan q p ms).setProc p x).proc p = x := by
    intro x
    unfold State.setProc
    exact Function.update_self _ _ _
  have he' : (⟨((s.setChan q p ms).proc p).pool, ((s.setChan q p ms).proc p).reqs,
      ((s.setChan q p ms).proc p).fields,
      Function.update ((s.setChan q p ms).proc p).posted q rs⟩ : Proc).exch r = some e := he
  simp only [HaloPool.step, deliver, hc, hP, arrive, hpr, he', hlen, if_true]
  exact ⟨_, rfl⟩

/-- The state of request `k` of `p` towards neighbour `q`. -/
def Is (p k _q : Nat) (G : Exch → Prop) (s : State) : Prop :=
  ∃ req e, (s.proc p).reqs[k]? = some (some req) ∧ (s.proc p).exch req.ref = some e ∧ G e

theorem reach_recv (F : Fit maps) {p k q : Nat} (hnb : q ∈ (maps p).nbrs) :
    ∀ (n : Nat) (ops : List Op) (s : State), Run maps ty prog ops h s →
      (∃ req, (s.proc p).reqs[k]? = some (some req)) → k < (s.proc q).reqs.length →
      (s.chan q p).length ≤ n → Reach maps ty prog ops h s (Is p k q fun e => e.recvDone q = true) := by
  intro n
  induction n with
  | zero =>
    intro ops s hr ⟨req, hk⟩ hq hl
    obtain ⟨⟨D, I⟩, _, _⟩ := hr.holds F
    obtain ⟨_, _, e, he, _, hx⟩ := I.out p k req hk
    refine Reach.here hr ⟨req, e, hk, he, ?_⟩
    have := I.chanLen q p (F.sym p q hnb)
    unfold reqsOf at this
    exact (hx q hnb).1.2 (by omega)
  | succ n ih =>
    intro ops s hr ⟨req, hk⟩ hq hl
    obtain ⟨⟨D, I⟩, _, _⟩ := hr.holds F
    obtain ⟨_, _, e, he, _, hx⟩ := I.out p k req hk
    by_cases hD : k < D q p
    · exact Reach.here hr ⟨req, e, hk, he, (hx q hnb).1.2 hD⟩
    · have hcl := I.chanLen q p (F.sym p q hnb)
      have hpl := I.postLen p q hnb
      unfold reqsOf at hcl hpl
      unfold postOf at hpl
      have hkl : k < (s.proc p).reqs.length := by
        by_contra hc
        rw [List.getElem?_eq_none (by omega)] at hk
        simp at hk
      -- the first message is copied
      have hbuf : Reach maps ty prog ops h s fun s' => (s'.chan q p).length = (s.chan q p).length ∧
          (s'.proc p).posted q = (s.proc p).posted q ∧ ∃ r d ms, s'.chan q p = ⟨r, some d⟩ :: ms := by
        cases hc : s.chan q p with
        | nil => rw [hc] at hcl; simp at hcl; omega
        | cons m ms =>
          obtain ⟨r, data⟩ := m
          cases data with
          | some d => exact Reach.here hr ⟨by rw [hc], rfl, r, d, ms, hc⟩
          | none =>
            have hm : (s.chan q p)[0]? = some ⟨r, none⟩ := by rw [hc]; rfl
            obtain ⟨s1, hs1⟩ := buffer_enabled F hr hm
            obtain ⟨r1, e1, hm1, _, _, h2, _, _, h5⟩ := buffer_eq hs1
            refine Reach.step hr (o := .buffer q p 0) trivial hs1 ⟨?_, ?_, ?_⟩
            · rw [h5, upd2_apply, if_pos ⟨rfl, rfl⟩, List.length_set, hc]
            · exact congrFun (congrFun h2 p) q
            · refine ⟨r1, e1.sendBuf p, ms, ?_⟩
              rw [h5, upd2_apply, if_pos ⟨rfl, rfl⟩, hc]
              rfl
      refine hbuf.bind ?_
      rintro ops1 s1 hr1 hL1 ⟨hl1, hp1, r, d, ms, hc1⟩
      cases hP : (s1.proc p).posted q with
      | nil => rw [hp1] at hP; rw [hP] at hpl; simp at hpl; omega
      | cons r' rs =>
        obtain ⟨s2, hs2⟩ := deliver_enabled F hr1 hc1 hP
        refine (Reach.step hr1 (o := .deliver q p) trivial hs2 (G := fun s => (s.chan q p).length ≤ n) ?_).bind ?_
        · obtain ⟨_, _, ms', _, _, _, hc', _, _, _, _, _, _, h5⟩ := deliver_eq hs2
          rw [h5, upd2_apply, if_pos ⟨rfl, rfl⟩]
          rw [hc'] at hl1
          rw [List.length_cons] at hl1
          omega
        · intro ops2 s3 hr3 hL3 hl3
          refine ih ops2 s3 hr3 ⟨req, ?_⟩ ?_ hl3
          · rw [hL3.reqs, hL1.reqs]; exact hk
          · rw [hL3.reqs, hL1.reqs]; exact hq

theorem Is.later {p k q : Nat} {G : Exch → Prop} {s s' : State} (hi : Is p k q G s) (hl : Later s s')
    (hG : ∀ e e' : Exch, G e → (∀ q, (e.sendDone q = true → e'.sendDone q = true) ∧
      (e.recvDone q = true → e'.recvDone q = true) ∧ (e.unpacked q = true → e'.unpacked q = true)) → G e') :
    Is p k q G s' := by
  obtain ⟨req, e, hk, he, hg⟩ := hi
  obtain ⟨e', he', hq⟩ := hl.exch p req.ref e he
  exact ⟨req, e', by rw [hl.reqs]; exact hk, he', hG e e' hg hq⟩

theorem reach_one (F : Fit maps) (hr : Run maps ty prog ops h s) {p k q : Nat} (hnb : q ∈ (maps p).nbrs)
    (hk : ∃ req, (s.proc p).reqs[k]? = some (some req)) (hq : k < (s.proc q).reqs.length) :
    Reach maps ty prog ops h s (Is p k q fun e => e.sendDone q = true ∧ e.unpacked q = true) := by
  refine (reach_recv F hnb _ ops s hr hk hq (Nat.le_refl _)).bind ?_
  intro ops1 s1 hr1 _ hi1
  -- unpacked
  have hu : Reach maps ty prog ops1 h s1 (Is p k q fun e => e.unpacked q = true) := by
    obtain ⟨req, e, hk1, he1, hd1⟩ := hi1
    by_cases hun : e.unpacked q = true
    · exact Reach.here hr1 ⟨req, e, hk1, he1, hun⟩
    · have hstep : ∃ s2, step maps ty s1 (.unpack p k q) = some s2 := by
        simp only [HaloPool.step, unpack, hk1, he1]
        rw [if_pos ⟨hnb, hd1, by simpa using hun⟩]
        exact ⟨_, rfl⟩
      obtain ⟨s2, hs2⟩ := hstep
      refine Reach.step hr1 (o := .unpack p k q) trivial hs2 ?_
      obtain ⟨req', e', hk', he', _, _, _, h1, _, _, _, h4, _⟩ := unpack_eq hs2
      refine ⟨req', { e' with unpacked := Function.update e'.unpacked q true }, ?_, ?_, Function.update_self _ _ _⟩
      · have := congrFun h1 p
        unfold reqsOf at this
        rw [this]; exact hk'
      · have : exchOf s2 p req'.ref = _ := congrFun (congrFun h4 p) req'.ref
        rw [updE_pos (exchOf s1) p req'.ref _ req'.ref rfl] at this
        exact this
  refine hu.bind ?_
  rintro ops2 s2 hr2 _ ⟨req, e, hk2, he2, hu2⟩
  by_cases hsd : e.sendDone q = true
  · exact Reach.here hr2 ⟨req, e, hk2, he2, hsd, hu2⟩
  · obtain ⟨⟨D, I⟩, _, _⟩ := hr2.holds F
    obtain ⟨_, _, e', he', _, hx⟩ := I.out p k req hk2
    have hee : e' = e := by
      have : some e' = some e := he'.symm.trans he2
      simpa using this
    subst hee
    obtain ⟨i, hi1, hi2⟩ := (hx q hnb).2.2.2.2 (by simpa using hsd)
    obtain ⟨s3, hs3⟩ := buffer_enabled F hr2 hi2
    refine Reach.step hr2 (o := .buffer p q i) trivial hs3 ?_
    obtain ⟨r, e3, hm, he3, h1, _, _, h4, _⟩ := buffer_eq hs3
    rw [hi2] at hm
    simp only [Option.some.injEq, Msg.mk.injEq, and_true] at hm
    subst hm
    rw [he2] at he3
    cases he3
    refine ⟨req, { e' with sendDone := Function.update e'.sendDone q true }, ?_, ?_, Function.update_self _ _ _, hu2⟩
    · have := congrFun h1 p
      unfold reqsOf at this
      rw [this]; exact hk2
    · have : exchOf s3 p req.ref = _ := congrFun (congrFun h4 p) req.ref
      rw [updE_pos (exchOf s2) p req.ref _ req.ref rfl] at this
      exact this

theorem reach_all (F : Fit maps) {p k : Nat} :
    ∀ (l : List Nat), l ⊆ (maps p).nbrs → ∀ (ops : List Op) (s : State), Run maps ty prog ops h s →
      (∃ req, (s.proc p).reqs[k]? = some (some req)) → (∀ q ∈ (maps p).nbrs, k < (s.proc q).reqs.length) →
      Reach maps ty prog ops h s fun s' => ∀ q ∈ l, Is p k q (fun e => e.sendDone q = true ∧ e.unpacked q = true) s' := by
  intro l
  induction l with
  | nil => intro _ ops s hr _ _; exact Reach.here hr (by simp)
  | cons a l ih =>
    intro hsub ops s hr hk hq
    refine (ih (fun x hx => hsub (List.mem_cons_of_mem _ hx)) ops s hr hk hq).bind ?_
    intro ops1 s1 hr1 hL1 hg
    have ha : a ∈ (maps p).nbrs := hsub List.mem_cons_self
    have h1 := reach_one F hr1 (k := k) ha (by rw [hL1.reqs]; exact hk) (by rw [hL1.reqs]; exact hq a ha)
    obtain ⟨o2, s2, b1, b2, b3, b4⟩ := h1
    refine ⟨o2, s2, b1, b2, b3, ?_⟩
    intro q hqm
    rcases List.mem_cons.1 hqm with hx | hx
    · subst hx; exact b4
    · exact (hg q hx).later b3 (fun e e' hG hm => ⟨(hm q).1 hG.1, (hm q).2.2 hG.2⟩)

/-- **C131** (progress).  An exchange that a process and all its neighbours have started completes: in every state, what
MPI and the waiting functions do by themselves leads to a state in which the wait returns; no further start, and no wait of
another process, is needed. -/
theorem C131_progress (F : Fit maps) (hr : Run maps ty prog ops h s) {p k : Nat} {req : Req}
    (hk : (s.proc p).reqs[k]? = some (some req)) (hq : ∀ q ∈ (maps p).nbrs, k < (s.proc q).reqs.length) :
    ∃ ops' s' s'', (∀ o ∈ ops', Net o) ∧ Run maps ty prog (ops ++ ops') h s' ∧
      step maps ty s' (.finish p k) = some s'' := by
  obtain ⟨o, s1, h1, h2, h3, h4⟩ := reach_all F (maps p).nbrs (fun _ hx => hx) ops s hr ⟨req, hk⟩ hq
  have hk1 : (s1.proc p).reqs[k]? = some (some req) := by rw [h3.reqs]; exact hk
  obtain ⟨⟨D, I⟩, _, _⟩ := h2.holds F
  obtain ⟨_, _, e, he, _⟩ := I.out p k req hk1
  have he' : (s1.proc p).exch req.ref = some e := he
  have hall : ∀ q ∈ (maps p).nbrs, e.sendDone q = true ∧ e.unpacked q = true := by
    intro q hqm
    obtain ⟨req', e', hk', he'', hg⟩ := h4 q hqm
    rw [hk1] at hk'
    cases hk'
    rw [he'] at he''
    cases he''
    exact hg
  have hfin : ∃ s'', step maps ty s1 (.finish p k) = some s'' := by
    simp only [HaloPool.step, finish, hk1, he']
    rw [if_pos hall]
    exact ⟨_, rfl⟩
  obtain ⟨s'', hs''⟩ := hfin
  exact ⟨o, s1, s'', h1, h2, hs''⟩

/-! ### Points a process has twice -/

/-- **C131** (local points).  When an exchange is started, points the process has twice get the value of the other point
at once; nothing else changes. -/
theorem C131_local {p f : Nat} (hs : step maps ty s (.start p f) = some s')
    (hnd : ((maps p).localPairs.map Prod.snd).Nodup)
    (hdisj : ∀ a ∈ (maps p).localPairs, a.1 ∉ (maps p).localPairs.map Prod.snd) :
    (∀ a ∈ (maps p).localPairs, (s'.proc p).fields f a.2 = (s.proc p).fields f a.1) ∧
    (∀ i, i ∉ (maps p).localPairs.map Prod.snd → (s'.proc p).fields f i = (s.proc p).fields f i) ∧
    (∀ f', f' ≠ f → (s'.proc p).fields f' = (s.proc p).fields f') ∧
    (∀ p', p' ≠ p → (s'.proc p').fields = (s.proc p').fields) := by
  have key : ∀ (l : List (Nat × Nat)) (g : Nat → Value), (l.map Prod.snd).Nodup →
      (∀ a ∈ l, a.1 ∉ l.map Prod.snd) →
      (∀ a ∈ l, copyLocal l g a.2 = g a.1) ∧ (∀ i, i ∉ l.map Prod.snd → copyLocal l g i = g i) := by
    intro l
    induction l with
    | nil => intro g _ _; exact ⟨by simp, fun _ _ => rfl⟩
    | cons b l ih =>
      intro g hn hd
      rw [List.map_cons, List.nodup_cons] at hn
      obtain ⟨h1, h2⟩ := ih (Function.update g b.2 (g b.1)) hn.2 (fun a ha hc => hd a (List.mem_cons_of_mem _ ha)
        (List.mem_cons_of_mem _ hc))
      constructor
      · intro a ha
        unfold copyLocal
        rw [List.foldl_cons]
        rcases List.mem_cons.1 ha with hx | hx
        · subst hx
          exact (h2 a.2 hn.1).trans (Function.update_self _ _ _)
        · refine (h1 a hx).trans (Function.update_of_ne ?_ _ _)
          intro hc
          exact hd a ha (by rw [hc]; exact List.mem_cons_self)
      · intro i hi
        rw [List.map_cons, List.mem_cons, not_or] at hi
        unfold copyLocal
        rw [List.foldl_cons]
        exact (h2 i hi.2).trans (Function.update_of_ne hi.1 _ _)
  simp only [HaloPool.step, Option.some.injEq] at hs
  subst hs
  obtain ⟨h1, h2⟩ := key _ ((s.proc p).fields f) hnd hdisj
  have hfields : ((HaloPool.start maps p f (ty f) s).proc p).fields =
      Function.update (s.proc p).fields f (copyLocal (maps p).localPairs ((s.proc p).fields f)) := by
    unfold HaloPool.start
    dsimp only
    rw [Function.update_self]
  refine ⟨?_, ?_, ?_, ?_⟩
  · intro a ha
    rw [hfields, Function.update_self]
    exact h1 a ha
  · intro i hi
    rw [hfields, Function.update_self]
    exact h2 i hi
  · intro f' hf'
    rw [hfields, Function.update_of_ne hf']
  · intro p' hp'
    unfold HaloPool.start
    dsimp only
    rw [Function.update_of_ne hp']

end

/-! ### Examples

Two processes with three points each: the first one is sent, the second received, the third is the first once more.
Fields 0 and 2 have numbers, field 1 has `bool`s. -/

namespace Example

def maps (p : Nat) : HaloMap :=
  if p ≤ 1 then ⟨[1 - p], fun _ => [0], fun _ => [1], [(0, 2)]⟩ else ⟨[], fun _ => [], fun _ => [], []⟩

def ty (f : Nat) : Ty := if f = 1 then .bool else .double

/-- The exchanges: fields 0, 2, 1, 0, ... -/
def prog (k : Nat) : Nat := if k = 1 then 2 else if k = 2 then 1 else 0

def fields (p f i : Nat) : Value := if f = 1 then .bool (p = 1) else .num (100 * p + 10 * f + i)

theorem fit : Fit maps := by
  have hm : ∀ p q : Nat, q ∈ (maps p).nbrs → p ≤ 1 ∧ q = 1 - p := by
    intro p q hq
    unfold maps at hq
    split at hq
    · simp at hq; exact ⟨by omega, hq⟩
    · simp at hq
  refine ⟨?_, ?_, ?_⟩
  · intro p q hq
    obtain ⟨h1, rfl⟩ := hm p q hq
    unfold maps
    rw [if_pos (by omega)]
    simp; omega
  · intro p q hq
    obtain ⟨h1, rfl⟩ := hm p q hq
    unfold maps
    rw [if_pos (by omega), if_pos h1]
    rfl
  · intro p q hq
    obtain ⟨h1, rfl⟩ := hm p q hq
    unfold maps
    rw [if_pos h1]
    simp

/-- Runs operations other than writes. -/
def exec : List Op → (Nat → Nat → Nat → Value) → State → Option ((Nat → Nat → Nat → Value) × State)
  | [], h, s => some (h, s)
  | .start p f :: os, h, s =>
    if prog (s.proc p).reqs.length = f then
      exec os (fun p' k' => if p' = p ∧ k' = (s.proc p).reqs.length then (s.proc p).fields f else h p' k')
        (HaloPool.start maps p f (ty f) s)
    else none
  | .write _ _ _ :: _, _, _ => none
  | .buffer q p i :: os, h, s => (HaloPool.buffer q p i s).bind fun s' => exec os h s'
  | .deliver q p :: os, h, s => (HaloPool.deliver maps q p s).bind fun s' => exec os h s'
  | .unpack p k q :: os, h, s => (HaloPool.unpack maps p k q s).bind fun s' => exec os h s'
  | .finish p k :: os, h, s => (HaloPool.finish maps p k s).bind fun s' => exec os h s'

theorem exec_run : ∀ (os ops : List Op) (h : Nat → Nat → Nat → Value) (s : State)
    (r : (Nat → Nat → Nat → Value) × State), Run maps ty prog ops h s → exec os h s = some r →
    Run maps ty prog (ops ++ os) r.1 r.2 := by
  intro os
  induction os with
  | nil =>
    intro ops h s r hr he
    simp only [exec, Option.some.injEq] at he
    subst he
    rw [List.append_nil]
    exact hr
  | cons o os ih =>
    intro ops h s r hr he
    have hcons : ops ++ o :: os = (ops ++ [o]) ++ os := by simp
    rw [hcons]
    cases o with
    | start p f =>
      simp only [exec] at he
      split at he
      · rename_i hf
        exact ih _ _ _ r (hr.start p _ f rfl hf rfl) he
      · simp at he
    | write => simp [exec] at he
    | buffer q p i =>
      obtain ⟨s', h1, h2⟩ := Option.bind_eq_some_iff.1 he
      exact ih _ _ _ r (hr.net _ trivial h1) h2
    | deliver q p =>
      obtain ⟨s', h1, h2⟩ := Option.bind_eq_some_iff.1 he
      exact ih _ _ _ r (hr.net _ trivial h1) h2
    | unpack p k q =>
      obtain ⟨s', h1, h2⟩ := Option.bind_eq_some_iff.1 he
      exact ih _ _ _ r (hr.net _ trivial h1) h2
    | finish p k =>
      obtain ⟨s', h1, h2⟩ := Option.bind_eq_some_iff.1 he
      exact ih _ _ _ r (hr.finish p k h1) h2

theorem run_init : Run maps ty prog [] (fun _ _ _ => .num 0) (State.init fields) := by
  refine Run.init fields _ ?_
  intro p f i
  unfold fields ty
  split
  · rfl
  · rename_i hf
    exact fun hc => absurd hc (by simp)

/-- Process 0 starts three exchanges before process 1 starts any; the second of them completes first, then a fourth takes
its exchanger. -/
def ops : List Op :=
  [.start 0 0, .start 0 2, .start 0 1, .start 1 0, .start 1 2, .buffer 0 1 1, .buffer 1 0 0, .deliver 1 0,
   .buffer 1 0 0, .deliver 1 0, .unpack 0 1 1, .finish 0 1, .start 1 1, .start 0 0, .unpack 0 0 1, .buffer 1 0 0,
   .deliver 1 0, .unpack 0 2 1]

/-- Process 0 has the values of process 1 in all three fields, the two exchangers for numbers are used by exchanges 0
and 3, and the one for `bool`s by exchange 2. -/
example : ∃ h s, Run maps ty prog ops h s ∧
    ((s.proc 0).fields 0 1, (s.proc 0).fields 2 1, (s.proc 0).fields 1 1) = (.num 100, .num 120, .bool true) ∧
    (s.proc 0).reqs = [some ⟨⟨.double, 0⟩, 0⟩, none, some ⟨⟨.bool, 0⟩, 1⟩, some ⟨⟨.double, 1⟩, 0⟩] ∧
    (s.proc 0).fields 0 2 = .num 0 ∧ ((s.proc 0).pool .double).length = 2 := by
  have he : (exec ops (fun _ _ _ => .num 0) (State.init fields)).map (fun r =>
      (((r.2.proc 0).fields 0 1, (r.2.proc 0).fields 2 1, (r.2.proc 0).fields 1 1), (r.2.proc 0).reqs,
        (r.2.proc 0).fields 0 2, ((r.2.proc 0).pool .double).length)) =
      some ((.num 100, .num 120, .bool true),
        [some ⟨⟨.double, 0⟩, 0⟩, none, some ⟨⟨.bool, 0⟩, 1⟩, some ⟨⟨.double, 1⟩, 0⟩], .num 0, 2) := by
    decide +kernel
  obtain ⟨r, h1, h2⟩ := Option.map_eq_some_iff.1 he
  simp only [Prod.mk.injEq] at h2
  obtain ⟨⟨a1, a2, a3⟩, a4, a5, a6⟩ := h2
  refine ⟨r.1, r.2, exec_run ops [] _ _ r run_init h1, ?_, a4, a5, a6⟩
  rw [a1, a2, a3]

/-- A process cannot finish an exchange its neighbour has not started. -/
example : (exec [.start 0 0, .start 0 2, .buffer 0 1 0, .buffer 0 1 1, .deliver 1 0] (fun _ _ _ => .num 0)
    (State.init fields)).isNone = true := by
  decide +kernel

end Example

end Ovk.HaloPool
