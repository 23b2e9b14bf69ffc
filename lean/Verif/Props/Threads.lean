/-
Property C98: interpolation with threads.
-/
import Verif.Model.Threads
import Verif.Props.Collect

set_option linter.unusedSectionVars false

namespace Ovk
variable {d n : Nat} {V : Type}

namespace Spec
/-- No location is written by one thread and read or written by another: there is no synchronisation between the
threads, so that this is what absence of data races means. -/
def RaceFree {T : Nat} (prog : Fin T → List (Thr.Instr V)) : Prop :=
  ∀ t t', t ≠ t' → ∀ i ∈ prog t, ∀ j ∈ prog t', i.target ≠ j.target ∧ i.target ∉ j.reads

/-- What `omp for` guarantees: every iteration is done once, by one thread. -/
structure Divided {T : Nat} (share : Fin T → List Nat) (num : Nat) : Prop where
  nodup : ∀ t, (share t).Nodup
  lt : ∀ t, ∀ k ∈ share t, k < num
  some : ∀ k, k < num → ∃ t, k ∈ share t
  one : ∀ t t' k, k ∈ share t → k ∈ share t' → t = t'
end Spec

namespace Thr

/-- One thread by itself. -/
def exec : List (Instr V) → Mem V → Option (Mem V)
  | [], m => some m
  | i :: l, m => (i.val (i.reads.map m)).bind fun v => exec l (m.set i.target v)

theorem exec_append (l l' : List (Instr V)) (m : Mem V) :
    exec (l ++ l') m = (exec l m).bind fun m' => exec l' m' := by
  induction l generalizing m with
  | nil => rfl
  | cons i l ih =>
    simp only [List.cons_append, exec]
    cases i.val (i.reads.map m) with
    | none => rfl
    | some v => exact ih _

theorem exec_other (l : List (Instr V)) (m m' : Mem V) (h : exec l m = some m') (x : Loc)
    (hx : ∀ i ∈ l, i.target ≠ x) : m' x = m x := by
  induction l generalizing m with
  | nil => rw [show m = m' from Option.some.inj h]
  | cons i l ih =>
    rw [exec, Option.bind_eq_some_iff] at h
    obtain ⟨v, -, h⟩ := h
    rw [ih _ h fun j hj => hx j (List.mem_cons_of_mem _ hj), Mem.set, if_neg]
    exact fun e => hx i List.mem_cons_self e.symm

/-- What other threads do not write is as if the thread had been alone. -/
theorem run_inv {T : Nat} (prog : Fin T → List (Instr V)) (m : Mem V) (hr : Spec.RaceFree prog)
    (he : ∀ t, ∃ m', exec (prog t) m = some m') (es : List (Fin T)) (x y : State T V) (hx : run x es = some y)
    (hb : x.bad = false)
    (hi : ∀ t, ∃ done m', prog t = done ++ x.rest t ∧ exec done m = some m' ∧
      ∀ l, (∀ t', t' ≠ t → ∀ j ∈ prog t', j.target ≠ l) → x.mem l = m' l) :
    y.bad = false ∧ ∀ t, ∃ done m', prog t = done ++ y.rest t ∧ exec done m = some m' ∧
      ∀ l, (∀ t', t' ≠ t → ∀ j ∈ prog t', j.target ≠ l) → y.mem l = m' l := by
  induction es generalizing x with
  | nil =>
    rw [show x = y from Option.some.inj hx] at hb hi
    exact ⟨hb, hi⟩
  | cons t es ih =>
    rw [run, Option.bind_eq_some_iff] at hx
    obtain ⟨z, hz, hx⟩ := hx
    unfold step at hz
    cases hl : x.rest t with
    | nil => rw [hl] at hz; cases hz
    | cons i l =>
      rw [hl] at hz
      dsimp only at hz
      obtain ⟨done, m', hd, hm, hs⟩ := hi t
      rw [hl] at hd
      have hmem : i ∈ prog t := by rw [hd]; simp
      have hreads : i.reads.map x.mem = i.reads.map m' := by
        apply List.map_congr_left
        intro a ha
        exact hs a fun t' ht' j hj e => (hr t' t ht' j hj i hmem).2 (e ▸ ha)
      obtain ⟨m'', hm''⟩ := he t
      rw [hd, exec_append, hm, Option.bind_some, exec, Option.bind_eq_some_iff] at hm''
      obtain ⟨v, hv, -⟩ := hm''
      rw [hreads, hv] at hz
      rw [← Option.some.inj hz] at hx
      refine ih _ hx hb fun t' => ?_
      by_cases h : t' = t
      · subst h
        refine ⟨done ++ [i], m'.set i.target v, ?_, ?_, ?_⟩
        · simp [hd]
        · rw [exec_append, hm, Option.bind_some, exec, hv]; rfl
        · intro a ha
          simp only [Mem.set]
          split
          · rfl
          · exact hs a ha
      · obtain ⟨done', n', hd', hn', hs'⟩ := hi t'
        refine ⟨done', n', ?_, hn', ?_⟩
        · simpa [h] using hd'
        · intro a ha
          rw [← hs' a ha]
          simp only [Mem.set]
          rw [if_neg]
          exact fun e => ha t (fun e => h e.symm) i hmem e.symm

theorem run_start {T : Nat} (prog : Fin T → List (Instr V)) (m : Mem V) (hr : Spec.RaceFree prog)
    (he : ∀ t, ∃ m', exec (prog t) m = some m') (es : List (Fin T)) (y : State T V)
    (hx : run (start prog m) es = some y) :
    y.bad = false ∧ ((∀ t, y.rest t = []) → ∀ t, ∃ m', exec (prog t) m = some m' ∧
      ∀ l, (∀ t', t' ≠ t → ∀ j ∈ prog t', j.target ≠ l) → y.mem l = m' l) := by
  obtain ⟨hb, hi⟩ := run_inv prog m hr he es _ y hx rfl fun t => ⟨[], m, rfl, rfl, fun _ _ => rfl⟩
  refine ⟨hb, fun hf t => ?_⟩
  obtain ⟨done, m', hd, hm, hs⟩ := hi t
  rw [hf t, List.append_nil] at hd
  exact ⟨m', hd ▸ hm, hs⟩

/-- The number of instructions left. -/
def left {T : Nat} (x : State T V) : Nat := ∑ t, (x.rest t).length

theorem run_left {T : Nat} (es : List (Fin T)) (x y : State T V) (h : run x es = some y) :
    es.length + left y = left x := by
  induction es generalizing x with
  | nil => rw [show x = y from Option.some.inj h]; simp
  | cons t es ih =>
    rw [run, Option.bind_eq_some_iff] at h
    obtain ⟨z, hz, h⟩ := h
    have h1 := ih _ h
    have h2 : left z + 1 = left x := by
      unfold step at hz
      cases hl : x.rest t with
      | nil => rw [hl] at hz; cases hz
      | cons i l =>
        rw [hl] at hz
        dsimp only at hz
        have hr : z.rest = fun t' => if t' = t then l else x.rest t' := by
          split at hz <;> rw [← Option.some.inj hz]
        unfold left
        rw [hr, ← Finset.add_sum_erase _ _ (Finset.mem_univ t), ← Finset.add_sum_erase _ (fun t => (x.rest t).length)
          (Finset.mem_univ t), Finset.sum_congr rfl (g := fun t => (x.rest t).length)]
        · simp only [if_true, hl, List.length_cons]; omega
        · intro b hb
          simp only [if_neg (Finset.ne_of_mem_erase hb)]
    rw [List.length_cons]; omega

/-! ### One cell -/

def setVals (m : Mem V) (t : Nat) (vv : Int → V) : Mem V
  | .values t' i => if t' = t then vv i else m (.values t' i)
  | l => m l

def setCoefs (m : Mem V) (t : Nat) (vc : Int → V) : Mem V
  | .coefs t' i => if t' = t then vc i else m (.coefs t' i)
  | l => m l

theorem setVals_self (m : Mem V) (t : Nat) : setVals m t (fun i => m (.values t i)) = m := by
  funext l
  cases l <;> simp only [setVals]
  split
  · next h => rw [h]
  · rfl

theorem setCoefs_self (m : Mem V) (t : Nat) : setCoefs m t (fun i => m (.coefs t i)) = m := by
  funext l
  cases l <;> simp only [setCoefs]
  split
  · next h => rw [h]
  · rfl

theorem setVals_set (m : Mem V) (t : Nat) (vv : Int → V) (j : Int) (v : V) :
    (setVals m t vv).set (.values t j) v = setVals m t (Halo.write vv j v) := by
  funext l
  cases l with
  | values t' i =>
    simp only [Mem.set, setVals, Halo.write, Loc.values.injEq]
    by_cases h : t' = t <;> by_cases h' : i = j <;> simp [h, h']
  | _ => simp [Mem.set, setVals]

theorem setCoefs_set (m : Mem V) (t : Nat) (vv : Int → V) (j : Int) (v : V) :
    (setCoefs m t vv).set (.coefs t j) v = setCoefs m t (Halo.write vv j v) := by
  funext l
  cases l with
  | coefs t' i =>
    simp only [Mem.set, setCoefs, Halo.write, Loc.coefs.injEq]
    by_cases h : t' = t <;> by_cases h' : i = j <;> simp [h, h']
  | _ => simp [Mem.set, setCoefs]

theorem exec_values {α : Type} (L : List α) (j : α → Int) (f : α → Option V) (m : Mem V) (t : Nat) (vv : Int → V) :
    exec (L.map fun x => (⟨.values t (j x), [], fun _ => f x⟩ : Instr V)) (setVals m t vv) =
      (L.foldlM (fun vv x => (f x).map fun v => Halo.write vv (j x) v) vv).map (setVals m t) := by
  induction L generalizing vv with
  | nil => rfl
  | cons x L ih =>
    rw [List.map_cons, exec, List.foldlM_cons]
    dsimp only
    cases f x with
    | none => rfl
    | some v =>
      rw [Option.bind_some, setVals_set, ih]; rfl

theorem exec_coefs [Mul V] [One V] (l : Indexer.Layout) (coefs : Fin d → Int → V) (t : Nat) (cell : Rng d) (m : Mem V) :
    exec (coefficients l coefs t cell) m =
      some (setCoefs m t (Coll.vertexCoefs l cell coefs fun i => m (.coefs t i))) := by
  have : ∀ (L : List (Tup d)) (vc : Int → V),
      exec (L.map fun p => (⟨.coefs t (cell.index l p), [], fun _ =>
        some ((List.finRange d).foldl (fun x i => x * coefs i (p i - cell.b i)) 1)⟩ : Instr V)) (setCoefs m t vc) =
      some (setCoefs m t (L.foldl (fun vc p => Halo.write vc (cell.index l p)
        ((List.finRange d).foldl (fun x i => x * coefs i (p i - cell.b i)) 1)) vc)) := by
    intro L
    induction L with
    | nil => intro vc; rfl
    | cons p L ih =>
      intro vc
      rw [List.map_cons, exec, Option.bind_some, setCoefs_set, ih]; rfl
  have h := this cell.points fun i => m (.coefs t i)
  rw [setCoefs_self] at h
  exact h

theorem exec_assemble (s : Coll.Setup d n) (field : Fin n → Int → V) (a : Fin n) (rs : List (Coll.Recv d n))
    (vals : List (List V)) (t k : Nat) (cell : Rng d) (m : Mem V) :
    exec (assemble s field a rs vals t k cell) m =
      (Coll.assemble s field a rs vals cell fun i => m (.values t i)).map (setVals m t) := by
  unfold assemble Coll.assemble
  have h := exec_values (Coll.part s.cart (s.loc a) cell) (fun p => cell.index s.layout p)
    (fun p => Coll.readField s field a (Coll.vertex s.cart cell p)) m t fun i => m (.values t i)
  rw [setVals_self, show List.foldlM _ _ _ = Coll.putLocal s field a cell (fun i => m (.values t i)) from rfl] at h
  rw [exec_append, h]
  cases Coll.putLocal s field a cell (fun i => m (.values t i)) with
  | none => rfl
  | some vv =>
    simp only [Option.map_some, Option.bind_some]
    split
    · have e : Coll.putRemote vals = fun (vv : Int → V) x => (remoteValue vals x).map fun v =>
          Halo.write vv (x.1 : Int) v := by
        funext vv x
        unfold Coll.putRemote remoteValue
        cases vals[x.2.1]? with
        | none => rfl
        | some xs => dsimp only; split <;> rfl
      rw [e]
      exact exec_values _ (fun x => (x.1 : Int)) (remoteValue vals) m t vv
    · rfl

theorem exec_total [Add V] [Mul V] [Zero V] (t k : Nat) (cell : Rng d) (m : Mem V) :
    exec (total t k cell) m = some (m.set (.packed k)
      (Coll.reduce (Coll.interpStep (fun _ i => m (.coefs t i)) k) 0 cell fun i => m (.values t i))) := by
  have : ∀ (L : List Nat) (x : V),
      exec (L.map fun (i : Nat) => (⟨.packed k, [.packed k, .coefs t (i : Int), .values t (i : Int)], fun
        | [x, c, v] => some (x + c * v)
        | _ => none⟩ : Instr V)) (m.set (.packed k) x) =
      some (m.set (.packed k) (L.foldl (fun acc (i : Nat) => acc + m (.coefs t (i : Int)) * m (.values t (i : Int))) x))
      := by
    intro L
    induction L with
    | nil => intro x; rfl
    | cons i L ih =>
      intro x
      rw [List.map_cons, exec]
      have e : ∀ y, (m.set (.packed k) x).set (.packed k) y = m.set (.packed k) y := by
        intro y; funext l; simp only [Mem.set]; split <;> rfl
      have h : ((m.set (.packed k) x) (.packed k)) = x := by simp [Mem.set]
      have h1 : ((m.set (.packed k) x) (.coefs t (i : Int))) = m (.coefs t (i : Int)) := by simp [Mem.set]
      have h2 : ((m.set (.packed k) x) (.values t (i : Int))) = m (.values t (i : Int)) := by simp [Mem.set]
      simp only [List.map_cons, List.map_nil, h, h1, h2, Option.bind_some, e]
      exact ih _
  rw [total, exec]
  exact this _ 0

/-- The locations a thread uses for a cell. -/
def Mine (t k : Nat) : Loc → Prop
  | .values t' _ => t' = t
  | .coefs t' _ => t' = t
  | .packed k' => k' = k
  | .count => False

theorem mine_cell [Add V] [Mul V] [Zero V] [One V] (s : Coll.Setup d n) (field : Fin n → Int → V) (a : Fin n)
    (rs : List (Coll.Recv d n)) (vals : List (List V)) (coefs : Nat → Fin d → Int → V) (t k : Nat) (cell : Rng d)
    (i : Instr V) (hi : i ∈ cellProg s field a rs vals coefs t k cell) :
    Mine t k i.target ∧ ∀ l ∈ i.reads, Mine t k l := by
  unfold cellProg assemble coefficients total at hi
  rw [List.mem_append, List.mem_append, List.mem_append] at hi
  rcases hi with ((h | h) | h) | h
  · obtain ⟨p, -, rfl⟩ := List.mem_map.1 h
    exact ⟨rfl, by simp⟩
  · split at h
    · obtain ⟨p, -, rfl⟩ := List.mem_map.1 h
      exact ⟨rfl, by simp⟩
    · rw [List.mem_singleton] at h
      subst h
      exact ⟨rfl, by simp⟩
  · obtain ⟨p, -, rfl⟩ := List.mem_map.1 h
    exact ⟨rfl, by simp⟩
  · rcases List.mem_cons.1 h with h | h
    · subst h
      exact ⟨rfl, by simp⟩
    · obtain ⟨p, -, rfl⟩ := List.mem_map.1 h
      refine ⟨rfl, ?_⟩
      intro l hl
      simp only [List.mem_cons, List.not_mem_nil, or_false] at hl
      rcases hl with rfl | rfl | rfl <;> rfl

theorem mine_thread [Add V] [Mul V] [Zero V] [One V] (s : Coll.Setup d n) (field : Fin n → Int → V) (a : Fin n)
    (rs : List (Coll.Recv d n)) (vals : List (List V)) (coefs : Nat → Fin d → Int → V) (created t : Nat)
    (ht : t < created) (share : List Nat) (i : Instr V)
    (hi : i ∈ threadProg s field a rs vals coefs created t share) :
    ∃ k ∈ share, Mine t k i.target ∧ ∀ l ∈ i.reads, Mine t k l := by
  unfold threadProg at hi
  rw [if_pos ht, List.mem_flatMap] at hi
  obtain ⟨k, hk, hi⟩ := hi
  split at hi
  · cases hi
  · exact ⟨k, hk, mine_cell _ _ _ _ _ _ _ _ _ _ hi⟩

theorem mine_apart (t t' k k' : Nat) (l : Loc) (ht : t ≠ t') (hk : k ≠ k') (h : Mine t k l) (h' : Mine t' k' l) :
    False := by
  cases l with
  | values => exact ht (h.symm.trans h')
  | coefs => exact ht (h.symm.trans h')
  | packed => exact hk (h.symm.trans h')
  | count => exact h

section
variable [CommRing V] [NeZero d] {s : Coll.Setup d n} {field : Fin n → Int → V} {G : Tup d → V}

theorem exec_cell (hg : Spec.CollectOk s) (hG : Spec.Holds s field G) (a : Fin n) {cell : Rng d}
    (hc : cell ∈ s.cells a)
    (hl : s.layout = .col ∨ ∀ v, Spec.pts cell v → Spec.pts (s.loc a) (Coll.vertex s.cart cell v))
    (coefs : Nat → Fin d → Int → V) (t k : Nat) (m : Mem V) :
    ∃ m', exec (cellProg s field a ((Coll.recvFrom s a).map (Coll.recvOf s a))
        ((Coll.recvFrom s a).map fun b => (Coll.msgPoints s b a).map G) coefs t k cell) m = some m' ∧
      m' (.packed k) = (cell.points.map fun p => (∏ i, coefs k i (p i - cell.b i)) * G p).sum := by
  obtain ⟨out, ho, hv⟩ := Coll.assemble_spec hg hG a hc (fun i => m (.values t i)) hl
  unfold cellProg
  rw [exec_append, exec_append, exec_assemble, ho, Option.map_some, Option.bind_some, exec_coefs, Option.bind_some,
    exec_total]
  refine ⟨_, rfl, ?_⟩
  have hne := hg.nonempty a cell hc
  rw [← C22_interp s.layout cell hne G coefs (fun i => m (.coefs t i)) k]
  simp only [Mem.set, if_true]
  unfold Coll.reduce Spec.reduction
  apply List.foldl_ext
  intro acc i hi
  rw [List.mem_range] at hi
  have ht := Rng.index_tuple s.layout cell ((exists_pts_iff _).1 hne) (i : Int) (by omega) (by omega)
  have hv' := hv _ ht.1
  rw [ht.2] at hv'
  unfold Coll.interpStep
  simp only [setCoefs, setVals, if_true, hv']

theorem exec_thread (hg : Spec.CollectOk s) (hG : Spec.Holds s field G) (a : Fin n)
    (hl : s.layout = .col ∨ ∀ cell ∈ s.cells a, ∀ v q, Spec.pts cell v → Spec.Stored s.cart cell v q →
      Spec.pts (s.loc a) q)
    (coefs : Nat → Fin d → Int → V) (created t : Nat) (ht : t < created) (share : List Nat) (m : Mem V) :
    ∃ m', exec (threadProg s field a ((Coll.recvFrom s a).map (Coll.recvOf s a))
        ((Coll.recvFrom s a).map fun b => (Coll.msgPoints s b a).map G) coefs created t share) m = some m' ∧
      ∀ k ∈ share, ∀ cell, (s.cells a)[k]? = some cell →
        m' (.packed k) = (cell.points.map fun p => (∏ i, coefs k i (p i - cell.b i)) * G p).sum := by
  induction share generalizing m with
  | nil => exact ⟨m, by simp [threadProg, ht, exec], by simp⟩
  | cons k share ih =>
    have e : threadProg s field a ((Coll.recvFrom s a).map (Coll.recvOf s a))
        ((Coll.recvFrom s a).map fun b => (Coll.msgPoints s b a).map G) coefs created t (k :: share) =
        (match (s.cells a)[k]? with
          | none => []
          | some cell => cellProg s field a ((Coll.recvFrom s a).map (Coll.recvOf s a))
              ((Coll.recvFrom s a).map fun b => (Coll.msgPoints s b a).map G) coefs t k cell) ++
        threadProg s field a ((Coll.recvFrom s a).map (Coll.recvOf s a))
          ((Coll.recvFrom s a).map fun b => (Coll.msgPoints s b a).map G) coefs created t share := by
      simp only [threadProg, if_pos ht, List.flatMap_cons]
      rfl
    rw [e, exec_append]
    have h1 : ∃ m1, exec (match (s.cells a)[k]? with
          | none => []
          | some cell => cellProg s field a ((Coll.recvFrom s a).map (Coll.recvOf s a))
              ((Coll.recvFrom s a).map fun b => (Coll.msgPoints s b a).map G) coefs t k cell) m = some m1 ∧
        ∀ cell, (s.cells a)[k]? = some cell →
          m1 (.packed k) = (cell.points.map fun p => (∏ i, coefs k i (p i - cell.b i)) * G p).sum := by
      cases hc : (s.cells a)[k]? with
      | none => exact ⟨m, rfl, by simp⟩
      | some cell =>
        have hm : cell ∈ s.cells a := List.mem_of_getElem? hc
        obtain ⟨m1, h1, h2⟩ := exec_cell hg hG a hm
          (hl.imp id fun h v hv => h cell hm v _ hv ((Coll.stored_iff _ hg.proper _ _ _).2 rfl)) coefs t k m
        refine ⟨m1, h1, ?_⟩
        intro c hc'
        rw [← Option.some.inj hc']
        exact h2
    obtain ⟨m1, h1, h1'⟩ := h1
    obtain ⟨m2, h2, h2'⟩ := ih m1
    rw [h1, Option.bind_some]
    refine ⟨m2, h2, ?_⟩
    intro k' hk' cell hcell
    by_cases h : k' ∈ share
    · exact h2' k' h cell hcell
    · rcases List.mem_cons.1 hk' with rfl | h'
      · rw [exec_other _ _ _ h2 (.packed k') ?_]
        · exact h1' cell hcell
        · intro i hi e
          obtain ⟨k2, hk2, hm, -⟩ := mine_thread _ _ _ _ _ _ _ _ ht _ _ hi
          rw [e] at hm
          exact h ((show k' = k2 from hm) ▸ hk2)
      · exact absurd h' h

theorem program_eq (hg : Spec.CollectOk s) (hG : Spec.Holds s field G) (a : Fin n) (coefs : Nat → Fin d → Int → V)
    (created T : Nat) (share : Fin T → List Nat) :
    program s field coefs created T share a = some fun t =>
      threadProg s field a ((Coll.recvFrom s a).map (Coll.recvOf s a))
        ((Coll.recvFrom s a).map fun b => (Coll.msgPoints s b a).map G) coefs created t.1 (share t) := by
  unfold program
  rw [Coll.recvs_eq, Option.bind_some, Coll.remoteValues_eq hg hG, Option.map_some]
end

end Thr

/-- What is expected of a parallel region that interpolates: threads do not race, no execution does anything
undefined, every execution ends, and then the value of each cell is the interpolated one. -/
def Spec.Interpolates {T : Nat} [CommRing V] (cells : List (Rng d)) (G : Tup d → V) (coefs : Nat → Fin d → Int → V)
    (prog : Fin T → List (Thr.Instr V)) : Prop :=
  Spec.RaceFree prog ∧ ∃ N, ∀ (m : Thr.Mem V) (es : List (Fin T)) (y : Thr.State T V),
    Thr.run (Thr.start prog m) es = some y →
    y.bad = false ∧ es.length ≤ N ∧
    ((∃ t z, Thr.step y t = some z) ∨
      ∀ k cell, cells[k]? = some cell →
        y.mem (.packed k) = (cell.points.map fun p => (∏ i, coefs k i (p i - cell.b i)) * G p).sum)

/-- C98: interpolation gives the same values with any number of threads, however iterations are distributed and
instructions interleaved.  Missing: there must not be more threads than there were when the object was created. -/
theorem C98_partial [CommRing V] [NeZero d] {s : Coll.Setup d n} {field : Fin n → Int → V} {G : Tup d → V}
    (hg : Spec.CollectOk s) (hG : Spec.Holds s field G) (a : Fin n)
    (hl : s.layout = .col ∨ ∀ cell ∈ s.cells a, ∀ v q, Spec.pts cell v → Spec.Stored s.cart cell v q →
      Spec.pts (s.loc a) q)
    (coefs : Nat → Fin d → Int → V) (created T : Nat) (hT : T ≤ created) (share : Fin T → List Nat)
    (hs : Spec.Divided share (s.cells a).length) :
    ∃ prog, Thr.program s field coefs created T share a = some prog ∧
      Spec.Interpolates (s.cells a) G coefs prog := by
  refine ⟨_, Thr.program_eq hg hG a coefs created T share, ?_⟩
  have hr : Spec.RaceFree fun t : Fin T => Thr.threadProg s field a ((Coll.recvFrom s a).map (Coll.recvOf s a))
      ((Coll.recvFrom s a).map fun b => (Coll.msgPoints s b a).map G) coefs created t.1 (share t) := by
    intro t t' h i hi j hj
    obtain ⟨k, hk, hi, -⟩ := Thr.mine_thread _ _ _ _ _ _ _ _ (lt_of_lt_of_le t.2 hT) _ _ hi
    obtain ⟨k', hk', hj, hj'⟩ := Thr.mine_thread _ _ _ _ _ _ _ _ (lt_of_lt_of_le t'.2 hT) _ _ hj
    have ht : t.1 ≠ t'.1 := fun e => h (Fin.ext e)
    have hkk : k ≠ k' := fun e => h (hs.one t t' k hk (e ▸ hk'))
    exact ⟨fun e => Thr.mine_apart _ _ _ _ _ ht hkk hi (e ▸ hj), fun e => Thr.mine_apart _ _ _ _ _ ht hkk hi (hj' _ e)⟩
  have he := fun (m : Thr.Mem V) (t : Fin T) =>
    Thr.exec_thread hg hG a hl coefs created t.1 (lt_of_lt_of_le t.2 hT) (share t) m
  refine ⟨hr, ∑ t : Fin T, (Thr.threadProg s field a ((Coll.recvFrom s a).map (Coll.recvOf s a))
      ((Coll.recvFrom s a).map fun b => (Coll.msgPoints s b a).map G) coefs created t.1 (share t)).length,
    fun m es y hy => ?_⟩
  obtain ⟨hb, hf⟩ := Thr.run_start _ m hr (fun t => (he m t).imp fun _ h => h.1) es y hy
  refine ⟨hb, ?_, ?_⟩
  · have := Thr.run_left es _ y hy
    have e : es.length ≤ es.length + Thr.left y := Nat.le_add_right _ _
    rw [this] at e
    exact e
  · by_cases hfin : ∀ t, y.rest t = []
    · right
      intro k cell hk
      have hlt : k < (s.cells a).length := (List.getElem?_eq_some_iff.1 hk).1
      obtain ⟨t, ht⟩ := hs.some k hlt
      obtain ⟨m', hm', hy'⟩ := hf hfin t
      obtain ⟨m'', hm'', hv⟩ := he m t
      have e : m' = m'' := Option.some.inj (hm'.symm.trans hm'')
      rw [hy' (.packed k) ?_, e]
      · exact hv k ht cell hk
      · intro t' ht' j hj e
        obtain ⟨k', hk', hj, -⟩ := Thr.mine_thread _ _ _ _ _ _ _ _ (lt_of_lt_of_le t'.2 hT) _ _ hj
        rw [e] at hj
        exact ht' (hs.one t' t k ((show k = k' from hj) ▸ hk') ht)
    · left
      push Not at hfin
      obtain ⟨t, ht⟩ := hfin
      refine ⟨t, ?_⟩
      unfold Thr.step
      cases hl : y.rest t with
      | nil => exact absurd hl ht
      | cons i l => dsimp only; split <;> exact ⟨_, rfl⟩

/-- C98, the whole claim: whatever the number of threads then and now. -/
def C98_statement : Prop :=
  ∀ (d n : Nat) (_ : NeZero d) (s : Coll.Setup d n) (field : Fin n → Int → Int) (G : Tup d → Int),
    Spec.CollectOk s → Spec.Holds s field G → s.layout = .col → ∀ (a : Fin n) (coefs : Nat → Fin d → Int → Int)
    (created T : Nat), 0 < created → ∀ share : Fin T → List Nat, Spec.Divided share (s.cells a).length →
    ∃ prog, Thr.program s field coefs created T share a = some prog ∧ Spec.Interpolates (s.cells a) G coefs prog

/-- The object was created while there was one thread, and is used by two (`omp_set_num_threads` in between, or
threads adjusted dynamically): the second thread uses scratch arrays that do not exist, even without an iteration
to do (CollectInterpThreaded.hpp:98-99). -/
theorem C98_false : ¬ C98_statement := by
  intro h
  obtain ⟨prog, hp, -, N, hN⟩ := h 2 2 inferInstance (exColl .col) (exCollField .col) exCollG (exColl_ok .col)
    (exColl_holds .col) rfl 0 (fun _ _ _ => 1) 1 2 (by decide) ![[0], []]
    ⟨by decide, by decide, by
      intro k hk
      have hk : k < 1 := hk
      exact ⟨0, by simp; omega⟩, by
      intro t t' k ht ht'
      fin_cases t <;> fin_cases t' <;> simp_all⟩
  rw [Thr.program_eq (exColl_ok .col) (exColl_holds .col), Option.some.injEq] at hp
  have h1 : prog 1 = [⟨.packed 0, [], fun _ => none⟩] := by
    rw [← hp]; rfl
  have h2 : Thr.run (Thr.start prog fun _ => 0) [1] = some
      { rest := fun t' => if t' = 1 then [] else prog t', mem := fun _ => 0, bad := true } := by
    simp only [Thr.run, Thr.step, Thr.start, h1, Option.bind_some]
  have := (hN _ _ _ h2).1
  cases this

/-- C98: the number of threads is counted with a data race, whenever there are several threads: each of them writes
the same variable (CollectInterpThreaded.hpp:146-150). -/
theorem C98_count_race (T : Nat) (h : 2 ≤ T) : ¬ Spec.RaceFree (Thr.countProg T) := by
  intro hr
  exact (hr ⟨0, by omega⟩ ⟨1, by omega⟩ (by simp) _ (List.mem_singleton.2 rfl) _ (List.mem_singleton.2 rfl)).1 rfl

/-- C98: if writes are atomic anyway, the count is right once any thread has written it. -/
theorem C98_count (T : Nat) (m : Thr.Mem Nat) (es : List (Fin T)) (y : Thr.State T Nat) (hes : es ≠ [])
    (hy : Thr.run (Thr.start (Thr.countProg T) m) es = some y) : y.bad = false ∧ y.mem .count = T := by
  have h : ∀ (es : List (Fin T)) (x : Thr.State T Nat), x.bad = false →
      (∀ t, ∀ i ∈ x.rest t, i = ⟨.count, [], fun _ => some T⟩) → (x.mem .count = T ∨ es ≠ []) →
      Thr.run x es = some y → y.bad = false ∧ y.mem .count = T := by
    intro es
    induction es with
    | nil =>
      intro x hb _ hc hx
      rw [← show x = y from Option.some.inj hx]
      exact ⟨hb, hc.resolve_right fun h => h rfl⟩
    | cons t es ih =>
      intro x hb hp _ hx
      rw [Thr.run, Option.bind_eq_some_iff] at hx
      obtain ⟨z, hz, hx⟩ := hx
      unfold Thr.step at hz
      cases hl : x.rest t with
      | nil => rw [hl] at hz; cases hz
      | cons i l =>
        rw [hl] at hz
        have hi := hp t i (by rw [hl]; exact List.mem_cons_self)
        rw [hi] at hz
        dsimp only at hz
        rw [← Option.some.inj hz] at hx
        refine (fun a b c => ih _ a b c hx) hb ?_ (Or.inl (by simp [Thr.Mem.set]))
        intro t' j hj
        dsimp only at hj
        split at hj
        · exact hp t j (by rw [hl]; exact List.mem_cons_of_mem _ hj)
        · exact hp t' j hj
  refine h es _ rfl ?_ (Or.inr hes) hy
  intro t i hi
  exact List.mem_singleton.1 hi

/-- Two threads and one cell on two processes. -/
example : ∃ prog, Thr.program (exColl .col) (exCollField .col) (fun _ _ _ => 1) 2 2 ![[], [0]] 0 = some prog ∧
    Spec.Interpolates ((exColl .col).cells 0) exCollG (fun _ _ _ => 1) prog :=
  C98_partial (exColl_ok .col) (exColl_holds .col) 0 (Or.inl rfl) _ 2 2 (le_refl 2) _
    ⟨by decide, by decide, by
      intro k hk
      have hk : k < 1 := hk
      exact ⟨1, by simp; omega⟩, by
      intro t t' k ht ht'
      fin_cases t <;> fin_cases t' <;> simp_all⟩

end Ovk
