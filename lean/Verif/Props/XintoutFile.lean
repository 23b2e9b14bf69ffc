/-
Property C93: reading XINTOUT files gives what is in them, in both formats and byte orders.
-/
import Verif.Model.XintoutFile
import Verif.Props.XintoutImport
import Mathlib.Tactic.FinCases

namespace Ovk.XFile

namespace Spec

/-! The file format, as a description of how files are written. -/

/-- The `k` lowest bytes of a number, lowest first. -/
def leBytes : Nat → Nat → List Byte
  | 0, _ => []
  | k + 1, v => Fin.ofNat 256 v :: leBytes k (v / 256)

/-- A number in the given byte order. -/
def put (e : Endian) (k v : Nat) : List Byte :=
  match e with
  | .little => leBytes k v
  | .big => (leBytes k v).reverse

/-- A signed number in two's complement. -/
def putInt (e : Endian) (k : Nat) (v : Int) : List Byte := put e k (v % 2 ^ (8 * k)).toNat

def ints (e : Endian) (vs : List Int) : List Byte := vs.flatMap (putInt e 4)
def longs (e : Endian) (vs : List Int) : List Byte := vs.flatMap (putInt e 8)
def doubles (e : Endian) (vs : List Nat) : List Byte := vs.flatMap (put e 8)

/-- Values of several dimensions follow each other. -/
def perDim (f : Fin 3 → List Byte) : List Byte := f 0 ++ (f 1 ++ f 2)

/-- A Fortran record.  The extended format has no wrappers. -/
def record (e : Endian) (fmt : Format) (l : List Byte) : List Byte :=
  match fmt with
  | .standard => ints e [(l.length : Int)] ++ (l ++ ints e [(l.length : Int)])
  | .extended => l

/-- What is in a pair of files. -/
structure Contents (n : Nat) where
  /-- donors, receivers and connection IDs, all counted from zero -/
  file : Xintout.File 3 n Data
  size : Fin n → Fin 3 → Int
  iblank : Fin n → List Int
  /-- values that Overkit does not use -/
  header : Fin 4 → Int
  xHeader : Fin 4 → Int
  gridHeader : Fin n → Int
  tail : Fin n → Fin 3 → Int

variable {n : Nat}

/-- Beginning of both files.  Also the extended format has a wrapper here. -/
def fileHeader (e : Endian) (fmt : Format) (n : Nat) (h : Fin 4 → Int) : List Byte :=
  match fmt with
  | .standard => record e fmt (ints e [(n : Int), h 0, h 1, h 2, h 3])
  | .extended => ints e [36] ++ (ints e [(n : Int)] ++ longs e [h 0, h 1, h 2, h 3])

/-- All interpolation coefficients of a grid in one dimension. -/
def coefs (C : Contents n) (g : Fin n) (i : Fin 3) : List Nat := (C.file.donors g).flatMap fun x => x.data.2 i

def gridHeader (e : Endian) (fmt : Format) (C : Contents n) (g : Fin n) : List Byte :=
  let nr : Int := (C.file.receivers g).length
  let nd : Int := (C.file.donors g).length
  let s : Int := C.file.start g + 1
  let size := [C.size g 0, C.size g 1, C.size g 2]
  match fmt with
  | .standard => ints e ([nr, nd, C.gridHeader g, s] ++ size)
  | .extended => longs e [nr, nd, C.gridHeader g, s] ++ (ints e size ++
      longs e [((coefs C g 0).length + (coefs C g 1).length + (coefs C g 2).length : Nat)])

def ids (e : Endian) (fmt : Format) (vs : List Int) : List Byte :=
  match fmt with
  | .standard => ints e vs
  | .extended => longs e vs

/-- A grid in the HO file. -/
def hoGrid (e : Endian) (fmt : Format) (iblank : Bool) (C : Contents n) (g : Fin n) : List Byte :=
  record e fmt (gridHeader e fmt C g) ++
  (record e fmt (perDim (fun i => ints e ((C.file.donors g).map fun x => x.ext.b i + 1)) ++
    perDim (fun i => doubles e ((C.file.donors g).map fun x => x.data.1 i))) ++
  (record e fmt (perDim (fun i => ints e ((C.file.receivers g).map fun y => y.1 i + 1)) ++
    ids e fmt ((C.file.receivers g).map fun y => (y.2 : Int) + 1)) ++
  if iblank then record e fmt (ints e (C.iblank g)) else []))

/-- A grid in the X file. -/
def xGrid (e : Endian) (fmt : Format) (C : Contents n) (g : Fin n) : List Byte :=
  record e fmt (perDim fun i => ints e ((C.file.donors g).map fun x => ((x.data.2 i).length : Int))) ++
  (record e fmt (perDim fun i => doubles e (coefs C g i)) ++
  record e fmt (ints e [C.tail g 0, C.tail g 1, C.tail g 2]))

def ho (e : Endian) (fmt : Format) (iblank : Bool) (C : Contents n) : List Byte :=
  fileHeader e fmt n C.header ++ (List.finRange n).flatMap (hoGrid e fmt iblank C)

def x (e : Endian) (fmt : Format) (C : Contents n) : List Byte :=
  fileHeader e fmt n C.xHeader ++ (List.finRange n).flatMap (xGrid e fmt C)

/-- A number fits in `k` bytes. -/
def Int.Fits (k : Nat) (v : Int) : Prop := -2 ^ (8 * k - 1) ≤ v ∧ v < 2 ^ (8 * k - 1)

instance (k : Nat) (v : Int) : Decidable (Int.Fits k v) := inferInstanceAs (Decidable (_ ∧ _))

/-- Size of counts and connection IDs. -/
def countSize : Format → Nat
  | .standard => 4
  | .extended => 8

/-- What is written of the number of coefficients: the size of their record, or the number itself. -/
def coefUnit : Format → Int
  | .standard => 8
  | .extended => 1

/-- The contents can be represented. -/
structure Fits (fmt : Format) (iblank : Bool) (C : Contents n) : Prop where
  grids : Int.Fits 4 n
  donors : ∀ g, Int.Fits (countSize fmt) ((C.file.donors g).length : Int)
  receivers : ∀ g, Int.Fits (countSize fmt) ((C.file.receivers g).length : Int)
  start : ∀ g, Int.Fits (countSize fmt) (C.file.start g + 1)
  size : ∀ g i, Int.Fits 4 (C.size g i)
  cell : ∀ g, ∀ x ∈ C.file.donors g, ∀ i, Int.Fits 4 (x.ext.b i + 1)
  /-- a donor has as many coefficients as points in each dimension -/
  extent : ∀ g, ∀ x ∈ C.file.donors g, ∀ i, x.ext.e i = x.ext.b i + (x.data.2 i).length
  width : ∀ g, ∀ x ∈ C.file.donors g, ∀ i, Int.Fits 4 ((x.data.2 i).length : Int)
  coord : ∀ g, ∀ x ∈ C.file.donors g, ∀ i, x.data.1 i < 2 ^ 64
  coef : ∀ g, ∀ x ∈ C.file.donors g, ∀ i, ∀ v ∈ x.data.2 i, v < 2 ^ 64
  point : ∀ g, ∀ y ∈ C.file.receivers g, ∀ i, Int.Fits 4 (y.1 i + 1)
  id : ∀ g, ∀ y ∈ C.file.receivers g, Int.Fits (countSize fmt) ((y.2 : Int) + 1)
  /-- the numbers of coefficients, and in the standard format the sizes of records, can be represented -/
  coefs : ∀ g, Int.Fits (countSize fmt) (((coefs C g 0).length + (coefs C g 1).length + (coefs C g 2).length : Nat) * coefUnit fmt)
  unused : ∀ g, Int.Fits (countSize fmt) (C.gridHeader g)
  iblank : iblank = true → fmt = .standard ∧ ∀ g, ((C.iblank g).length : Int) = points (C.size g) ∧
    Int.Fits 4 ((C.iblank g).length * 4)

/-- The part of the records of the `k`-th process. -/
def slice {α : Type} (size k : Nat) (l : List α) : List α := (l.drop (size * k)).take size

/-- A division of records among processes: no process begins after the end, all records are read, and the number of
bytes read by a process at a time is an `int`. -/
structure Division {α : Type} (num size : Nat) (l : List α) : Prop where
  begins : ∀ k < num, size * k ≤ l.length
  covers : l.length ≤ size * num
  small : ∀ k < num, (slice size k l).length * 8 < 2 ^ 31

/-- The same for the interpolation coefficients. -/
def CoefsSmall (num size : Nat) (l : List (Xintout.DonorRec 3 Data)) : Prop :=
  ∀ k < num, ∀ i, ((slice size k l).flatMap fun x => x.data.2 i).length * 8 < 2 ^ 31

end Spec

open Ovk.XFile.Spec

/-! ### Numbers -/

theorem leBytes_length (k v : Nat) : (leBytes k v).length = k := by
  induction k generalizing v with
  | zero => rfl
  | succ k ih => simp [leBytes, ih]

theorem leNat_leBytes (k v : Nat) : leNat (leBytes k v) = v % 256 ^ k := by
  induction k generalizing v with
  | zero => simp [leBytes, leNat, Nat.mod_one]
  | succ k ih =>
    unfold leBytes leNat
    rw [ih, Nat.pow_succ', Nat.mod_mul]
    rfl

theorem put_length (e : Endian) (k v : Nat) : (put e k v).length = k := by
  cases e <;> simp [put, leBytes_length]

theorem putInt_length (e : Endian) (k : Nat) (v : Int) : (putInt e k v).length = k := put_length ..

theorem value_put (mach e : Endian) (k v : Nat) (h : v < 256 ^ k) : value mach e (put e k v) = v := by
  have := leNat_leBytes k v
  rw [Nat.mod_eq_of_lt h] at this
  cases mach <;> cases e <;> simp [value, native, put, swapEndian, this]

theorem signed_putInt (mach e : Endian) {k : Nat} (hk : 0 < k) {v : Int} (h : Int.Fits k v) :
    signed k (value mach e (putInt e k v)) = v := by
  have e1 : (2 : Int) ^ (8 * k) = 2 * 2 ^ (8 * k - 1) := by
    rw [← pow_succ']; congr 1; omega
  have e3 : (256 : Nat) ^ k = 2 ^ (8 * k) := by
    rw [show (256 : Nat) = 2 ^ 8 by norm_num, ← pow_mul]
  have hpos : (0 : Int) < 2 ^ (8 * k - 1) := by positivity
  have hm0 := Int.emod_nonneg v (show (2 : Int) ^ (8 * k) ≠ 0 by positivity)
  have hm1 := Int.emod_lt_of_pos v (show (0 : Int) < 2 ^ (8 * k) by positivity)
  unfold putInt
  rw [value_put mach e k _ (by
    rw [e3]
    zify
    rw [Int.toNat_of_nonneg hm0]
    exact hm1)]
  unfold signed Spec.Int.Fits at *
  by_cases hv : 0 ≤ v
  · have : v % 2 ^ (8 * k) = v := Int.emod_eq_of_lt hv (by omega)
    rw [this, if_pos (by zify; rw [Int.toNat_of_nonneg hv]; exact h.2), Int.toNat_of_nonneg hv]
  · have : v % 2 ^ (8 * k) = v + 2 ^ (8 * k) := by
      rw [← Int.add_emod_right, Int.emod_eq_of_lt (by omega) (by omega)]
    rw [this] at hm0 ⊢
    rw [if_neg (by zify; rw [Int.toNat_of_nonneg hm0]; omega), Int.toNat_of_nonneg hm0]
    omega

/-! ### Places in a file -/

/-- The file has the bytes `l` at an offset. -/
def At (f : List Byte) (off : Int) (l : List Byte) : Prop := ∃ A B, f = A ++ l ++ B ∧ (A.length : Int) = off

theorem At.left {f : List Byte} {off : Int} {l l' : List Byte} (h : At f off (l ++ l')) : At f off l := by
  obtain ⟨A, B, rfl, h⟩ := h
  exact ⟨A, l' ++ B, by simp, h⟩

theorem At.right {f : List Byte} {off : Int} {l l' : List Byte} (h : At f off (l ++ l')) : At f (off + l.length) l' := by
  obtain ⟨A, B, rfl, h⟩ := h
  exact ⟨A ++ l, B, by simp, by rw [List.length_append]; push_cast; omega⟩

theorem At.cast {f : List Byte} {off off' : Int} {l : List Byte} (h : At f off l) (e : off = off') : At f off' l := e ▸ h

theorem drop_flatMap {α : Type} {sz : Nat} (g : α → List Byte) (hg : ∀ v, (g v).length = sz) (vs : List α) (i : Nat) :
    (vs.flatMap g).drop (sz * i) = (vs.drop i).flatMap g := by
  induction i generalizing vs with
  | zero => simp
  | succ i ih =>
    cases vs with
    | nil => simp
    | cons v vs =>
      rw [List.flatMap_cons, List.drop_succ_cons, ← ih, show sz * (i + 1) = (g v).length + sz * i by rw [hg]; ring,
        List.drop_append, ]
      simp

theorem take_flatMap {α : Type} {sz : Nat} (g : α → List Byte) (hg : ∀ v, (g v).length = sz) (vs : List α) (i : Nat) :
    (vs.flatMap g).take (sz * i) = (vs.take i).flatMap g := by
  induction i generalizing vs with
  | zero => simp
  | succ i ih =>
    cases vs with
    | nil => simp
    | cons v vs =>
      rw [List.flatMap_cons, List.take_succ_cons, List.flatMap_cons, ← ih,
        show sz * (i + 1) = (g v).length + sz * i by rw [hg]; ring, List.take_append]
      simp

theorem flatMap_length {α : Type} {sz : Nat} (g : α → List Byte) (hg : ∀ v, (g v).length = sz) (vs : List α) :
    (vs.flatMap g).length = sz * vs.length := by
  induction vs with
  | nil => simp
  | cons v vs ih => rw [List.flatMap_cons, List.length_append, ih, hg, List.length_cons]; ring

theorem elems_flatMap {α : Type} {sz : Nat} (hs : 0 < sz) (g : α → List Byte) (hg : ∀ v, (g v).length = sz)
    (vs : List α) : elems sz (vs.flatMap g) = vs.map g := by
  unfold elems
  rw [flatMap_length g hg, Nat.mul_div_cancel_left _ hs]
  apply List.ext_getElem
  · simp
  · intro i h1 h2
    rw [List.length_map] at h2
    rw [List.getElem_map, List.getElem_map, List.getElem_range, drop_flatMap g hg]
    have := take_flatMap g hg (vs.drop i) 1
    rw [Nat.mul_one] at this
    rw [this, List.drop_eq_getElem_cons h2, List.take_succ_cons, List.take_zero, List.flatMap_cons, List.flatMap_nil,
      List.append_nil]

theorem readAt_at {α : Type} {sz : Nat} (hs : 0 < sz) (g : α → List Byte) (hg : ∀ v, (g v).length = sz) {f : List Byte}
    {off : Int} {vs : List α} (h : At f off (vs.flatMap g)) (lo cnt : Nat) (hc : lo + cnt ≤ vs.length) :
    readAt f (off + lo * sz) sz cnt = .ok (((vs.drop lo).take cnt).map g) := by
  obtain ⟨A, B, rfl, h⟩ := h
  unfold readAt
  have e : (off + lo * sz).toNat = A.length + sz * lo := by
    zify
    rw [Int.toNat_of_nonneg (by rw [← h]; positivity)]
    rw [← h]; ring
  rw [if_neg (by rw [← h]; have : (0 : Int) ≤ (lo : Int) * sz := by positivity
                 omega), e]
  congr 1
  rw [← elems_flatMap hs g hg, ← take_flatMap g hg, ← drop_flatMap g hg]
  congr 1
  rw [List.append_assoc, ← List.drop_drop, List.drop_left, List.drop_append, List.take_append,
    show sz * cnt - ((vs.flatMap g).drop (sz * lo)).length = 0 by
      rw [List.length_drop, flatMap_length g hg, ← Nat.mul_sub, ← Nat.mul_sub]
      rw [Nat.mul_eq_zero]; right; omega, List.take_zero, List.append_nil]

/-! ### Values in a file -/

theorem readInts_at (mach e : Endian) {f : List Byte} {off : Int} {k : Nat} (hk : 0 < k) {vs : List Int}
    (h : At f off (vs.flatMap (putInt e k))) (hv : ∀ v ∈ vs, Int.Fits k v) {lo cnt : Nat} (hc : lo + cnt ≤ vs.length)
    {off' : Int} (ho : off' = off + lo * k) :
    readInts mach e f off' k cnt = .ok ((vs.drop lo).take cnt) := by
  unfold readInts
  rw [ho, readAt_at hk _ (putInt_length e k) h lo cnt hc]
  show Res.bind (Res.check _) _ = _
  rw [Res.check, if_pos (by simp; omega)]
  show Res.ok _ = _
  rw [List.map_map]
  congr 1
  conv_rhs => rw [← List.map_id ((vs.drop lo).take cnt)]
  apply List.map_congr_left
  intro v hm
  exact signed_putInt mach e hk (hv v (List.mem_of_mem_drop (List.mem_of_mem_take hm)))

theorem readDoubles_at (mach e : Endian) {f : List Byte} {off : Int} {vs : List Nat}
    (h : At f off (doubles e vs)) (hv : ∀ v ∈ vs, v < 2 ^ 64) {lo cnt : Nat} (hc : lo + cnt ≤ vs.length)
    {off' : Int} (ho : off' = off + lo * 8) :
    readDoubles mach e f off' cnt = .ok ((vs.drop lo).take cnt) := by
  unfold readDoubles
  have := readAt_at (show 0 < 8 by decide) _ (put_length e 8) h lo cnt hc
  rw [ho, show off + (lo : Int) * 8 = off + lo * ((8 : Nat) : Int) by norm_num, this]
  show Res.bind (Res.check _) _ = _
  rw [Res.check, if_pos (by simp; omega)]
  show Res.ok _ = _
  rw [List.map_map]
  congr 1
  conv_rhs => rw [← List.map_id ((vs.drop lo).take cnt)]
  apply List.map_congr_left
  intro v hm
  exact value_put mach e 8 v (by
    have := hv v (List.mem_of_mem_drop (List.mem_of_mem_take hm))
    calc v < 2 ^ 64 := this
      _ = 256 ^ 8 := by norm_num)

theorem ints_length (e : Endian) (vs : List Int) : (ints e vs).length = 4 * vs.length :=
  flatMap_length _ (putInt_length e 4) vs

theorem longs_length (e : Endian) (vs : List Int) : (longs e vs).length = 8 * vs.length :=
  flatMap_length _ (putInt_length e 8) vs

theorem doubles_length (e : Endian) (vs : List Nat) : (doubles e vs).length = 8 * vs.length :=
  flatMap_length _ (put_length e 8) vs

theorem ids_length (e : Endian) (fmt : Format) (vs : List Int) : (ids e fmt vs).length = idSize fmt * vs.length := by
  cases fmt
  · exact ints_length e vs
  · exact longs_length e vs

theorem record_length (e : Endian) (fmt : Format) (l : List Byte) :
    ((record e fmt l).length : Int) = wrapper fmt + l.length + wrapper fmt := by
  cases fmt
  · simp only [record, wrapper, List.length_append, ints_length, List.length_singleton]
    push_cast; omega
  · simp [record, wrapper]

theorem At.body {f : List Byte} {off : Int} {e : Endian} {fmt : Format} {l : List Byte}
    (h : At f off (record e fmt l)) : At f (off + wrapper fmt) l := by
  cases fmt
  · have := h.right.left
    rwa [ints_length] at this
  · exact At.cast (l := l) h (by simp [wrapper])

theorem At.front {f : List Byte} {off : Int} (mach e : Endian) {l : List Byte}
    (h : At f off (record e .standard l)) (hl : Int.Fits 4 (l.length : Int)) :
    readInts mach e f off 4 1 = .ok [(l.length : Int)] := by
  have h' : At f off (ints e [(l.length : Int)]) := h.left
  exact readInts_at mach e (by decide) h' (by simpa using hl) (lo := 0) (by simp) (by simp)

/-! ### Headers -/

variable {n : Nat}

theorem gridHeader_length (e : Endian) (fmt : Format) (C : Contents n) (g : Fin n) :
    ((gridHeader e fmt C g).length : Int) = gridHeaderSize fmt := by
  cases fmt <;> simp [gridHeader, gridHeaderSize, ints_length, longs_length]

/-- The number of coefficients of a grid. -/
def allCoefs (C : Contents n) (g : Fin n) : Nat :=
  (coefs C g 0).length + (coefs C g 1).length + (coefs C g 2).length

/-- The number of coefficients as far as it is in the header. -/
def headerCoefs (fmt : Format) (C : Contents n) (g : Fin n) : Int :=
  match fmt with
  | .standard => 0
  | .extended => allCoefs C g

theorem readHeader_at (mach e : Endian) {fmt : Format} {ib : Bool} {C : Contents n} (hf : Fits fmt ib C) (g : Fin n)
    {f : List Byte} {off : Int} (h : At f off (gridHeader e fmt C g)) :
    readHeader mach e fmt f off = .ok ⟨(C.file.donors g).length, (C.file.receivers g).length, C.file.start g, C.size g,
      headerCoefs fmt C g⟩ := by
  have h1 := hf.receivers g
  have h2 := hf.donors g
  have h3 := hf.start g
  have h4 := hf.size g
  have h5 := hf.coefs g
  have hj := hf.unused g
  cases fmt
  · have := readInts_at mach e (k := 4) (by decide) (vs := [((C.file.receivers g).length : Int), (C.file.donors g).length,
      C.gridHeader g, (C.file.start g : Int) + 1, C.size g 0, C.size g 1, C.size g 2]) h (by
        simp only [List.mem_cons, List.not_mem_nil, or_false]
        rintro v (rfl | rfl | rfl | rfl | rfl | rfl | rfl)
        exacts [h1, h2, hj, h3, h4 0, h4 1, h4 2]) (lo := 0) (cnt := 7) (by simp) (off' := off) (by simp)
    show Res.bind _ _ = _
    rw [this]
    show Res.ok _ = Res.ok _
    congr 2
    · simp
    · funext i; fin_cases i <;> rfl
  · have r1 := readInts_at mach e (k := 8) (by decide) (vs := [((C.file.receivers g).length : Int), (C.file.donors g).length,
      C.gridHeader g, (C.file.start g : Int) + 1]) h.left (by
        simp only [List.mem_cons, List.not_mem_nil, or_false]
        rintro v (rfl | rfl | rfl | rfl)
        exacts [h1, h2, hj, h3]) (lo := 0) (cnt := 4) (by simp) (off' := off) (by simp)
    have h' := h.right
    have r2 := readInts_at mach e (k := 4) (by decide) (vs := [C.size g 0, C.size g 1, C.size g 2]) h'.left (by
        simp only [List.mem_cons, List.not_mem_nil, or_false]
        rintro v (rfl | rfl | rfl)
        exacts [h4 0, h4 1, h4 2]) (lo := 0) (cnt := 3) (by simp) (off' := off + 32) (by simp [longs_length])
    have r3 := readInts_at mach e (k := 8) (by decide) (vs := [(allCoefs C g : Int)]) h'.right (by
        simp only [List.mem_cons, List.not_mem_nil, or_false]
        rintro v rfl
        simpa [coefUnit, allCoefs, countSize] using h5) (lo := 0) (cnt := 1) (by simp) (off' := off + 44) (by simp [longs_length, ints_length]; omega)
    show Res.bind _ _ = _
    rw [r1]
    show Res.bind _ _ = _
    rw [r2]
    show Res.bind _ _ = _
    rw [r3]
    show Res.ok _ = Res.ok _
    congr 2
    · simp
    · funext i; fin_cases i <;> rfl

theorem perDim_length (f : Fin 3 → List Byte) : (perDim f).length = (f 0).length + (f 1).length + (f 2).length := by
  simp [perDim]; omega

theorem hoGrid_length (e : Endian) {fmt : Format} {ib : Bool} {C : Contents n} (hf : Fits fmt ib C) (g : Fin n) :
    ((hoGrid e fmt ib C g).length : Int) = wrapper fmt + gridHeaderSize fmt + wrapper fmt +
      (wrapper fmt + 3 * (C.file.donors g).length * 4 + 3 * (C.file.donors g).length * 8 + wrapper fmt) +
      (wrapper fmt + 3 * (C.file.receivers g).length * 4 + (C.file.receivers g).length * idSize fmt + wrapper fmt) +
      if ib then wrapper fmt + points (C.size g) * 4 + wrapper fmt else 0 := by
  have hi := hf.iblank
  unfold hoGrid
  simp only [List.length_append, Nat.cast_add, record_length, gridHeader_length, perDim_length, ints_length,
    doubles_length, ids_length, List.length_map]
  cases ib
  · simp; ring
  · rw [← ((hi rfl).2 g).1]
    simp [record_length, ints_length]; ring

theorem xGrid_length (e : Endian) (fmt : Format) (C : Contents n) (g : Fin n) :
    ((xGrid e fmt C g).length : Int) = wrapper fmt + 3 * (C.file.donors g).length * 4 + wrapper fmt +
      (wrapper fmt + allCoefs C g * 8 + wrapper fmt) + (wrapper fmt + 12 + wrapper fmt) := by
  unfold xGrid allCoefs
  simp only [List.length_append, Nat.cast_add, record_length, perDim_length, ints_length,
    doubles_length, List.length_map, List.length_cons, List.length_nil]
  push_cast
  ring

/-! ### Skipping grids -/

theorem skipGrid_at (mach e : Endian) {fmt : Format} {ib : Bool} {C : Contents n} (hf : Fits fmt ib C) (g : Fin n)
    {h x : List Byte} {o : Int × Int}
    (h1 : At h o.1 (hoGrid e fmt ib C g)) (h2 : At x o.2 (xGrid e fmt C g)) :
    skipGrid mach e fmt ib h x o =
      .ok (o.1 + (hoGrid e fmt ib C g).length, o.2 + (xGrid e fmt C g).length) := by
  rw [hoGrid_length e hf, xGrid_length]
  have r1 := readHeader_at mach e hf g h1.left.body
  unfold skipGrid
  show Res.bind _ _ = _
  rw [r1]
  cases fmt
  · have r2 := At.front mach e (At.cast h2.right.left (off' := o.2 + 4 + 3 * (C.file.donors g).length * 4 + 4) (by
      rw [record_length, perDim_length]
      simp only [ints_length, List.length_map, wrapper]
      push_cast; ring)) (by
        have := hf.coefs g
        rw [perDim_length]
        simp only [doubles_length]
        simp only [coefUnit, countSize] at this
        convert this using 1
        push_cast; ring)
    show Res.bind (readInts mach e x (o.2 + 4 + 3 * (C.file.donors g).length * 4 + 4) 4 1) _ = _
    rw [r2]
    show Res.ok _ = _
    have hc := (hf.coefs g).2
    rw [perDim_length]
    simp only [doubles_length, countSize, coefUnit, List.getD_cons_zero] at hc ⊢
    have : (((8 * (coefs C g 0).length + 8 * (coefs C g 1).length + 8 * (coefs C g 2).length : Nat) : Int) % 2 ^ 64) / 8 =
        allCoefs C g := by
      unfold allCoefs
      rw [Int.emod_eq_of_lt (by positivity) (by push_cast at hc ⊢; omega)]
      omega
    rw [this]
    cases ib <;> simp [wrapper] <;> constructor <;> ring
  · show Res.ok _ = _
    cases ib <;> simp [wrapper, headerCoefs] <;> constructor <;> ring

theorem skipGrids_at (mach e : Endian) {fmt : Format} {ib : Bool} {C : Contents n} (hf : Fits fmt ib C)
    {h x : List Byte} (gs : List (Fin n)) (rest : List (Fin n))
    (o : Int × Int) (h1 : At h o.1 ((gs ++ rest).flatMap (hoGrid e fmt ib C)))
    (h2 : At x o.2 ((gs ++ rest).flatMap (xGrid e fmt C))) :
    ∃ o', skipGrids mach e fmt ib h x gs.length o = .ok o' ∧ At h o'.1 (rest.flatMap (hoGrid e fmt ib C)) ∧
      At x o'.2 (rest.flatMap (xGrid e fmt C)) := by
  induction gs generalizing o with
  | nil => exact ⟨o, rfl, h1, h2⟩
  | cons g gs ih =>
    rw [List.cons_append, List.flatMap_cons] at h1 h2
    obtain ⟨o', e1, e2⟩ := ih (o.1 + (hoGrid e fmt ib C g).length, o.2 + (xGrid e fmt C g).length) h1.right h2.right
    refine ⟨o', ?_, e2⟩
    rw [← e1, List.length_cons]
    show Res.bind _ _ = _
    rw [skipGrid_at mach e hf g h1.left h2.left]
    rfl

/-! ### `ReadGridInfo` -/

/-- The datasets of a grid are where `Info` says. -/
structure Located (e : Endian) (fmt : Format) (C : Contents n) (h x : List Byte) (g : Fin n) (I : Info) : Prop where
  donors : I.donors = (C.file.donors g).length
  receivers : I.receivers = (C.file.receivers g).length
  start : I.start = C.file.start g
  cells : At h I.hoCells (perDim fun i => ints e ((C.file.donors g).map fun x => x.ext.b i + 1))
  coords : At h I.hoCoords (perDim fun i => doubles e ((C.file.donors g).map fun x => x.data.1 i))
  points : At h I.hoPoints (perDim fun i => ints e ((C.file.receivers g).map fun y => y.1 i + 1))
  ids : At h I.hoIDs (ids e fmt ((C.file.receivers g).map fun y => (y.2 : Int) + 1))
  sizes : At x I.xSizes (perDim fun i => ints e ((C.file.donors g).map fun x => ((x.data.2 i).length : Int)))
  coefs : At x I.xCoefs (perDim fun i => doubles e (coefs C g i))

theorem fileHeader_length (e : Endian) (fmt : Format) (n : Nat) (h : Fin 4 → Int) :
    ((fileHeader e fmt n h).length : Int) = 4 + headerSize fmt + wrapper fmt := by
  cases fmt
  · simp only [fileHeader, record_length, ints_length]; rfl
  · simp [fileHeader, ints_length, longs_length, headerSize, wrapper]

theorem finRange_split (g : Fin n) : ∃ a b, List.finRange n = a ++ g :: b ∧ a.length = g.val := by
  refine ⟨(List.finRange n).take g.val, (List.finRange n).drop (g.val + 1), ?_, by simp⟩
  conv_lhs => rw [← List.take_append_drop g.val (List.finRange n)]
  rw [List.drop_eq_getElem_cons (by simp)]
  simp

/-- What `ReadGridInfo` has to find, when the grid begins at the given places in the two files. -/
def place (fmt : Format) (C : Contents n) (g : Fin n) (o : Int × Int) : Info :=
  let w := wrapper fmt
  let nd : Int := (C.file.donors g).length
  let nr : Int := (C.file.receivers g).length
  let cells := o.1 + w + gridHeaderSize fmt + w + w
  let coords := cells + 3 * nd * 4
  let pts := coords + 3 * nd * 8 + w + w
  let ids := pts + 3 * nr * 4
  let sizes := o.2 + w
  let coefs := sizes + 3 * nd * 4 + w + w
  ⟨nd, nr, C.file.start g, cells, coords, pts, ids, sizes, coefs⟩

theorem at_grids (l l' : List Byte) : At (l ++ l') l.length l' := ⟨l, [], by simp, rfl⟩

theorem readGridInfo_at (mach e : Endian) {fmt : Format} {ib : Bool} {C : Contents n} (hf : Fits fmt ib C) (g : Fin n) :
    (∃ I, readGridInfo mach e fmt ib (ho e fmt ib C) (x e fmt C) (C.size g) g = .ok I ∧
      Located e fmt C (ho e fmt ib C) (x e fmt C) g I) ∧
    ∀ size, size ≠ C.size g → readGridInfo mach e fmt ib (ho e fmt ib C) (x e fmt C) size g = .error := by
  obtain ⟨a, b, hs, hl⟩ := finRange_split g
  have h1 := at_grids (fileHeader e fmt n C.header) ((List.finRange n).flatMap (hoGrid e fmt ib C))
  have h2 := at_grids (fileHeader e fmt n C.xHeader) ((List.finRange n).flatMap (xGrid e fmt C))
  rw [fileHeader_length, hs] at h1 h2
  rw [← hs] at h1 h2
  change At (ho e fmt ib C) _ _ at h1
  change At (x e fmt C) _ _ at h2
  rw [hs] at h1 h2
  obtain ⟨o, e1, h1, h2⟩ := skipGrids_at mach e hf a (g :: b) (4 + headerSize fmt + wrapper fmt,
    4 + headerSize fmt + wrapper fmt) h1 h2
  rw [hl] at e1
  rw [List.flatMap_cons] at h1 h2
  have h1 := h1.left
  have h2 := h2.left
  have r1 := readHeader_at mach e hf g h1.left.body
  have key : ∀ size, readGridInfo mach e fmt ib (ho e fmt ib C) (x e fmt C) size g =
      Res.bind (Res.check (decide (∀ i, C.size g i = size i))) fun _ =>
        .ok (place fmt C g o) := by
    intro size
    unfold readGridInfo
    show Res.bind _ _ = _
    rw [e1]
    show Res.bind (readHeader mach e fmt (ho e fmt ib C) (o.1 + wrapper fmt)) _ = _
    rw [r1]
    rfl
  constructor
  · refine ⟨place fmt C g o, (key _).trans ?_, ?_⟩
    · rw [Res.check, if_pos (by simp)]
      rfl
    · have b1 := h1.right.left.body
      have b2 := h1.right.right.left.body
      have b3 := h2.left.body
      have b4 := h2.right.left.body
      refine ⟨rfl, rfl, rfl, b1.left.cast ?_, b1.right.cast ?_, b2.left.cast ?_, b2.right.cast ?_, b3, b4.cast ?_⟩
      all_goals
        simp only [place, record_length, gridHeader_length, List.length_append, Nat.cast_add, perDim_length, ints_length,
          doubles_length, List.length_map]
        push_cast
        ring
  · intro size hn
    rw [key, Res.check, if_neg (by
      rw [decide_eq_true_iff]
      intro h
      exact hn (funext fun i => (h i).symm))]
    rfl

/-! ### `ReadGlobalInfo` -/

theorem putInt_20 (e : Endian) : putInt e 4 20 = match e with | .little => [20, 0, 0, 0] | .big => [0, 0, 0, 20] := by
  cases e <;> decide

theorem putInt_36 (e : Endian) : putInt e 4 36 = match e with | .little => [36, 0, 0, 0] | .big => [0, 0, 0, 36] := by
  cases e <;> decide

theorem detectFormat_header (mach e : Endian) (fmt : Format) (n : Nat) (h : Fin 4 → Int) (l : List Byte) :
    detectFormat mach (fileHeader e fmt n h ++ l) = .ok (e, fmt) := by
  cases fmt
  · have : fileHeader e .standard n h ++ l = putInt e 4 20 ++ (ints e [(n : Int), h 0, h 1, h 2, h 3] ++
        (putInt e 4 20 ++ l)) := by
      simp only [fileHeader, record, ints_length]
      simp [ints]
    rw [this, putInt_20]
    cases e <;> cases mach <;> simp [detectFormat, value, native, swapEndian, leNat, signed]
  · have : fileHeader e .extended n h ++ l = putInt e 4 36 ++ (ints e [(n : Int)] ++ (longs e [h 0, h 1, h 2, h 3] ++ l)) := by
      simp [fileHeader, ints]
    rw [this, putInt_36]
    cases e <;> cases mach <;> simp [detectFormat, value, native, swapEndian, leNat, signed]

theorem readNumGrids (mach e : Endian) (fmt : Format) {n : Nat} (hn : Int.Fits 4 n) (h : Fin 4 → Int) (l : List Byte) :
    readInts mach e (fileHeader e fmt n h ++ l) 4 4 1 = .ok [(n : Int)] := by
  have h1 : At (fileHeader e fmt n h ++ l) 4 (ints e [(n : Int)]) := by
    cases fmt
    · refine ⟨ints e [20], ints e [h 0, h 1, h 2, h 3] ++ (ints e [20] ++ l), ?_, by simp [ints_length]⟩
      simp only [fileHeader, record, ints_length]
      simp [ints]
    · exact ⟨ints e [36], longs e [h 0, h 1, h 2, h 3] ++ l, by simp [fileHeader], by simp [ints_length]⟩
  exact readInts_at mach e (by decide) h1 (by simpa using hn) (lo := 0) (by simp) (by simp)

/-- The length of the record after the first grid, which decides about IBlank data. -/
theorem readGlobalInfo_wrong (mach e : Endian) (fmt : Format) (ib : Bool) (C : Contents n) (hn : Int.Fits 4 n)
    {m : Nat} (hm : m ≠ n) : readGlobalInfo mach m (ho e fmt ib C) = .error := by
  unfold readGlobalInfo ho
  show Res.bind _ _ = _
  rw [detectFormat_header]
  show Res.bind (readInts mach e _ 4 4 1) _ = _
  rw [readNumGrids mach e fmt hn]
  show Res.bind (Res.check _) _ = _
  rw [Res.check, if_neg (by simp; omega)]
  rfl

theorem gridHeader_ints (mach e : Endian) {ib : Bool} {C : Contents n} (hf : Fits .standard ib C) (g : Fin n)
    {f : List Byte} {off : Int} (h : At f off (gridHeader e .standard C g)) :
    readInts mach e f off 4 7 = .ok [((C.file.receivers g).length : Int), (C.file.donors g).length,
      C.gridHeader g, (C.file.start g : Int) + 1, C.size g 0, C.size g 1, C.size g 2] :=
  readInts_at mach e (k := 4) (by decide) (vs := [((C.file.receivers g).length : Int), (C.file.donors g).length,
      C.gridHeader g, (C.file.start g : Int) + 1, C.size g 0, C.size g 1, C.size g 2]) h (by
        simp only [List.mem_cons, List.not_mem_nil, or_false]
        rintro v (rfl | rfl | rfl | rfl | rfl | rfl | rfl)
        exacts [hf.receivers g, hf.donors g, hf.unused g, hf.start g, hf.size g 0, hf.size g 1, hf.size g 2])
    (lo := 0) (cnt := 7) (by simp) (off' := off) (by simp)

theorem readAt_ints (mach e : Endian) {f : List Byte} {off : Int} {v : Int} (h : At f off (ints e [v]))
    (hv : Int.Fits 4 v) : ∃ b, readAt f off 4 1 = .ok [b] ∧ signed 4 (value mach e b) = v := by
  have := readAt_at (sz := 4) (by decide) _ (putInt_length e 4) h 0 1 (by simp)
  exact ⟨putInt e 4 v, by simpa using this, signed_putInt mach e (by decide) hv⟩

theorem readInts_long (mach e : Endian) {f : List Byte} {off : Int} {sz cnt : Nat} (hs : 0 < sz) (h0 : 0 ≤ off)
    (h : off + sz * cnt ≤ f.length) : ∃ l, readInts mach e f off sz cnt = .ok l := by
  unfold readInts readAt
  rw [if_neg (by omega)]
  have e1 : (elems sz ((f.drop off.toNat).take (sz * cnt))).length = cnt := by
    unfold elems
    rw [List.length_map, List.length_range, List.length_take, List.length_drop, Nat.min_eq_left (by zify; omega),
      Nat.mul_div_cancel_left _ hs]
  show ∃ l, Res.bind (Res.check _) _ = _
  rw [Res.check, if_pos (by simp [e1])]
  exact ⟨_, rfl⟩

/-- The first grid looks as if it had IBlank data: the header of the next grid has just the right size. -/
def Ambiguous (fmt : Format) (ib : Bool) (C : Contents n) : Prop :=
  fmt = .standard ∧ ib = false ∧ 2 ≤ n ∧ ∃ h : 0 < n, points (C.size ⟨0, h⟩) = 7

theorem detectIBlank_at (mach e : Endian) {ib : Bool} {C : Contents n} (hf : Fits .standard ib C)
    (hn : 0 < n) (ha : ¬ Ambiguous .standard ib C) : detectIBlank mach e n (ho e .standard ib C) 32 = .ok ib := by
  have h1 := at_grids (fileHeader e .standard n C.header) ((List.finRange n).flatMap (hoGrid e .standard ib C))
  rw [fileHeader_length] at h1
  change At (ho e .standard ib C) 28 _ at h1
  obtain ⟨m, rfl⟩ : ∃ m, n = m + 1 := ⟨n - 1, by omega⟩
  have hl := hoGrid_length e hf 0
  have hlen : ((ho e .standard ib C).length : Int) =
      28 + ((List.finRange (m + 1)).flatMap (hoGrid e .standard ib C)).length := by
    unfold ho
    rw [List.length_append, Nat.cast_add, fileHeader_length]
    rfl
  rw [List.finRange_succ, List.flatMap_cons] at h1 hlen
  have r1 := gridHeader_ints mach e hf 0 (off := 32) h1.left.left.body
  unfold detectIBlank
  show Res.bind _ _ = _
  rw [r1]
  generalize hoff : 32 + 28 + 4 + 4 + 3 * ((C.file.donors 0).length : Int) * 4 + 3 * (C.file.donors 0).length * 8 + 4 + 4 +
    3 * ((C.file.receivers 0).length : Int) * 4 + (C.file.receivers 0).length * 4 + 4 = off
  have key : ∀ r, readAt (ho e .standard ib C) off 4 1 = r → Res.bind r (fun w => match w with
      | [b] => Res.ok (decide (signed 4 (value mach e b) = points (C.size 0) * 4))
      | _ => if m + 1 = 1 then .ok false else .error) = .ok ib →
      Res.bind (.ok [((C.file.receivers 0).length : Int), (C.file.donors 0).length,
      C.gridHeader 0, (C.file.start 0 : Int) + 1, C.size 0 0, C.size 0 1, C.size 0 2]) (fun d =>
        let nd := d.getD 1 0
        let nr := d.getD 0 0
        let off := 32 + 28 + 4
        let off := off + 4 + 3 * nd * 4 + 3 * nd * 8 + 4
        let off := off + 4 + 3 * nr * 4 + nr * 4 + 4
        Res.bind (readAt (ho e .standard ib C) off 4 1) fun w => match w with
        | [b] => Res.ok (decide (signed 4 (value mach e b) = points (fun i => d.getD (4 + i.val) 0) * 4))
        | _ => if m + 1 = 1 then .ok false else .error) = .ok ib := by
    intro r hr h
    rw [← hr, ← hoff] at h
    exact h
  cases ib
  · simp only [wrapper, gridHeaderSize, idSize, Bool.false_eq_true, if_false] at hl
    cases m with
    | zero =>
      refine key (.ok []) ?_ rfl
      have : (ho e .standard false C).length = off := by
        rw [hlen]
        simp
        omega
      unfold readAt
      rw [if_neg (by omega), ← this, Int.toNat_natCast, List.drop_length]
      rfl
    | succ m =>
      have h2 := h1.right
      rw [List.finRange_succ, List.map_cons, List.flatMap_cons] at h2
      obtain ⟨b, e1, e2⟩ := readAt_ints mach e (h2.left.left.left.cast (off' := off) (by omega)) (by
        rw [gridHeader_length]
        constructor <;> decide)
      refine key _ e1 ?_
      show Res.ok _ = _
      rw [e2, gridHeader_length]
      congr 1
      rw [decide_eq_false_iff_not]
      intro hc
      have h7 : points (C.size 0) = 7 := by simp only [gridHeaderSize] at hc; omega
      exact ha ⟨rfl, rfl, by omega, by omega, h7⟩
  · have h2 := h1.left.right.right.right
    simp only [wrapper, gridHeaderSize, idSize, if_true] at hl
    simp only [if_true] at h2
    have hb := (hf.iblank rfl).2 0
    obtain ⟨b, e1, e2⟩ := readAt_ints mach e (h2.left.cast (off' := off) (by
      simp only [record_length, gridHeader_length, List.length_append, Nat.cast_add, perDim_length, ints_length,
          doubles_length, ids_length, List.length_map, wrapper, gridHeaderSize, idSize]
      push_cast
      omega)) (by
        rw [ints_length]
        have := hb.2
        rw [mul_comm] at this
        exact_mod_cast this)
    refine key _ e1 ?_
    show Res.ok _ = _
    rw [e2, ints_length, ← hb.1]
    congr 1
    rw [decide_eq_true_iff]
    push_cast
    ring

theorem readGlobalInfo_at (mach e : Endian) {fmt : Format} {ib : Bool} {C : Contents n} (hf : Fits fmt ib C)
    (hn : 0 < n) (ha : ¬ Ambiguous fmt ib C) : readGlobalInfo mach n (ho e fmt ib C) = .ok (e, fmt, ib) := by
  unfold readGlobalInfo
  have a1 : detectFormat mach (ho e fmt ib C) = .ok (e, fmt) := detectFormat_header ..
  have a2 : readInts mach e (ho e fmt ib C) 4 4 1 = .ok [(n : Int)] := readNumGrids mach e fmt hf.grids _ _
  rw [a1]
  show Res.bind (readInts mach e _ 4 4 1) _ = _
  rw [a2]
  show Res.bind (Res.check _) _ = _
  rw [Res.check, if_pos (by simp)]
  cases fmt
  · show Res.bind (detectIBlank mach e n _ 32) _ = _
    rw [detectIBlank_at mach e hf hn ha]
    rfl
  · have hlen : 80 ≤ ((ho e .extended ib C).length : Int) := by
      obtain ⟨m, rfl⟩ : ∃ m, n = m + 1 := ⟨n - 1, by omega⟩
      have hl := hoGrid_length e hf 0
      unfold ho
      rw [List.length_append, Nat.cast_add, fileHeader_length, List.finRange_succ, List.flatMap_cons,
        List.length_append, Nat.cast_add, hl]
      have : ib = false := by
        cases ib
        · rfl
        · have := (hf.iblank rfl).1
          simp at this
      subst this
      simp only [headerSize, wrapper, gridHeaderSize, idSize, Bool.false_eq_true, if_false]
      push_cast
      omega
    obtain ⟨l1, e1⟩ := readInts_long mach e (f := ho e .extended ib C) (off := 36) (sz := 8) (cnt := 4) (by decide) (by decide)
      (by push_cast; omega)
    obtain ⟨l2, e2⟩ := readInts_long mach e (f := ho e .extended ib C) (off := 68) (sz := 4) (cnt := 3) (by decide) (by decide)
      (by push_cast; omega)
    show Res.bind (readInts mach e _ 36 8 4) _ = _
    rw [e1]
    show Res.bind (readInts mach e _ 68 4 3) _ = _
    rw [e2]
    show Res.ok _ = _
    cases ib
    · rfl
    · have := (hf.iblank rfl).1
      simp at this

/-! ### Chunks -/

section Chunks

variable {α β : Type}

theorem slice_map (size k : Nat) (l : List α) (f : α → β) : slice size k (l.map f) = (slice size k l).map f := by
  simp [slice, List.map_take, List.map_drop]

theorem slice_length (size k : Nat) (l : List α) (h : size * k ≤ l.length) :
    (slice size k l).length = chunkLen size l.length k := by
  unfold slice chunkLen chunkHi chunkLo
  rw [List.length_take, List.length_drop, show (size : Int) * (k + 1) = size * k + size by ring]
  have e : ((size * k : Nat) : Int) = (size : Int) * k := by push_cast; rfl
  generalize (size : Int) * k = a at *
  generalize size * k = b at *
  omega

theorem slice_chunk (size k : Nat) (l : List α) (h : size * k ≤ l.length) :
    (l.drop (size * k)).take (chunkLen size l.length k) = slice size k l := by
  rw [← slice_length size k l h]
  unfold slice
  rw [List.length_take, List.take_eq_take_iff]
  simp

theorem slices_take (size k : Nat) (l : List α) :
    ((List.range k).map fun k' => slice size k' l).flatten = l.take (size * k) := by
  induction k with
  | zero => simp
  | succ k ih =>
    rw [List.range_succ, List.map_append, List.flatten_append, ih, Nat.mul_succ, List.take_add]
    simp [slice]

theorem chunk_small {m : Int} (h0 : 0 ≤ m) (h1 : m * 8 < 2 ^ 31) : Xintout.tooBig m = false := by
  unfold Xintout.tooBig
  rw [Int.emod_eq_of_lt h0 (by omega), Int.emod_eq_of_lt (by omega) (by omega)]
  rw [decide_eq_false_iff_not]
  omega

theorem chunk_diff {num size : Nat} {l : List α} (hd : Division num size l) {k : Nat} (hk : k < num) :
    chunkHi size l.length k - chunkLo size k = ((slice size k l).length : Int) := by
  have h := hd.begins k hk
  rw [slice_length size k l h]
  unfold chunkLen chunkHi chunkLo
  rw [show (size : Int) * (k + 1) = size * k + size by ring]
  have e : ((size * k : Nat) : Int) = (size : Int) * k := by push_cast; rfl
  generalize (size : Int) * k = a at *
  generalize size * k = b at *
  omega

theorem check_chunks {num size : Nat} {l : List α} (hd : Division num size l) :
    Res.check ((List.range num).all fun k => !Xintout.tooBig (chunkHi size l.length k - chunkLo size k)) = .ok () := by
  rw [Res.check, if_pos]
  rw [List.all_eq_true]
  intro k hk
  rw [List.mem_range] at hk
  rw [chunk_diff hd hk, chunk_small (by positivity) (by exact_mod_cast hd.small k hk)]
  rfl

theorem dims_ok {f : Fin 3 → Res α} {g : Fin 3 → α} (h : ∀ i, f i = .ok (g i)) : Res.dims f = .ok g := by
  unfold Res.dims
  show Res.bind _ _ = _
  rw [h 0]
  show Res.bind _ _ = _
  rw [h 1]
  show Res.bind _ _ = _
  rw [h 2]
  show Res.ok _ = _
  congr 1
  funext i
  fin_cases i <;> rfl

theorem list_ok {γ : Type} (l : List γ) {f : γ → Res α} {g : γ → α} (h : ∀ k ∈ l, f k = .ok (g k)) :
    Res.list (l.map f) = .ok (l.map g) := by
  induction l with
  | nil => rfl
  | cons k l ih =>
    show Res.bind _ _ = _
    rw [h k (by simp)]
    show Res.bind _ _ = _
    rw [ih fun k' hk' => h k' (by simp [hk'])]
    rfl

theorem getD_range {num k : Nat} (hk : k < num) (f : Nat → α) (d : α) : ((List.range num).map f).getD k d = f k := by
  rw [List.getD_eq_getElem?_getD, List.getElem?_map, List.getElem?_range hk]
  rfl

theorem perDim_at {f : List Byte} {off : Int} {p : Fin 3 → List Byte} (h : At f off (perDim p)) {m : Int}
    (hm : ∀ i, ((p i).length : Int) = m) (i : Fin 3) : At f (off + i.val * m) (p i) := by
  unfold perDim at h
  have h1 := hm 0
  have h2 := hm 1
  fin_cases i
  · exact h.left.cast (by simp)
  · exact h.right.left.cast (by simp; omega)
  · exact h.right.right.cast (by simp; omega)

/-- A dataset of integers is read correctly. -/
theorem dataset_ints (mach e : Endian) {f : List Byte} {off : Int} {l : List α} {v : Fin 3 → α → Int}
    (h : At f off (perDim fun i => ints e (l.map (v i)))) (hv : ∀ i, ∀ a ∈ l, Int.Fits 4 (v i a)) {size k : Nat}
    (hk : size * k ≤ l.length) :
    dataset (fun o n => readInts mach e f o 4 n) off 4 size l.length k = .ok fun i => (slice size k l).map (v i) := by
  apply dims_ok
  intro i
  have := readInts_at mach e (by decide) (perDim_at h (m := l.length * 4) (by intro i; simp [ints_length]; ring) i)
    (by
      intro a ha
      obtain ⟨b, hb, rfl⟩ := List.mem_map.mp ha
      exact hv i b hb) (lo := size * k) (cnt := chunkLen size l.length k) (by
        rw [List.length_map, ← slice_length size k l hk]
        simp [slice]
        omega) (off' := off + i.val * (l.length * 4) + chunkLo size k * 4) (by
          unfold chunkLo; push_cast; ring)
  rw [← slice_map, ← slice_chunk _ _ _ (by simpa using hk), List.length_map]
  exact this

theorem dataset_doubles (mach e : Endian) {f : List Byte} {off : Int} {l : List α} {v : Fin 3 → α → Nat}
    (h : At f off (perDim fun i => doubles e (l.map (v i)))) (hv : ∀ i, ∀ a ∈ l, v i a < 2 ^ 64) {size k : Nat}
    (hk : size * k ≤ l.length) :
    dataset (readDoubles mach e f) off 8 size l.length k = .ok fun i => (slice size k l).map (v i) := by
  apply dims_ok
  intro i
  have := readDoubles_at mach e (perDim_at h (m := l.length * 8) (by intro i; simp [doubles_length]; ring) i)
    (by
      intro a ha
      obtain ⟨b, hb, rfl⟩ := List.mem_map.mp ha
      exact hv i b hb) (lo := size * k) (cnt := chunkLen size l.length k) (by
        rw [List.length_map, ← slice_length size k l hk]
        simp [slice]
        omega) (off' := off + i.val * (l.length * 8) + chunkLo size k * 8) (by
          unfold chunkLo; push_cast; ring)
  rw [← slice_map, ← slice_chunk _ _ _ (by simpa using hk), List.length_map]
  exact this

theorem deal_flatMap (l : List α) (c : α → List Nat) :
    deal (l.map fun x => ((c x).length : Int)) (l.flatMap c) = l.map c := by
  induction l with
  | nil => rfl
  | cons x l ih =>
    rw [List.map_cons, List.flatMap_cons, List.map_cons, deal, Int.toNat_natCast, List.take_left, List.drop_left, ih]

theorem sum_lengths (l : List α) (c : α → List Nat) :
    (l.map fun x => ((c x).length : Int)).sum = ((l.flatMap c).length : Int) := by
  induction l with
  | nil => rfl
  | cons x l ih => rw [List.map_cons, List.sum_cons, ih, List.flatMap_cons, List.length_append]; push_cast; rfl

theorem sum_slices (num size : Nat) (l : List α) (c : α → List Nat) :
    ((List.range num).map fun k => (((slice size k l).flatMap c).length : Int)).sum =
      (((l.take (size * num)).flatMap c).length : Int) := by
  rw [← slices_take]
  induction List.range num with
  | nil => rfl
  | cons k ks ih =>
    rw [List.map_cons, List.sum_cons, ih, List.map_cons, List.flatten_cons, List.flatMap_append, List.length_append]
    push_cast
    rfl

theorem drop_take_flatMap (size k : Nat) (l : List α) (c : α → List Nat) :
    ((l.flatMap c).drop ((l.take (size * k)).flatMap c).length).take ((slice size k l).flatMap c).length =
      (slice size k l).flatMap c := by
  have h1 : l.flatMap c = (l.take (size * k)).flatMap c ++ (l.drop (size * k)).flatMap c := by
    rw [← List.flatMap_append, List.take_append_drop]
  have h2 : (l.drop (size * k)).flatMap c = (slice size k l).flatMap c ++ ((l.drop (size * k)).drop size).flatMap c := by
    rw [← List.flatMap_append]
    unfold slice
    rw [List.take_append_drop]
  rw [h1, List.drop_left, h2, List.take_left]

end Chunks

/-! ### `ReadDonors` and `ReadReceivers` -/

theorem assemble_slice {l : List (Xintout.DonorRec 3 Data)}
    (hx : ∀ x ∈ l, ∀ i, x.ext.e i = x.ext.b i + (x.data.2 i).length) :
    assemble (fun i => l.map fun x => ((x.data.2 i).length : Int)) (fun i => l.map fun x => x.ext.b i + 1)
      (fun i => l.map fun x => x.data.1 i) (fun i => l.map fun x => x.data.2 i) l.length = l := by
  apply List.ext_getElem
  · simp [assemble]
  · intro j h1 h2
    have hm := hx _ (List.getElem_mem h2)
    unfold assemble
    simp only [List.getElem_map, List.getElem_range, List.getD_eq_getElem?_getD, List.getElem?_map,
      List.getElem?_eq_getElem h2, Option.map_some, Option.getD_some]
    generalize l[j] = y at hm ⊢
    obtain ⟨⟨b, e⟩, data⟩ := y
    congr 1
    congr 1
    · funext i; ring
    · funext i
      have : e i = b i + (data.2 i).length := hm i
      rw [this]; ring

theorem readDonors_at (mach e : Endian) {fmt : Format} {ib : Bool} {C : Contents n} (hf : Fits fmt ib C) {h x : List Byte}
    {g : Fin n} {I : Info} (hI : Located e fmt C h x g I) {num size : Nat} (hd : Division num size (C.file.donors g))
    (hc : CoefsSmall num size (C.file.donors g)) :
    readDonors mach e h x I num size = .ok ((List.range num).map fun k => slice size k (C.file.donors g)) := by
  have hb : ∀ k ∈ List.range num, size * k ≤ (C.file.donors g).length := fun k hk => hd.begins k (List.mem_range.mp hk)
  unfold readDonors
  rw [hI.donors]
  show Res.bind (Res.check _) _ = _
  rw [check_chunks hd]
  show Res.bind (Res.list _) _ = _
  rw [list_ok _ fun k hk => dataset_ints mach e hI.sizes (fun i x hx => hf.width g x hx i) (hb k hk)]
  show Res.bind (Res.list _) _ = _
  rw [list_ok _ fun k hk => dataset_ints mach e hI.cells (fun i x hx => hf.cell g x hx i) (hb k hk)]
  show Res.bind (Res.list _) _ = _
  rw [list_ok _ fun k hk => dataset_doubles mach e hI.coords (fun i x hx => hf.coord g x hx i) (hb k hk)]
  have hsum : ∀ k ∈ List.range num, ∀ i, ((((List.range num).map fun k => fun i => (slice size k (C.file.donors g)).map
      fun x => ((x.data.2 i).length : Int)).getD k (fun _ => []) i).sum) =
      (((slice size k (C.file.donors g)).flatMap fun x => x.data.2 i).length : Int) := by
    intro k hk i
    rw [getD_range (List.mem_range.mp hk), sum_lengths]
  show Res.bind (Res.check _) _ = _
  rw [Res.check, if_pos (by
    rw [List.all_eq_true]
    intro k hk
    rw [decide_eq_true_iff]
    intro i
    refine Eq.trans (congrArg _ (hsum k hk i)) ?_
    exact chunk_small (by positivity) (by exact_mod_cast hc k (List.mem_range.mp hk) i))]
  have htotal : ∀ i, ((List.range num).map fun k => ((((List.range num).map fun k => fun i =>
      (slice size k (C.file.donors g)).map fun x => ((x.data.2 i).length : Int)).getD k (fun _ => []) i).sum)).sum =
      ((coefs C g i).length : Int) := by
    intro i
    rw [List.map_congr_left fun k hk => hsum k hk i, sum_slices, List.take_of_length_le hd.covers]
    rfl
  have hbefore : ∀ k ∈ List.range num, ∀ i, ((List.range k).map fun k => ((((List.range num).map fun k => fun i =>
      (slice size k (C.file.donors g)).map fun x => ((x.data.2 i).length : Int)).getD k (fun _ => []) i).sum)).sum =
      ((((C.file.donors g).take (size * k)).flatMap fun x => x.data.2 i).length : Int) := by
    intro k hk i
    rw [List.map_congr_left fun k' hk' => hsum k' (List.mem_range.mpr (by
      rw [List.mem_range] at hk hk'; omega)) i, sum_slices]
  have hplace : ∀ i, At x (![I.xCoefs, I.xCoefs + (coefs C g 0).length * 8,
      I.xCoefs + (coefs C g 0).length * 8 + (coefs C g 1).length * 8] i) (doubles e (coefs C g i)) := by
    have h := hI.coefs
    unfold perDim at h
    intro i
    fin_cases i
    · exact h.left
    · exact h.right.left.cast (by simp [doubles_length]; ring)
    · exact h.right.right.cast (by simp [doubles_length]; ring)
  show Res.bind (Res.list _) _ = _
  simp only [htotal]
  rw [list_ok _ fun k hk => dims_ok (g := fun i => (slice size k (C.file.donors g)).flatMap fun x => x.data.2 i) fun i => by
    rw [hbefore k hk i, hsum k hk i, Int.toNat_natCast]
    rw [readDoubles_at mach e (hplace i) (by
      intro v hv
      obtain ⟨y, hy, hv⟩ := List.mem_flatMap.mp hv
      exact hf.coef g y hy i v hv) (lo := (((C.file.donors g).take (size * k)).flatMap fun x => x.data.2 i).length) (by
        have := congrArg List.length (drop_take_flatMap size k (C.file.donors g) fun x => x.data.2 i)
        rw [List.length_take, List.length_drop] at this
        have hle : (((C.file.donors g).take (size * k)).flatMap fun x => x.data.2 i).length ≤ (coefs C g i).length := by
          unfold coefs
          conv_rhs => rw [← List.take_append_drop (size * k) (C.file.donors g), List.flatMap_append, List.length_append]
          omega
        change min _ ((coefs C g i).length - _) = _ at this
        omega) rfl]
    exact congrArg _ (drop_take_flatMap size k (C.file.donors g) fun x => x.data.2 i)]
  show Res.ok _ = _
  congr 1
  apply List.map_congr_left
  intro k hk
  have hk' := List.mem_range.mp hk
  simp only [getD_range hk', deal_flatMap]
  rw [← slice_length size k _ (hb k hk)]
  apply assemble_slice
  intro x hx
  exact hf.extent g x (List.mem_of_mem_drop (List.mem_of_mem_take hx))

theorem idSize_eq (fmt : Format) : idSize fmt = countSize fmt := by cases fmt <;> rfl

theorem readReceivers_at (mach e : Endian) {fmt : Format} {ib : Bool} {C : Contents n} (hf : Fits fmt ib C)
    {h x : List Byte} {g : Fin n} {I : Info} (hI : Located e fmt C h x g I) {num size : Nat}
    (hd : Division num size (C.file.receivers g)) :
    readReceivers mach e fmt h I num size =
      .ok ((List.range num).map fun k => (slice size k (C.file.receivers g)).map fun y => (y.1, (y.2 : Int))) := by
  have hb : ∀ k ∈ List.range num, size * k ≤ (C.file.receivers g).length := fun k hk => hd.begins k (List.mem_range.mp hk)
  unfold readReceivers
  rw [hI.receivers]
  show Res.bind (Res.check _) _ = _
  rw [check_chunks hd]
  show Res.bind (Res.list _) _ = _
  rw [list_ok _ fun k hk => dataset_ints mach e hI.points (fun i x hx => hf.point g x hx i) (hb k hk)]
  show Res.bind (Res.list _) _ = _
  have hids : At h I.hoIDs (((C.file.receivers g).map fun y => (y.2 : Int) + 1).flatMap (putInt e (idSize fmt))) := by
    have := hI.ids
    cases fmt
    · exact this
    · exact this
  rw [list_ok _ (g := fun k => (slice size k (C.file.receivers g)).map fun y => (y.2 : Int) + 1) fun k hk => by
    rw [readInts_at mach e (by cases fmt <;> decide) hids (by
      intro v hv
      obtain ⟨y, hy, rfl⟩ := List.mem_map.mp hv
      rw [idSize_eq]
      exact hf.id g y hy) (lo := size * k) (by
        rw [List.length_map, ← slice_length size k _ (hb k hk)]
        have := hb k hk
        simp [slice]
        omega) (by unfold chunkLo; push_cast; ring)]
    have := slice_chunk size k ((C.file.receivers g).map fun y => (y.2 : Int) + 1) (by simpa using hb k hk)
    rw [List.length_map] at this
    rw [this, slice_map]]
  show Res.ok _ = _
  congr 1
  apply List.map_congr_left
  intro k hk
  have hk' := List.mem_range.mp hk
  simp only [getD_range hk']
  rw [← slice_length size k _ (hb k hk)]
  apply List.ext_getElem
  · simp
  · intro j h1 h2
    have h3 : j < (slice size k (C.file.receivers g)).length := by simpa using h2
    simp only [List.getElem_map, List.getElem_range, List.getD_eq_getElem?_getD, List.getElem?_map,
      List.getElem?_eq_getElem h3, Option.map_some, Option.getD_some]
    congr 1
    · funext i; ring
    · ring

/-! ### C93 -/

/-- **C93.**  From files of either format and byte order, on machines of either byte order, with or without IBlank data,
every process reads its part of the donors and receivers. -/
def C93_statement : Prop :=
  ∀ (n : Nat) (mach e : Endian) (fmt : Format) (ib : Bool) (C : Contents n) (g : Fin n) (div : Int → Nat × Nat),
    Fits fmt ib C →
    Division (div (C.file.donors g).length).1 (div (C.file.donors g).length).2 (C.file.donors g) →
    CoefsSmall (div (C.file.donors g).length).1 (div (C.file.donors g).length).2 (C.file.donors g) →
    Division (div (C.file.receivers g).length).1 (div (C.file.receivers g).length).2 (C.file.receivers g) →
    readGrid mach n div (ho e fmt ib C) (x e fmt C) (C.size g) g =
      .ok (C.file.start g,
        (List.range (div (C.file.donors g).length).1).map fun k =>
          slice (div (C.file.donors g).length).2 k (C.file.donors g),
        (List.range (div (C.file.receivers g).length).1).map fun k =>
          (slice (div (C.file.receivers g).length).2 k (C.file.receivers g)).map fun y => (y.1, (y.2 : Int)))

/-- **C93** (partial): except for files of the standard format without IBlank data whose first grid has 7 points. -/
theorem C93_partial (mach e : Endian) (fmt : Format) (ib : Bool) (C : Contents n) (g : Fin n) (div : Int → Nat × Nat)
    (hf : Fits fmt ib C)
    (hd : Division (div (C.file.donors g).length).1 (div (C.file.donors g).length).2 (C.file.donors g))
    (hc : CoefsSmall (div (C.file.donors g).length).1 (div (C.file.donors g).length).2 (C.file.donors g))
    (hr : Division (div (C.file.receivers g).length).1 (div (C.file.receivers g).length).2 (C.file.receivers g))
    (ha : ¬ (fmt = .standard ∧ ib = false ∧ 2 ≤ n ∧ ∃ h : 0 < n, C.size ⟨0, h⟩ 0 * C.size ⟨0, h⟩ 1 * C.size ⟨0, h⟩ 2 = 7)) :
    readGrid mach n div (ho e fmt ib C) (x e fmt C) (C.size g) g =
      .ok (C.file.start g,
        (List.range (div (C.file.donors g).length).1).map fun k =>
          slice (div (C.file.donors g).length).2 k (C.file.donors g),
        (List.range (div (C.file.receivers g).length).1).map fun k =>
          (slice (div (C.file.receivers g).length).2 k (C.file.receivers g)).map fun y => (y.1, (y.2 : Int))) := by
  obtain ⟨⟨I, hI, hl⟩, -⟩ := readGridInfo_at mach e hf g
  unfold readGrid
  rw [readGlobalInfo_at mach e hf (by have := g.isLt; omega) ha]
  show Res.bind (readGridInfo ..) _ = _
  rw [hI]
  show Res.bind (readDonors ..) _ = _
  rw [hl.donors, readDonors_at mach e hf hl hd hc]
  show Res.bind (readReceivers ..) _ = _
  rw [hl.receivers, readReceivers_at mach e hf hl hr]
  show Res.ok (I.start, _) = _
  rw [hl.start]

/-- Files for another number of grids, or with a grid of another size, are refused. -/
theorem C93_mismatch (mach e : Endian) (fmt : Format) (ib : Bool) (C : Contents n) (hf : Fits fmt ib C)
    (div : Int → Nat × Nat) :
    (∀ m size iGrid, m ≠ n → readGrid mach m div (ho e fmt ib C) (x e fmt C) size iGrid = .error) ∧
    ∀ (g : Fin n) size, size ≠ C.size g → ¬ Ambiguous fmt ib C →
      readGrid mach n div (ho e fmt ib C) (x e fmt C) size g = .error := by
  constructor
  · intro m size iGrid hm
    unfold readGrid
    rw [readGlobalInfo_wrong mach e fmt ib C hf.grids hm]
    rfl
  · intro g size hs ha
    unfold readGrid
    rw [readGlobalInfo_at mach e hf (by have := g.isLt; omega) ha]
    show Res.bind (readGridInfo ..) _ = _
    rw [(readGridInfo_at mach e hf g).2 size hs]
    rfl

/-- The parts are those of the division by `Chunkify`, from which C73 goes on: what the process with rank `r` reads. -/
theorem C93_chunks (F : Xintout.File 3 n Data) (g : Fin n) (c : Xintout.Chunks) (r : Nat) (hr : c.has r = true) :
    slice c.size (c.rank r) (F.donors g) = (Xintout.readDonors F g c r).map Prod.snd ∧
    (slice c.size (c.rank r) (F.receivers g)).map (fun y => (y.1, (y.2 : Int))) =
      (Xintout.readReceivers F g c r).map fun y => (y.2, (y.1 : Int)) := by
  have key : ∀ {α : Type} (l : List α), Xintout.chunkOf c l r = slice c.size (c.rank r) l := by
    intro α l
    unfold Xintout.chunkOf
    rw [if_pos hr]
    unfold Xintout.Chunks.lo Xintout.Chunks.hi slice
    rw [show ((c.size : Int) * c.rank r).toNat = c.size * c.rank r by zify; exact Int.toNat_of_nonneg (by positivity),
      List.take_eq_take_iff, List.length_drop, show (c.size : Int) * (c.rank r + 1) = c.size * c.rank r + c.size by ring]
    have e : ((c.size * c.rank r : Nat) : Int) = (c.size : Int) * c.rank r := by push_cast; rfl
    generalize (c.size : Int) * c.rank r = a at *
    generalize c.size * c.rank r = b at *
    omega
  constructor
  · unfold Xintout.readDonors
    rw [key, List.map_map]
    apply List.ext_getElem <;> simp
  · unfold Xintout.readReceivers
    rw [key, List.map_map]
    rfl

/-! ### Witness -/

/-- Two grids without donors and receivers, the first with 7 points, the second with 8. -/
def seven : Contents 2 where
  file := ⟨fun _ => [], fun _ => 0, fun _ => []⟩
  size := fun g i => if i = 0 then 7 + g.val else 1
  iblank := fun _ => []
  header := fun _ => 0
  xHeader := fun _ => 0
  gridHeader := fun _ => 0
  tail := fun _ _ => 0

theorem seven_fits : Fits .standard false seven where
  grids := by constructor <;> decide
  donors := by intro g; constructor <;> simp [seven, countSize]
  receivers := by intro g; constructor <;> simp [seven, countSize]
  start := by intro g; constructor <;> simp [seven, countSize]
  size := by decide +kernel
  cell := by intro g x hx; simp [seven] at hx
  extent := by intro g x hx; simp [seven] at hx
  width := by intro g x hx; simp [seven] at hx
  coord := by intro g x hx; simp [seven] at hx
  coef := by intro g x hx; simp [seven] at hx
  point := by intro g x hx; simp [seven] at hx
  id := by intro g x hx; simp [seven] at hx
  coefs := by intro g; constructor <;> simp [seven, coefs, countSize]
  unused := by intro g; constructor <;> simp [seven, countSize]
  iblank := by simp

/-- The file is taken for one with IBlank data, -/
theorem seven_iblank : readGlobalInfo .little 2 (ho .little .standard false seven) = .ok (.little, .standard, true) := by
  decide +kernel

/-- Whether there is a result. -/
def Res.isOk {α : Type} : Res α → Bool
  | .ok _ => true
  | _ => false

theorem readGrid_ok {mach : Endian} {m : Nat} {div : Int → Nat × Nat} {h x : List Byte} {size : Fin 3 → Int} {iGrid : Nat}
    {r : Int × List (List (Xintout.DonorRec 3 Data)) × List (List (Tup 3 × Int))}
    (hr : readGrid mach m div h x size iGrid = .ok r) {e : Endian} {fmt : Format} {ib : Bool}
    (hg : readGlobalInfo mach m h = .ok (e, fmt, ib)) :
    (readGridInfo mach e fmt ib h x size iGrid).isOk = true := by
  unfold readGrid at hr
  rw [hg] at hr
  replace hr : Res.bind (readGridInfo mach e fmt ib h x size iGrid) (fun I => do
    let ds ← readDonors mach e h x I (div I.donors).1 (div I.donors).2
    let rs ← readReceivers mach e fmt h I (div I.receivers).1 (div I.receivers).2
    .ok (I.start, ds, rs)) = .ok r := hr
  cases hi : readGridInfo mach e fmt ib h x size iGrid with
  | ok I => rfl
  | error => rw [hi] at hr; exact nomatch hr
  | undefined => rw [hi] at hr; exact nomatch hr

/-- and the header of the second grid is not found. -/
theorem seven_info : (readGridInfo .little .little .standard true (ho .little .standard false seven)
    (x .little .standard seven) (seven.size 1) 1).isOk = false := by
  decide +kernel

theorem C93_false : ¬ C93_statement := by
  intro h
  have := h 2 .little .little .standard false seven 1 (fun _ => (1, 0)) seven_fits
    ⟨by simp, by simp [seven], by simp [slice]⟩ (by intro k hk i; simp [slice])
    ⟨by simp, by simp [seven], by simp [slice]⟩
  have h' := readGrid_ok this seven_iblank
  rw [show ((1 : Fin 2) : Nat) = 1 from rfl, seven_info] at h'
  simp at h'

/-- Of a file with less than four bytes, bytes are used that were never read. -/
theorem C93_short (mach : Endian) (m : Nat) (f : List Byte) (hf : f.length < 4) :
    readGlobalInfo mach m f = .undefined := by
  unfold readGlobalInfo detectFormat
  rw [if_pos hf]
  rfl

/-! ### Examples -/

/-- Two grids; two donors of different sizes on the first one, a receiver on the second one. -/
def demo : Contents 2 where
  file :=
    { donors := fun g => if g = 0 then
        [⟨⟨![0, 1, 0], ![2, 2, 1]⟩, (![1, 2, 3], ![[4, 5], [6], [7]])⟩,
         ⟨⟨![-1, 0, 0], ![0, 2, 1]⟩, (![8, 9, 10], ![[11], [12, 2 ^ 64 - 1], [13]])⟩] else []
      start := fun g => if g = 0 then 0 else 2
      receivers := fun g => if g = 0 then [] else [(![3, 2, 0], 1), (![0, 0, 0], 0)] }
  size := fun g => if g = 0 then ![4, 5, 1] else ![6, 3, 1]
  iblank := fun g => if g = 0 then List.replicate 20 1 else List.replicate 18 (-1)
  header := ![2, 2, 5, 6]
  xHeader := ![0, 0, 0, -3]
  gridHeader := fun _ => 5
  tail := fun _ => ![1, 2, 3]

/-- The hypotheses of `C93_partial`, for files with IBlank data. -/
example : Fits .standard true demo where
  grids := by decide +kernel
  donors := by decide +kernel
  receivers := by decide +kernel
  start := by decide +kernel
  size := by decide +kernel
  cell := by decide +kernel
  extent := by decide +kernel
  width := by decide +kernel
  coord := by decide +kernel
  coef := by decide +kernel
  point := by decide +kernel
  id := by decide +kernel
  coefs := by decide +kernel
  unused := by decide +kernel
  iblank := by intro _; exact ⟨rfl, by decide +kernel⟩

/-- And for the extended format. -/
example : Fits .extended false demo where
  grids := by decide +kernel
  donors := by decide +kernel
  receivers := by decide +kernel
  start := by decide +kernel
  size := by decide +kernel
  cell := by decide +kernel
  extent := by decide +kernel
  width := by decide +kernel
  coord := by decide +kernel
  coef := by decide +kernel
  point := by decide +kernel
  id := by decide +kernel
  coefs := by decide +kernel
  unused := by decide +kernel
  iblank := by simp

/-- Two processes read a donor each. -/
example : Division 2 1 (demo.file.donors 0) ∧ CoefsSmall 2 1 (demo.file.donors 0) ∧
    Division 2 1 (demo.file.receivers 1) := by
  refine ⟨⟨by decide +kernel, by decide +kernel, by decide +kernel⟩, ?_, ⟨by decide +kernel, by decide +kernel,
    by decide +kernel⟩⟩
  unfold CoefsSmall
  decide +kernel

/-- The first bytes of the HO file on a big-endian machine. -/
example : (ho .big .standard true demo).take 16 = [0, 0, 0, 20, 0, 0, 0, 2, 0, 0, 0, 2, 0, 0, 0, 2] := by decide +kernel

/-- A file cut off within the data is refused. -/
example : (readGrid .little 2 (fun _ => (1, 2)) (ho .big .standard true demo)
    ((x .big .standard demo).take 100) (demo.size 0) 0).isOk = false := by decide +kernel

end Ovk.XFile
