import Verif.Model.DataTypes
import Mathlib.Tactic.Linarith
import Mathlib.Tactic.Ring

/-!
# C134: values are treated as values of the data type that was named

The statement says what each data type stands for on its own (`Spec`), on every
platform the C++ standard permits on which a `bool` takes one byte.
-/

namespace Ovk.DataTypes

open Ovk.Indexer (Layout)

namespace Spec

/-- The type of C++ with the same name. -/
def named : DataType → CType
  | .bool => .bool
  | .byte => .byte
  | .int => .int
  | .long => .long
  | .longLong => .longLong
  | .uint => .uint
  | .ulong => .ulong
  | .ulongLong => .ulongLong
  | .float => .float
  | .double => .double

/-- What kind of values a type has. -/
inductive Kind | truth | natural | integer | real
  deriving DecidableEq

def kind : CType → Kind
  | .bool => .truth
  | .byte | .uint | .ulong | .ulongLong => .natural
  | .int | .long | .longLong => .integer
  | .float | .double => .real

/-- What the standard says about sizes, and that a `bool` takes one byte. -/
structure Standard (P : Platform) : Prop where
  bool : P.size .bool = 1
  byte : P.size .byte = 1
  int : 2 ≤ P.size .int
  long : 4 ≤ P.size .long
  longLong : 8 ≤ P.size .longLong
  intLong : P.size .int ≤ P.size .long
  longLongLong : P.size .long ≤ P.size .longLong
  uint : P.size .uint = P.size .int
  ulong : P.size .ulong = P.size .long
  ulongLong : P.size .ulongLong = P.size .longLong

/-- How many bytes one element of a type of MPI takes. -/
def mpiBytes (P : Platform) : MPIType → Option Nat
  | .null => none
  | .byte => some 1
  | .unsignedChar => some (P.size .byte)
  | .int => some (P.size .int)
  | .long => some (P.size .long)
  | .longLong => some (P.size .longLong)
  | .unsigned => some (P.size .uint)
  | .unsignedLong => some (P.size .ulong)
  | .unsignedLongLong => some (P.size .ulongLong)
  | .float => some (P.size .float)
  | .double => some (P.size .double)

/-- The kind of numbers a type of MPI has; bytes as such have none. -/
def mpiKind : MPIType → Option Kind
  | .null | .byte => none
  | .unsignedChar | .unsigned | .unsignedLong | .unsignedLongLong => some .natural
  | .int | .long | .longLong => some .integer
  | .float | .double => some .real

/-- The class template for an operation of an exchanger. -/
def collector (threaded : Bool) : CollectOp → Template
  | .none => .collectNone
  | .any => .collectAny
  | .notAll => .collectNotAll
  | .all => .collectAll
  | .interpolate => if threaded then .collectInterpThreaded else .collectInterp

def disperser : DisperseOp → Template
  | .overwrite => .disperseOverwrite
  | .append => .disperseAppend

/-- The first `n` values of data type `t` in memory are values: truth values are
false or true, everything else can be any bytes. -/
def values (t : DataType) (n : Nat) (mem : List Byte) : Prop :=
  t = .bool → ∀ b ∈ mem.take n, b.val ≤ 1

end Spec

open Spec

/-! ## What is made -/

/-- **C134**, collects of exchangers: what is made has the operation, the element type
and the layout that were named; interpolation is made exactly of floating point
values. -/
theorem C134_collect (threaded : Bool) (op : CollectOp) (t : DataType) (l : Layout) :
    exchangerCollect threaded op t l =
      if op = .interpolate ∧ kind (named t) ≠ .real then none
      else some ⟨collector threaded op, named t, some l⟩ := by
  cases op <;> cases t <;> cases l <;> cases threaded <;> rfl

example : exchangerCollect true .interpolate .float .col =
    some ⟨.collectInterpThreaded, .float, some .col⟩ := rfl
example : exchangerCollect false .interpolate .int .col = none := rfl

/-- **C134**, the other collects. -/
theorem C134_min_max (t : DataType) (l : Layout) :
    collectMin t l = some ⟨.collectMin, named t, some l⟩ ∧
    collectMax t l = some ⟨.collectMax, named t, some l⟩ := by
  cases t <;> cases l <;> exact ⟨rfl, rfl⟩

/-- **C134**, disperses of exchangers. -/
theorem C134_disperse (op : DisperseOp) (t : DataType) (l : Layout) :
    exchangerDisperse op t l = some ⟨disperser op, named t, some l⟩ := by
  cases op <;> cases t <;> cases l <;> rfl

example : exchangerDisperse .append .ulong .row =
    some ⟨.disperseAppend, .ulong, some .row⟩ := rfl

/-- **C134**, sends and receives. -/
theorem C134_send_recv (t : DataType) :
    send t = some ⟨.send, named t, none⟩ ∧ recv t = some ⟨.recv, named t, none⟩ := by
  cases t <;> exact ⟨rfl, rfl⟩

/-! ## Properties of data types -/

/-- **C134**, enumerators: different data types have different numbers, exactly these
numbers are valid, and the data type of an element type is the one it is made for. -/
theorem C134_codes :
    (∀ t u : DataType, code t = code u → t = u) ∧
    (∀ c : Nat, validCode c = true ↔ ∃ t, code t = c) ∧
    (∀ (t : DataType) (c : CType), typeOf c = t ↔ c = named t) := by
  refine ⟨fun t u h => ?_, fun c => ⟨fun h => ?_, fun ⟨t, h⟩ => ?_⟩, fun t c => ?_⟩
  · cases t <;> cases u <;> first | rfl | simp [code] at h
  · simp only [validCode, Bool.or_eq_true, beq_iff_eq] at h
    rcases h with ((((((((h | h) | h) | h) | h) | h) | h) | h) | h) | h <;> exact ⟨_, h.symm⟩
  · subst h; cases t <;> rfl
  · cases t <;> cases c <;> simp [typeOf, named]

/-- **C134**, classes: the predicates say what kind of values a data type has. -/
theorem C134_classes (t : DataType) :
    (isIntegral t = true ↔ kind (named t) ≠ .real) ∧
    (isFloatingPoint t = true ↔ kind (named t) = .real) ∧
    (isSigned t = true ↔ kind (named t) = .integer ∨ kind (named t) = .real) ∧
    (isUnsigned t = true ↔ kind (named t) = .truth ∨ kind (named t) = .natural) := by
  cases t <;> simp [isIntegral, isFloatingPoint, isSigned, isUnsigned, kind, named]

/-- **C134**, sizes. -/
theorem C134_size {P : Platform} (hP : Standard P) (t : DataType) :
    dataTypeSize P t = P.size (named t) := by
  cases t <;> simp [dataTypeSize, named, hP.bool, hP.byte]

/-- **C134**, sized names: they are of the kind they say, and have the size they say
wherever one of the three types of this kind has it. -/
theorem C134_sized {P : Platform} (hP : Standard P) :
    kind (named (int32 P)) = .integer ∧ kind (named (int64 P)) = .integer ∧
    kind (named (uint32 P)) = .natural ∧ kind (named (uint64 P)) = .natural ∧
    (∀ c ∈ [CType.int, .long, .longLong], P.size c = 4 → P.size (named (int32 P)) = 4) ∧
    (∀ c ∈ [CType.int, .long, .longLong], P.size c = 8 → P.size (named (int64 P)) = 8) ∧
    (∀ c ∈ [CType.uint, .ulong, .ulongLong], P.size c = 4 → P.size (named (uint32 P)) = 4) ∧
    (∀ c ∈ [CType.uint, .ulong, .ulongLong], P.size c = 8 → P.size (named (uint64 P)) = 8) := by
  have h8 := hP.longLong
  have h8' := hP.ulongLong
  refine ⟨?_, ?_, ?_, ?_, ?_, ?_, ?_, ?_⟩
  · unfold int32; split <;> rfl
  · unfold int64; split
    · rfl
    · split <;> rfl
  · unfold uint32; split <;> rfl
  · unfold uint64; split
    · rfl
    · split <;> rfl
  · intro c hc h
    unfold int32; split
    · assumption
    · simp only [List.mem_cons, List.not_mem_nil, or_false] at hc
      rcases hc with rfl | rfl | rfl
      · contradiction
      · exact h
      · omega
  · intro c hc h
    unfold int64; split
    · assumption
    · split
      · assumption
      · simp only [List.mem_cons, List.not_mem_nil, or_false] at hc
        rcases hc with rfl | rfl | rfl
        · contradiction
        · contradiction
        · exact h
  · intro c hc h
    unfold uint32; split
    · assumption
    · simp only [List.mem_cons, List.not_mem_nil, or_false] at hc
      rcases hc with rfl | rfl | rfl
      · contradiction
      · exact h
      · omega
  · intro c hc h
    unfold uint64; split
    · assumption
    · split
      · assumption
      · simp only [List.mem_cons, List.not_mem_nil, or_false] at hc
        rcases hc with rfl | rfl | rfl
        · contradiction
        · contradiction
        · exact h

/-! ## Bytes and numbers -/

theorem leNat_lt : ∀ bs : List Byte, leNat bs < 256 ^ bs.length
  | [] => by simp [leNat]
  | b :: r => by
    have h := leNat_lt r
    have hb := b.isLt
    simp only [leNat, List.length_cons, Nat.pow_succ]
    omega

theorem leBytes_leNat : ∀ bs : List Byte, leBytes bs.length (leNat bs) = bs
  | [] => rfl
  | b :: r => by
    have hb := b.isLt
    have h1 : (b.val + 256 * leNat r) % 256 = b.val := by omega
    have h2 : (b.val + 256 * leNat r) / 256 = leNat r := by omega
    simp only [leNat, List.length_cons, leBytes, h1, h2, leBytes_leNat r]

theorem order_order (P : Platform) (l : List Byte) : order P (order P l) = l := by
  unfold order; split <;> simp

theorem order_length (P : Platform) (l : List Byte) : (order P l).length = l.length := by
  unfold order; split <;> simp

theorem signedOf_mod {n v : Nat} (h : v < 256 ^ n) :
    (signedOf n v % ((256 ^ n : Nat) : Int)).toNat = v := by
  have h' : (v : Int) < ((256 ^ n : Nat) : Int) := by exact_mod_cast h
  unfold signedOf
  split
  · rw [Int.emod_eq_of_lt (by omega) h', Int.toNat_natCast]
  · have e : ((v : Int) - 256 ^ n) = (v : Int) - ((256 ^ n : Nat) : Int) := by push_cast; rfl
    rw [e, Int.sub_emod_right, Int.emod_eq_of_lt (by omega) h', Int.toNat_natCast]

/-- Writing a number that is the same as that of some bytes writes these bytes. -/
theorem write_of_mod {P : Platform} {t : CType} {bs : List Byte} (hl : bs.length = P.size t)
    {v : Int} (h : (v % ((256 ^ P.size t : Nat) : Int)).toNat = leNat (order P bs)) :
    writeValue P t v = bs := by
  unfold writeValue
  rw [h]
  have := leBytes_leNat (order P bs)
  rw [order_length, hl] at this
  rw [this, order_order]

theorem natCast_mod {n v : Nat} (h : v < 256 ^ n) :
    (((v : Int)) % ((256 ^ n : Nat) : Int)).toNat = v := by
  have h' : (v : Int) < ((256 ^ n : Nat) : Int) := by exact_mod_cast h
  rw [Int.emod_eq_of_lt (by omega) h', Int.toNat_natCast]

/-- The way of one value to a buffer and from a buffer to memory. -/
theorem roundtrip {P : Platform} (hP : Standard P) {t : CType} {bs : List Byte}
    (hl : bs.length = P.size t) (hb : t = .bool → ∀ b ∈ bs, b.val ≤ 1) :
    ∃ v w u, readValue P t bs = some v ∧ convert P t (mpiConvert t) v = some w ∧
      convert P (mpiConvert t) t w = some u ∧ writeValue P t u = bs := by
  have hlt : leNat (order P bs) < 256 ^ P.size t := by
    have := leNat_lt (order P bs)
    rwa [order_length, hl] at this
  cases t
  case bool =>
    have h1 := hP.bool
    have h2 := hP.byte
    have hb' := hb rfl
    rw [h1] at hl
    obtain ⟨b, rfl⟩ := List.length_eq_one_iff.1 hl
    have hb1 : b.val ≤ 1 := hb' b (by simp)
    have ho : order P [b] = [b] := by unfold order; split <;> rfl
    refine ⟨b.val, b.val, b.val, ?_, ?_, ?_, ?_⟩
    · simp [readValue, ho, leNat, hb1]
    · have : ((b.val : Int)) % 256 = b.val := by omega
      simp [convert, mpiConvert, h2, this]
    · have : (if (b.val : Int) = 0 then (0 : Int) else 1) = b.val := by split <;> omega
      simp only [convert, mpiConvert]
      simpa using this
    · refine write_of_mod (by simp [h1]) ?_
      rw [ho, h1]; simp [leNat]; omega
  case int =>
    exact ⟨_, _, _, rfl, rfl, rfl, write_of_mod hl (signedOf_mod hlt)⟩
  case long =>
    exact ⟨_, _, _, rfl, rfl, rfl, write_of_mod hl (signedOf_mod hlt)⟩
  case longLong =>
    exact ⟨_, _, _, rfl, rfl, rfl, write_of_mod hl (signedOf_mod hlt)⟩
  all_goals exact ⟨_, _, _, rfl, rfl, rfl, write_of_mod hl (natCast_mod hlt)⟩

theorem pack_unpack {P : Platform} (hP : Standard P) (t : CType) :
    ∀ (n : Nat) (src dst : List Byte), n * P.size t ≤ src.length → n * P.size t ≤ dst.length →
      (t = .bool → ∀ b ∈ src.take n, b.val ≤ 1) →
      ∃ b, pack P t n src = some b ∧
        unpack P t b dst = some (src.take (n * P.size t) ++ dst.drop (n * P.size t))
  | 0, src, dst, _, _, _ => ⟨[], rfl, by simp [unpack]⟩
  | n + 1, src, dst, hs, hd, hb => by
    have e : (n + 1) * P.size t = P.size t + n * P.size t := by ring
    rw [e] at hs hd ⊢
    have hl : (src.take (P.size t)).length = P.size t := by simp; omega
    obtain ⟨v, w, u, h1, h2, h3, h4⟩ := roundtrip hP (t := t) hl (by
      rintro rfl b hb'
      rw [hP.bool] at hb'
      exact hb rfl b (List.take_subset_take_left src (by omega) hb'))
    obtain ⟨r, h5, h6⟩ := pack_unpack hP t n (src.drop (P.size t)) (dst.drop (P.size t))
      (by simp; omega) (by simp; omega) (by
        rintro rfl b hb'
        rw [hP.bool] at hb'
        refine hb rfl b ?_
        rw [List.take_drop] at hb'
        have := List.mem_of_mem_drop hb'
        rwa [Nat.add_comm] at this)
    refine ⟨w :: r, ?_, ?_⟩
    · simp only [pack, if_pos (show P.size t ≤ src.length by omega), h1, h5,
        Option.bind_eq_bind, Option.bind_some, h2]
    · simp only [unpack, if_pos (show P.size t ≤ dst.length by omega), h3, h6]
      show some _ = some _
      rw [h4, List.take_add, List.drop_drop, List.append_assoc]

/-- **C134**, values within one operation: values that a collect or a halo exchange of any
element type gets from other processes are the bytes these have; nothing behind them is
written. -/
theorem C134_through {P : Platform} (hP : Standard P) (t : DataType) (n : Nat)
    (src dst : List Byte) (hs : n * P.size (named t) ≤ src.length)
    (hd : n * P.size (named t) ≤ dst.length) (hv : values t n src) :
    through P (named t) (named t) n src dst =
      some (src.take (n * P.size (named t)) ++ dst.drop (n * P.size (named t))) := by
  obtain ⟨b, h1, h2⟩ := pack_unpack hP (named t) n src dst hs hd (by
    intro h; exact hv (by cases t <;> simp [named] at h ⊢))
  simp only [through, h1, Option.bind_eq_bind, Option.bind_some, if_true, h2]

/-- **C134**, values sent and received: with the same data type on both sides the bytes
of the values arrive unchanged, on every platform; nothing behind them is written. -/
theorem C134_sent {P : Platform} (hP : Standard P) (t : DataType) (n : Nat)
    (src dst : List Byte) (hs : n * P.size (named t) ≤ src.length)
    (hd : n * P.size (named t) ≤ dst.length) (hv : values t n src) :
    transmit P t t n src dst =
      some (src.take (n * P.size (named t)) ++ dst.drop (n * P.size (named t))) := by
  have h := C134_through hP t n src dst hs hd hv
  obtain ⟨h1, h2⟩ := C134_send_recv t
  simp only [transmit, h1, h2, Option.bind_eq_bind, Option.bind_some, h]

/-- **C134**, different data types: messages match only if the data types are the same, or
both are one of booleans and bytes. -/
theorem C134_mismatch {P : Platform} {s d : DataType} {n : Nat} {src dst out : List Byte}
    (h : transmit P s d n src dst = some out) :
    s = d ∨ ((s = .bool ∨ s = .byte) ∧ (d = .bool ∨ d = .byte)) := by
  obtain ⟨h1, _⟩ := C134_send_recv s
  obtain ⟨_, h2⟩ := C134_send_recv d
  simp only [transmit, h1, h2, Option.bind_eq_bind, Option.bind_some, through] at h
  cases hp : pack P (named s) n src with
  | none => simp [hp] at h
  | some b =>
    simp only [hp, Option.bind_some] at h
    by_cases hm : mpiType (mpiConvert (named s)) = mpiType (mpiConvert (named d))
    · cases s <;> cases d <;> simp [named, mpiConvert, mpiType] at hm ⊢
    · rw [if_neg hm] at h; cases h

/-- **C134**, `DataTypeToMPI`: except for booleans the type of MPI has the size of the data
type, and its kind of numbers if it is one of numbers. -/
theorem C134_toMPI {P : Platform} (hP : Standard P) {t : DataType} (ht : t ≠ .bool) :
    mpiBytes P (toMPI t) = some (P.size (named t)) ∧
    (∀ k, mpiKind (toMPI t) = some k → k = kind (named t)) := by
  cases t <;> simp_all [mpiBytes, toMPI, named, mpiKind, kind, hP.byte]

/-- The type of the messages has the size and the kind of what is in the buffers. -/
theorem C134_buffer {P : Platform} (t : DataType) :
    mpiBytes P (mpiType (mpiConvert (named t))) = some (P.size (mpiConvert (named t))) ∧
    mpiKind (mpiType (mpiConvert (named t))) = some (kind (mpiConvert (named t))) := by
  cases t <;> exact ⟨rfl, rfl⟩

/-- The statement of C134 about `DataTypeToMPI`. -/
def C134_statement : Prop :=
  ∀ P, Standard P → ∀ t, mpiBytes P (toMPI t) = some (P.size (named t))

/-- LP64, little endian. -/
def lp64 : Platform where
  size := fun c => match c with
    | .bool | .byte => 1
    | .int | .uint | .float => 4
    | _ => 8
  big := false

theorem lp64_standard : Standard lp64 := by
  constructor <;> decide

/-- **C134** is false: there is no type of MPI for booleans. -/
theorem C134_false : ¬ C134_statement := fun h => by
  have := h lp64 lp64_standard .bool
  simp [mpiBytes, toMPI] at this

/-- **C134**, all that holds. -/
theorem C134_partial {P : Platform} (hP : Standard P) (t : DataType) :
    dataTypeSize P t = P.size (named t) ∧
    (t ≠ .bool → mpiBytes P (toMPI t) = some (P.size (named t))) ∧
    (∀ threaded op l, (op = .interpolate → kind (named t) = .real) →
      exchangerCollect threaded op t l = some ⟨collector threaded op, named t, some l⟩) ∧
    (∀ op l, exchangerDisperse op t l = some ⟨disperser op, named t, some l⟩) ∧
    (∀ n src dst, n * P.size (named t) ≤ src.length → n * P.size (named t) ≤ dst.length →
      values t n src → transmit P t t n src dst =
        some (src.take (n * P.size (named t)) ++ dst.drop (n * P.size (named t)))) := by
  refine ⟨C134_size hP t, fun h => (C134_toMPI hP h).1, fun threaded op l h => ?_,
    fun op l => C134_disperse op t l, fun n src dst => C134_sent hP t n src dst⟩
  rw [C134_collect, if_neg]
  rintro ⟨h1, h2⟩
  exact h2 (h h1)

/-! ## Examples -/

/-- Two ints of four bytes, the second negative, to the start of a larger memory. -/
example : transmit lp64 .int .int 2 [1, 2, 0, 0, 255, 255, 255, 255]
    [9, 9, 9, 9, 9, 9, 9, 9, 7] = some [1, 2, 0, 0, 255, 255, 255, 255, 7] := by
  decide +kernel

example : transmit lp64 .bool .bool 3 [1, 0, 1] [9, 9, 9] = some [1, 0, 1] := by
  decide +kernel

/-- Bytes received as booleans become truth values. -/
example : transmit lp64 .byte .bool 3 [5, 0, 1] [9, 9, 9] = some [1, 0, 1] := by
  decide +kernel

/-- What is no truth value cannot be sent as one; other types do not match. -/
example : transmit lp64 .bool .bool 1 [5] [9] = none := by decide +kernel
example : transmit lp64 .int .uint 1 [5, 0, 0, 0] [9, 9, 9, 9] = none := by decide +kernel

example : values .bool 2 [1, 0, 7] := by
  intro _; decide +kernel
example : int64 lp64 = .long ∧ int32 lp64 = .int := by decide

end Ovk.DataTypes
