/-
C71: every record of an XINTOUT file is read by exactly one process.
C72: matching finds the receiver of every donor and the donor of every receiver.
-/
import Verif.Model.Xintout
import Mathlib.Tactic.Ring
import Mathlib.Tactic.Linarith
import Mathlib.Data.List.FinRange
import Mathlib.Data.List.Nodup

namespace Ovk
namespace Xintout

namespace Spec

/-- Record `i` is read by process `r`, given the part `[lo, hi)` of the records each process reads. -/
def ReadBy (has : Nat → Bool) (lo hi : Nat → Int) (i r : Nat) : Prop :=
  has r = true ∧ lo r ≤ (i : Int) ∧ (i : Int) < hi r

/-- Every record is read by exactly one of the processes. -/
def Partition (procs count : Nat) (has : Nat → Bool) (lo hi : Nat → Int) : Prop :=
  ∀ i < count, ∃ r < procs, ReadBy has lo hi i r ∧ ∀ r' < procs, ReadBy has lo hi i r' → r' = r

/-- The records of one side, given by connection id and data for each process, are those of a file with `n`
connections: ids are below `n` and no two records have the same. -/
structure Side {P : Nat} {α : Type} (n : Nat) (entries : Fin P → List (Nat × α)) : Prop where
  lt : ∀ r, ∀ e ∈ entries r, e.1 < n
  nodup : ∀ r, ((entries r).map Prod.fst).Nodup
  disjoint : ∀ r r', r ≠ r' → ∀ e ∈ entries r, ∀ e' ∈ entries r', e.1 ≠ e'.1

/-- Every connection has a record. -/
def Complete {P : Nat} {α : Type} (n : Nat) (entries : Fin P → List (Nat × α)) : Prop :=
  ∀ i < n, ∃ r, ∃ e ∈ entries r, e.1 = i

/-- Every local record of one side has got the data which the other side has for its connection. -/
def Matched {P : Nat} {α β : Type} (mine : Fin P → List (Nat × α)) (other : Fin P → List (Nat × β))
    (found : Fin P → List (Option β)) : Prop :=
  ∀ r, (found r).length = (mine r).length ∧
    ∀ (j : Nat) (e : Nat × α), (mine r)[j]? = some e →
      ∃ b r', (e.1, b) ∈ other r' ∧ (found r)[j]? = some (some b)

/-- Quotient, rounded up. -/
def ceilDiv (n k : Nat) : Nat := if n % k = 0 then n / k else n / k + 1

/-- Widths that are tried: powers of two, at most the number of processes. -/
def width (procs k : Nat) : Nat := min (2 ^ k) procs

/-- With this width a process reads enough, or only one reads. -/
def Enough (count procs target k : Nat) : Prop :=
  ceilDiv procs (width procs k) = 1 ∨ target ≤ ceilDiv count (ceilDiv procs (width procs k))

end Spec

/-! ### Arithmetic -/

theorem binDivide_step {i : Nat} (hi : 0 < i) (r : Nat) :
    binDivide (r + 1) i = binDivide r i + if r % i = 0 then 1 else 0 := by
  unfold binDivide
  have hm := Nat.mod_lt r hi
  have hd := Nat.div_add_mod r i
  rw [show r + 1 + i - 1 = r + i by omega, Nat.add_div_right _ hi]
  split
  · next h =>
    have : (r + i - 1) / i = r / i := by
      apply Nat.div_eq_of_lt_le
      · rw [Nat.mul_comm]; omega
      · rw [Nat.mul_comm, Nat.mul_add]; omega
    omega
  · next h =>
    have : (r + i - 1) / i = r / i + 1 := by
      apply Nat.div_eq_of_lt_le
      · rw [Nat.mul_comm, Nat.mul_add]; omega
      · rw [Nat.mul_comm, Nat.mul_add, Nat.mul_add]; omega
    omega

theorem le_binDivide_mul {k : Nat} (hk : 0 < k) (n : Nat) : n ≤ binDivide n k * k := by
  unfold binDivide
  have h := Nat.div_add_mod (n + k - 1) k
  have hm := Nat.mod_lt (n + k - 1) hk
  rw [Nat.mul_comm]; omega

theorem binDivide_pos {n k : Nat} (hk : 0 < k) (hn : 0 < n) : 0 < binDivide n k := by
  unfold binDivide; exact Nat.div_pos (by omega) hk

theorem binDivide_gt_one {n k : Nat} (hk : 0 < k) (h : binDivide n k > 1) : k < n := by
  unfold binDivide at h
  have := (Nat.le_div_iff_mul_le hk).mp (show 2 ≤ (n + k - 1) / k from h)
  omega

theorem binDivide_le_self {n k : Nat} (hk : 0 < k) : binDivide n k ≤ n := by
  unfold binDivide
  rcases Nat.eq_zero_or_pos n with rfl | hn
  · simp; omega
  · apply Nat.le_of_lt_succ
    rw [Nat.div_lt_iff_lt_mul hk]
    nlinarith [Nat.sub_add_cancel (show 1 ≤ n + k by omega)]

/-- The rank among the reading processes. -/
theorem rank_eq (c : Chunks) (hi : 0 < c.interval) (r : Nat) : c.rank r = binDivide r c.interval := by
  unfold Chunks.rank
  induction r with
  | zero => simp [binDivide, Nat.div_eq_of_lt (show c.interval - 1 < c.interval by omega)]
  | succ r ih =>
    rw [List.range_succ, List.filter_append, List.length_append, ih, binDivide_step hi]
    congr 1
    unfold Chunks.has
    by_cases h : r % c.interval = 0 <;> simp [h]

/-! ### Chunkify -/

theorem fitLoop_spec (count maxChunks target : Nat) (hM : 0 < maxChunks) : ∀ (fuel interval : Nat),
    0 < interval → interval ≤ maxChunks → maxChunks ≤ interval + fuel →
    ∃ i, fitLoop count maxChunks target fuel interval = some i ∧ 0 < i ∧ i ≤ maxChunks ∧
      (binDivide maxChunks i = 1 ∨ target ≤ binDivide count (binDivide maxChunks i)) := by
  intro fuel
  induction fuel with
  | zero =>
    intro i h0 hle hf
    have : i = maxChunks := by omega
    have h1 : binDivide maxChunks i = 1 := by
      subst this; unfold binDivide
      apply Nat.div_eq_of_lt_le <;> omega
    refine ⟨i, ?_, h0, hle, Or.inl h1⟩
    unfold fitLoop
    simp [h1]
  | succ fuel ih =>
    intro i h0 hle hf
    unfold fitLoop
    simp only
    split
    · next h =>
      have hlt := binDivide_gt_one h0 h.2
      apply ih
      · unfold widen; omega
      · unfold widen; omega
      · unfold widen; omega
    · next h =>
      refine ⟨i, rfl, h0, hle, ?_⟩
      have hp := binDivide_pos h0 hM
      by_cases h1 : binDivide maxChunks i = 1
      · exact Or.inl h1
      · refine Or.inr ?_
        by_contra hc
        exact h ⟨by omega, by omega⟩

theorem adjustUp_spec (M : Nat) (hM : 0 < M) : ∀ (a i : Nat), 0 < i → i ≤ M →
    0 < adjustUp M a i ∧ adjustUp M a i ≤ M := by
  intro a
  induction a with
  | zero => intro i h0 hle; exact ⟨h0, hle⟩
  | succ a ih =>
    intro i h0 hle
    unfold adjustUp
    split
    · apply ih
      · unfold narrow; omega
      · unfold narrow; omega
    · exact ⟨h0, hle⟩

theorem adjustDown_spec (M : Nat) : ∀ (a i : Nat), 0 < i → i ≤ M →
    0 < adjustDown M a i ∧ adjustDown M a i ≤ M := by
  intro a
  induction a with
  | zero => intro i h0 hle; exact ⟨h0, hle⟩
  | succ a ih =>
    intro i h0 hle
    unfold adjustDown
    split
    · apply ih
      · unfold widen; omega
      · unfold widen; omega
    · exact ⟨h0, hle⟩

theorem chunkify_spec (count procs target : Nat) (adjust : Int) (hP : 0 < procs) :
    ∃ c, chunkify count procs target adjust = some c ∧ 0 < c.interval ∧ c.interval ≤ procs ∧
      c.num = binDivide procs c.interval ∧ c.size = binDivide count c.num ∧
      (adjust = 0 → c.num = 1 ∨ target ≤ c.size) := by
  obtain ⟨i, hi, h0, hle, ht⟩ := fitLoop_spec count procs target hP procs 1 (by omega) (by omega) (by omega)
  unfold chunkify
  rw [hi]
  refine ⟨_, rfl, ?_, ?_, rfl, rfl, ?_⟩
  · dsimp only
    split
    · exact (adjustUp_spec procs hP _ i h0 hle).1
    · split
      · exact (adjustDown_spec procs _ i h0 hle).1
      · exact h0
  · dsimp only
    split
    · exact (adjustUp_spec procs hP _ i h0 hle).2
    · split
      · exact (adjustDown_spec procs _ i h0 hle).2
      · exact hle
  · intro h
    subst h
    simpa using ht

/-! ### C71 -/

/-- C71: for any number of records (small enough for the reads to be possible at all), processes, target size
and granularity adjustment, reading does not fail and every record is read by exactly one process. -/
def C71_statement : Prop :=
  ∀ (count procs target : Nat) (adjust : Int), 0 < procs → procs < 2 ^ 31 → count * 8 ≤ 2 ^ 31 - 1 →
    ∃ c, chunkify count procs target adjust = some c ∧ sizeError c count procs = false ∧
      Spec.Partition procs count c.has c.lo (c.hi count)

theorem C71_covered (count procs target : Nat) (adjust : Int) (hP : 0 < procs) :
    ∃ c, chunkify count procs target adjust = some c ∧
      Spec.Partition procs count c.has c.lo (c.hi count) := by
  obtain ⟨c, hc, hi, hle, hn, hs, _⟩ := chunkify_spec count procs target adjust hP
  refine ⟨c, hc, ?_⟩
  intro i hcount
  have hn0 : 0 < c.num := hn ▸ binDivide_pos hi hP
  have hs0 : 0 < c.size := hs ▸ binDivide_pos hn0 (by omega)
  have hcov := le_binDivide_mul hn0 count
  rw [← hs] at hcov
  have hmul : ∀ k, binDivide (c.interval * k) c.interval = k := by
    intro k
    unfold binDivide
    apply Nat.div_eq_of_lt_le
    · rw [Nat.mul_comm]; omega
    · rw [Nat.mul_comm (k + 1), Nat.mul_add]; omega
  have hdm := Nat.div_add_mod i c.size
  have hml := Nat.mod_lt i hs0
  have hkn : i / c.size < c.num := by
    rw [Nat.div_lt_iff_lt_mul hs0, Nat.mul_comm]; omega
  have hr : c.rank (c.interval * (i / c.size)) = i / c.size := by rw [rank_eq c hi, hmul]
  refine ⟨c.interval * (i / c.size), ?_, ⟨?_, ?_, ?_⟩, ?_⟩
  · -- a multiple of the interval below the number of processes
    have : ∀ k, k < binDivide procs c.interval → c.interval * k < procs := by
      intro k hk
      unfold binDivide at hk
      have := (Nat.le_div_iff_mul_le hi).mp (Nat.succ_le_of_lt hk)
      rw [Nat.succ_mul, Nat.mul_comm] at this
      omega
    exact this _ (hn ▸ hkn)
  · simp [Chunks.has]
  · unfold Chunks.lo; rw [hr]
    have : ((c.size * (i / c.size) : Nat) : Int) ≤ (i : Int) := by exact_mod_cast (by omega)
    simpa using this
  · unfold Chunks.hi; rw [hr]
    have h1 : (i : Int) < ((c.size * (i / c.size + 1) : Nat) : Int) := by
      rw [Nat.mul_add]; exact_mod_cast (by omega)
    push_cast at h1
    exact lt_min h1 (by exact_mod_cast hcount)
  · rintro r' hr' ⟨hh, hlo, hhi⟩
    have hmod : r' % c.interval = 0 := by simpa [Chunks.has] using hh
    obtain ⟨k, rfl⟩ := Nat.dvd_of_mod_eq_zero hmod
    have hr2 : c.rank (c.interval * k) = k := by rw [rank_eq c hi, hmul]
    unfold Chunks.lo at hlo; rw [hr2] at hlo
    unfold Chunks.hi at hhi; rw [hr2] at hhi
    have hhi := lt_of_lt_of_le hhi (min_le_left _ _)
    have e1 : c.size * k ≤ i := by exact_mod_cast hlo
    have e2 : i < c.size * (k + 1) := by exact_mod_cast hhi
    have : i / c.size = k := Nat.div_eq_of_lt_le (by rw [Nat.mul_comm]; exact e1) (by rw [Nat.mul_comm]; exact e2)
    rw [this]

/-- C71: for counts of any size, if reading does not fail with the error then what each process reads is a
non-negative number of bytes that fits in an `int`. -/
theorem C71_fits (c : Chunks) (count procs : Nat) (hsmall : count < 2 ^ 59) (hc : ∀ r < procs, c.lo r < 2 ^ 59)
    (h : sizeError c count procs = false) (r : Nat) (hr : r < procs) (hh : c.has r = true) :
    0 ≤ c.hi count r - c.lo r ∧ (c.hi count r - c.lo r) * 8 ≤ 2 ^ 31 - 1 := by
  unfold sizeError at h
  rw [List.any_eq_false] at h
  have h1 := h r (List.mem_range.2 hr)
  rw [hh, Bool.true_and] at h1
  unfold tooBig at h1
  rw [decide_eq_true_iff] at h1
  have h2 := hc r hr
  have h3 : 0 ≤ c.lo r := by unfold Chunks.lo; positivity
  have h4 : c.hi count r ≤ count := min_le_right _ _
  have h5 : 0 ≤ c.hi count r := by unfold Chunks.hi; positivity
  generalize c.hi count r = x at *
  generalize c.lo r = y at *
  omega

example : sizeError ⟨1, 2, 2 ^ 28⟩ (2 ^ 29) 2 = true ∧ sizeError ⟨1, 2, 2 ^ 28 - 1⟩ (2 ^ 29 - 2) 2 = false := by
  decide +kernel

/-- C71, as far as it is true: every record is read by exactly one process, unless the last reading process
would start behind the end, in which case reading fails. -/
theorem C71_partial (count procs target : Nat) (adjust : Int) (hP : 0 < procs)
    (hP2 : procs < 2 ^ 31) (hsmall : count * 8 ≤ 2 ^ 31 - 1) :
    ∃ c, chunkify count procs target adjust = some c ∧
      Spec.Partition procs count c.has c.lo (c.hi count) ∧
      (sizeError c count procs = true ↔ count < c.size * (c.num - 1)) := by
  obtain ⟨c, hc, hi, hle, hn, hs, _⟩ := chunkify_spec count procs target adjust hP
  obtain ⟨c', hc', hpart⟩ := C71_covered count procs target adjust hP
  have : c' = c := by rw [hc] at hc'; exact (Option.some.inj hc').symm
  subst this
  refine ⟨c', hc, hpart, ?_⟩
  have hn0 : 0 < c'.num := hn ▸ binDivide_pos hi hP
  have hsc : c'.size ≤ count := hs ▸ binDivide_le_self hn0
  have hrank : ∀ k, c'.rank (c'.interval * k) = k := by
    intro k
    rw [rank_eq c' hi]
    unfold binDivide
    apply Nat.div_eq_of_lt_le
    · rw [Nat.mul_comm]; omega
    · rw [Nat.mul_comm (k + 1), Nat.mul_add]; omega
  have hbig : ∀ n : Int, -(2 ^ 31 : Int) ≤ n → n ≤ count → (tooBig n = true ↔ n < 0) := by
    intro n h1 h2
    unfold tooBig
    rw [decide_eq_true_iff]
    omega
  unfold sizeError
  rw [List.any_eq_true]
  constructor
  · rintro ⟨r, hr, h⟩
    rw [List.mem_range] at hr
    rw [Bool.and_eq_true] at h
    obtain ⟨hh, hb⟩ := h
    have hmod : r % c'.interval = 0 := by simpa [Chunks.has] using hh
    obtain ⟨k, rfl⟩ := Nat.dvd_of_mod_eq_zero hmod
    unfold Chunks.hi Chunks.lo at hb
    rw [hrank] at hb
    have hkn : k + 1 ≤ c'.num := by
      rw [hn]; unfold binDivide
      rw [Nat.le_div_iff_mul_le hi, Nat.succ_mul, Nat.mul_comm]; omega
    have hmulle : c'.size * k ≤ c'.size * (c'.num - 1) := Nat.mul_le_mul_left _ (by omega)
    by_contra hc
    have hck : c'.size * k ≤ count := by omega
    have hck' : ((c'.size : Int) * k) ≤ count := by exact_mod_cast hck
    have hsc' : (c'.size : Int) ≤ count := by exact_mod_cast hsc
    rw [hbig] at hb
    · have h3 : (c'.size : Int) * (k + 1) = c'.size * k + c'.size := by ring
      rw [h3] at hb
      have := Int.natCast_nonneg c'.size
      rcases min_choice ((c'.size : Int) * k + c'.size) (count : Int) with e | e <;> rw [e] at hb <;> linarith
    · have := Int.natCast_nonneg c'.size
      have : (c'.size : Int) * k ≤ min ((c'.size : Int) * (k + 1)) (count : Int) := by
        apply le_min _ hck'
        have h3 : (c'.size : Int) * (k + 1) = c'.size * k + c'.size := by ring
        linarith
      linarith
    · have h1 := min_le_left ((c'.size : Int) * (k + 1)) (count : Int)
      have h3 : (c'.size : Int) * (k + 1) = c'.size * k + c'.size := by ring
      linarith
  · intro h
    refine ⟨c'.interval * (c'.num - 1), ?_, ?_⟩
    · rw [List.mem_range]
      have hk : c'.num - 1 < binDivide procs c'.interval := by omega
      unfold binDivide at hk
      have := (Nat.le_div_iff_mul_le hi).mp (Nat.succ_le_of_lt hk)
      rw [Nat.succ_mul, Nat.mul_comm] at this
      omega
    · rw [Bool.and_eq_true]
      refine ⟨by simp [Chunks.has], ?_⟩
      unfold Chunks.hi Chunks.lo
      rw [hrank]
      have hcov := le_binDivide_mul hn0 count
      rw [← hs] at hcov
      have e : c'.num - 1 + 1 = c'.num := by omega
      have e2 : (((c'.num - 1 : Nat) : Int) + 1) = c'.num := by exact_mod_cast e
      rw [e2]
      have hmin : min ((c'.size : Int) * c'.num) (count : Int) = count :=
        min_eq_right (by exact_mod_cast hcov)
      rw [hmin]
      have h' : (count : Int) < c'.size * ((c'.num - 1 : Nat) : Int) := by exact_mod_cast h
      have hnp : c'.num ≤ procs := hn ▸ binDivide_le_self hi
      have hub : (c'.size : Int) * ((c'.num - 1 : Nat) : Int) ≤ count + procs := by
        have hdiv : c'.size * c'.num ≤ count + c'.num - 1 := by
          rw [hs]; unfold binDivide; exact Nat.div_mul_le_self _ _
        have : c'.size * c'.num = c'.size * (c'.num - 1) + c'.size := by
          conv_lhs => rw [← e]
          rw [Nat.mul_add, Nat.mul_one]
        have h2 : c'.size * (c'.num - 1) ≤ count + procs := by omega
        exact_mod_cast h2
      rw [hbig]
      · linarith
      · linarith
      · have := Int.natCast_nonneg count
        linarith

/-- Five records, eight points on four processes: two records are wanted per process, so all four processes
read two each, of which the last starts behind the end. -/
theorem C71_false : ¬ C71_statement := by
  intro h
  obtain ⟨c, hc, he, -⟩ := h 5 4 (binDivide 8 4) 0 (by decide) (by decide) (by decide)
  obtain ⟨c', hc', -, hiff⟩ := C71_partial 5 4 (binDivide 8 4) 0 (by decide) (by decide) (by decide)
  rw [show chunkify 5 4 (binDivide 8 4) 0 = some ⟨1, 4, 2⟩ by decide +kernel] at hc hc'
  obtain rfl := Option.some.inj hc
  obtain rfl := Option.some.inj hc'
  rw [hiff.mpr (by decide)] at he
  cases he

/-- The target is met, when it is not adjusted, unless one process reads everything. -/
theorem C71_target (count procs target : Nat) (hP : 0 < procs) :
    ∃ c, chunkify count procs target 0 = some c ∧ (c.num = 1 ∨ target ≤ c.size) := by
  obtain ⟨c, hc, _, _, _, _, h⟩ := chunkify_spec count procs target 0 hP
  exact ⟨c, hc, h rfl⟩

example : ∃ c, chunkify 100 8 30 0 = some c ∧ c.num = 2 ∧ c.size = 50 := ⟨⟨4, 2, 50⟩, by decide +kernel⟩

theorem binDivide_eq {n k : Nat} (hk : 0 < k) : binDivide n k = Spec.ceilDiv n k := by
  unfold binDivide Spec.ceilDiv
  have h := Nat.div_add_mod n k
  have hm := Nat.mod_lt n hk
  split
  · next h0 =>
    apply Nat.div_eq_of_lt_le
    · rw [Nat.mul_comm]; omega
    · rw [Nat.mul_comm, Nat.mul_add]; omega
  · next h0 =>
    apply Nat.div_eq_of_lt_le
    · rw [Nat.mul_comm, Nat.mul_add]; omega
    · rw [Nat.mul_comm, Nat.mul_add, Nat.mul_add]; omega

theorem width_pos {M : Nat} (hM : 0 < M) (k : Nat) : 0 < Spec.width M k := by
  unfold Spec.width; have := Nat.two_pow_pos k; omega

theorem widen_width (M k : Nat) : widen M (Spec.width M k) = Spec.width M (k + 1) := by
  unfold widen Spec.width; rw [Nat.pow_succ]; omega

theorem binDivide_self {M i : Nat} (h0 : 0 < i) (hle : i ≤ M) (h : ¬ binDivide M i > 1) : i = M := by
  by_contra hne
  apply h
  unfold binDivide
  exact (Nat.le_div_iff_mul_le h0).mpr (by omega)

theorem fitLoop_least (count M target : Nat) (hM : 0 < M) : ∀ (fuel k i : Nat),
    fitLoop count M target fuel (Spec.width M k) = some i → (∀ j < k, ¬ Spec.Enough count M target j) →
    ∃ k', i = Spec.width M k' ∧ Spec.Enough count M target k' ∧ ∀ j < k', ¬ Spec.Enough count M target j := by
  intro fuel
  induction fuel with
  | zero =>
    intro k i h hk
    unfold fitLoop at h
    simp only at h
    split at h
    · cases h
    · next hc =>
      obtain rfl := Option.some.inj h
      refine ⟨k, rfl, ?_, hk⟩
      have hp := binDivide_pos (width_pos hM k) hM
      unfold Spec.Enough
      rw [← binDivide_eq (width_pos hM k), ← binDivide_eq hp]
      omega
  | succ fuel ih =>
    intro k i h hk
    have hp := binDivide_pos (width_pos hM k) hM
    unfold fitLoop at h
    simp only at h
    split at h
    · next hc =>
      rw [widen_width] at h
      refine ih (k + 1) i h ?_
      intro j hj
      rcases Nat.lt_succ_iff_lt_or_eq.mp hj with hj | rfl
      · exact hk j hj
      · unfold Spec.Enough
        rw [← binDivide_eq (width_pos hM j), ← binDivide_eq hp]
        omega
    · next hc =>
      obtain rfl := Option.some.inj h
      refine ⟨k, rfl, ?_, hk⟩
      unfold Spec.Enough
      rw [← binDivide_eq (width_pos hM k), ← binDivide_eq hp]
      omega

theorem adjustUp_eq (M : Nat) : ∀ (a i : Nat), 0 < i → i ≤ M →
    adjustUp M a i = max (i / 2 ^ a) 1 := by
  intro a
  induction a with
  | zero => intro i h0 _; simp [adjustUp]; omega
  | succ a ih =>
    intro i h0 hle
    unfold adjustUp
    split
    · rw [ih (narrow i) (by unfold narrow; omega) (by unfold narrow; omega)]
      unfold narrow
      rw [Nat.pow_succ', ← Nat.div_div_eq_div_mul]
      by_cases h2 : i / 2 = 0
      · rw [h2]
        have : 1 / 2 ^ a ≤ 1 := Nat.div_le_self _ _
        rw [show max 0 1 = 1 from rfl]
        simp only [Nat.zero_div]
        omega
      · rw [show max (i / 2) 1 = i / 2 by omega]
    · next h =>
      have h1 : i = 1 ∨ M = 1 := by
        by_contra hc
        push Not at hc
        apply h
        unfold binDivide
        rw [Nat.div_lt_iff_lt_mul h0]
        have : 2 ≤ i := by omega
        have : 2 ≤ M := by omega
        have h3 : M + i ≤ M * i := by nlinarith
        omega
      have h1 : i = 1 := by omega
      subst h1
      rw [Nat.div_eq_of_lt (Nat.one_lt_two_pow (by omega))]
      rfl

theorem adjustDown_eq (M : Nat) : ∀ (a i : Nat), 0 < i → i ≤ M →
    adjustDown M a i = min (i * 2 ^ a) M := by
  intro a
  induction a with
  | zero => intro i h0 _; simp [adjustDown]; omega
  | succ a ih =>
    intro i h0 hle
    have hp := Nat.two_pow_pos a
    unfold adjustDown
    split
    · rw [ih (widen M i) (by unfold widen; omega) (by unfold widen; omega)]
      unfold widen
      rw [Nat.pow_succ', ← Nat.mul_assoc]
      rcases Nat.le_total (i * 2) M with h | h
      · rw [Nat.min_eq_left h]
      · rw [Nat.min_eq_right h]
        have h1 : M ≤ M * 2 ^ a := Nat.le_mul_of_pos_right _ hp
        have h2 : M ≤ i * 2 * 2 ^ a := h.trans (Nat.le_mul_of_pos_right _ hp)
        omega
    · next h =>
      obtain rfl := binDivide_self h0 hle h
      have := Nat.le_mul_of_pos_right i (Nat.two_pow_pos (a + 1))
      omega

/-- Which processes read, and how much: the smallest of the widths 1, 2, 4, …, number of processes, with which they
read enough; a positive adjustment halves it that many times, down to 1, a negative one doubles it, up to the number of
processes. -/
theorem C71_interval (count procs target : Nat) (adjust : Int) (hP : 0 < procs) :
    ∃ c k, chunkify count procs target adjust = some c ∧
      Spec.Enough count procs target k ∧ (∀ j < k, ¬ Spec.Enough count procs target j) ∧
      c.interval = (if 0 ≤ adjust then max (Spec.width procs k / 2 ^ adjust.toNat) 1
        else min (Spec.width procs k * 2 ^ (-adjust).toNat) procs) ∧
      c.num = Spec.ceilDiv procs c.interval ∧ c.size = Spec.ceilDiv count c.num := by
  obtain ⟨c, hc, hi, hle, hn, hs, _⟩ := chunkify_spec count procs target adjust hP
  obtain ⟨i, hf, h0, hli, ht⟩ := fitLoop_spec count procs target hP procs 1 (by omega) (by omega) (by omega)
  have h1 : Spec.width procs 0 = 1 := by unfold Spec.width; simp; omega
  obtain ⟨k, hk, he, hmin⟩ := fitLoop_least count procs target hP procs 0 i (by rw [h1]; exact hf) (by simp)
  refine ⟨c, k, hc, he, hmin, ?_, hn.trans (binDivide_eq hi),
    hs.trans (binDivide_eq (by rw [hn]; exact binDivide_pos hi hP))⟩
  have e : c.interval = (if adjust > 0 then adjustUp procs adjust.toNat i
    else if adjust < 0 then adjustDown procs (-adjust).toNat i else i) := by
    unfold chunkify at hc
    rw [hf] at hc
    have := Option.some.inj hc
    rw [← this]
  rw [e, adjustUp_eq procs _ i h0 hli, adjustDown_eq procs _ i h0 hli, ← hk]
  rcases lt_trichotomy adjust 0 with h | h | h
  · rw [if_neg (by omega), if_pos h, if_neg (by omega)]
  · subst h; simp; omega
  · rw [if_pos h, if_pos (by omega)]

example : ∃ c, chunkify 100 8 30 1 = some c ∧ c.interval = 2 ∧ c.num = 4 ∧ c.size = 25 :=
  ⟨⟨2, 4, 25⟩, by decide +kernel⟩

/-! ### Matching -/

variable {α β : Type}

theorem fill_spec (lo hi : Nat) : ∀ (es : List (Nat × α)) (m : Nat → Option α),
    (∀ e ∈ es, lo ≤ e.1 ∧ e.1 < hi) → (es.map Prod.fst).Nodup →
    ∃ m', fill lo hi es m = some m' ∧ (∀ e ∈ es, m' e.1 = some e.2) ∧
      ∀ i, (∀ e ∈ es, e.1 ≠ i) → m' i = m i := by
  intro es
  induction es with
  | nil => intro m _ _; exact ⟨m, rfl, by simp, fun _ _ => rfl⟩
  | cons e es ih =>
    intro m hin hnd
    obtain ⟨id, a⟩ := e
    have h0 := hin (id, a) (by simp)
    rw [List.map_cons, List.nodup_cons] at hnd
    obtain ⟨m', hm', h1, h2⟩ := ih (fun i => if i = id then some a else m i)
      (fun e he => hin e (by simp [he])) hnd.2
    refine ⟨m', ?_, ?_, ?_⟩
    · unfold fill; rw [if_pos h0]; exact hm'
    · intro e he
      rcases List.mem_cons.mp he with rfl | he
      · rw [h2]
        · simp
        · intro e' he' h
          exact hnd.1 (List.mem_map.mpr ⟨e', he', h⟩)
      · exact h1 e he
    · intro i hi
      rw [h2 i fun e he => hi e (by simp [he])]
      have := hi (id, a) (by simp)
      rw [if_neg fun h => this h.symm]

theorem unpack_spec (size : Nat) (f : Nat → Nat → Option β) : ∀ (es pre : List (Nat × α)),
    unpack size (fun b => (sendsTo size (pre ++ es) b).map fun e => f b e.1) es
      (fun b => (sendsTo size pre b).length) = es.map fun e => f (binOf size e.1) e.1 := by
  intro es
  induction es with
  | nil => intro pre; rfl
  | cons e es ih =>
    intro pre
    have h := ih (pre ++ [e])
    rw [List.append_assoc, List.singleton_append] at h
    unfold unpack
    rw [List.map_cons]
    refine congrArg₂ List.cons ?_ ?_
    · have : sendsTo size (pre ++ e :: es) (binOf size e.1) =
          sendsTo size pre (binOf size e.1) ++ e :: sendsTo size es (binOf size e.1) := by
        unfold sendsTo
        rw [List.filter_append, List.filter_cons_of_pos (by simp)]
      simp only [this, List.map_append, List.map_cons]
      rw [List.getElem?_append_right (by simp)]
      simp
    · rw [← h]
      congr 1
      funext c
      unfold sendsTo
      rw [List.filter_append, List.length_append]
      by_cases hc : c = binOf size e.1
      · subst hc; simp
      · rw [if_neg hc, List.filter_cons_of_neg (by simpa using fun h => hc h.symm)]; simp

theorem arriving_mem {P : Nat} (size : Nat) (entries : Fin P → List (Nat × α)) (b : Nat) (e : Nat × α) :
    e ∈ arriving size entries b ↔ (∃ r, e ∈ entries r) ∧ binOf size e.1 = b := by
  simp [arriving, sendsTo, List.mem_flatMap]

theorem arriving_nodup {P : Nat} {n : Nat} (size : Nat) (entries : Fin P → List (Nat × α))
    (h : Spec.Side n entries) (b : Nat) : ((arriving size entries b).map Prod.fst).Nodup := by
  unfold arriving
  rw [List.map_flatMap, List.nodup_flatMap]
  constructor
  · intro r _
    exact (h.nodup r).sublist (List.Sublist.map _ List.filter_sublist)
  · refine (List.nodup_finRange P).imp ?_
    intro r r' hne
    simp only [Function.onFun]
    rw [List.disjoint_left]
    intro i hi hi'
    obtain ⟨e, he, rfl⟩ := List.mem_map.mp hi
    obtain ⟨e', he', hh⟩ := List.mem_map.mp hi'
    exact h.disjoint r r' hne e (List.mem_of_mem_filter he) e' (List.mem_of_mem_filter he') hh.symm

theorem fillBins_spec {P : Nat} {n size : Nat} (hs : 0 < size) (entries : Fin P → List (Nat × α))
    (h : Spec.Side n entries) (b : Nat) :
    ∃ m, fillBins size n entries b = some m ∧
      ∀ i a, binOf size i = b → (m i = some a ↔ ∃ r, (i, a) ∈ entries r) := by
  obtain ⟨m, hm, h1, h2⟩ := fill_spec (binLo size b) (binHi size n b) (arriving size entries b)
    (fun _ => none) (by
      intro e he
      obtain ⟨⟨r, hr⟩, hb⟩ := (arriving_mem size entries b e).mp he
      unfold binLo binHi
      unfold binOf at hb
      have hdm := Nat.div_add_mod e.1 size
      have hml := Nat.mod_lt e.1 hs
      rw [hb] at hdm
      refine ⟨by omega, lt_min ?_ (h.lt r e hr)⟩
      rw [Nat.mul_add]; omega) (arriving_nodup size entries h b)
  refine ⟨m, hm, ?_⟩
  intro i a hb
  constructor
  · intro hi
    by_contra hc
    by_cases hex : ∃ e ∈ arriving size entries b, e.1 = i
    · obtain ⟨e, he, rfl⟩ := hex
      rw [h1 e he] at hi
      obtain ⟨⟨r, hr⟩, _⟩ := (arriving_mem size entries b e).mp he
      have : e.2 = a := Option.some.inj hi
      exact hc ⟨r, by rw [← this]; exact hr⟩
    · rw [h2 i fun e he hei => hex ⟨e, he, hei⟩] at hi
      cases hi
  · rintro ⟨r, hr⟩
    exact h1 (i, a) ((arriving_mem size entries b _).mpr ⟨⟨r, hr⟩, hb⟩)

theorem procs_spec {P : Nat} {γ : Type} (f : Fin P → Option γ) (g : Fin P → γ) (h : ∀ r, f r = some (g r)) :
    procs f = some g := by
  unfold procs
  rw [dif_pos (fun r => by rw [h r]; rfl)]
  congr 1
  funext r
  simp [h r]

theorem binsExist_of {P : Nat} {n pts : Nat} (hP : 0 < P) (hn : n ≤ pts)
    (entries : Fin P → List (Nat × α)) (h : Spec.Side n entries) : binsExist (binSize pts n P) entries := by
  intro r e he
  have hlt := h.lt r e he
  have hpos : 0 < binSize pts n P := by
    unfold binSize
    exact lt_min (binDivide_pos hP (by omega)) (by omega)
  refine ⟨by omega, ?_⟩
  unfold binOf
  rw [Nat.div_lt_iff_lt_mul hpos]
  have hcov := le_binDivide_mul hP pts
  unfold binSize
  rcases Nat.le_total (binDivide pts P) n with hle | hle
  · rw [Nat.min_eq_left hle, Nat.mul_comm]; omega
  · rw [Nat.min_eq_right hle]
    nlinarith

/-- The data found for every record, exactly. -/
theorem C72_lookup {P : Nat} (pts n : Nat) (hP : 0 < P) (hn : n ≤ pts)
    (mine : Fin P → List (Nat × α)) (other : Fin P → List (Nat × β))
    (hm : Spec.Side n mine) (ho : Spec.Side n other) :
    ∃ found, matchSide pts n mine other = some found ∧ ∀ r, (found r).length = (mine r).length ∧
      ∀ (j : Nat) (e : Nat × α), (mine r)[j]? = some e →
        ∃ o, (found r)[j]? = some o ∧ ∀ b, o = some b ↔ ∃ r', (e.1, b) ∈ other r' := by
  have hbm := binsExist_of hP hn mine hm
  have hbo := binsExist_of hP hn other ho
  rcases Nat.eq_zero_or_pos n with h0 | hpos
  · -- nothing to match
    have hmn : ∀ r, mine r = [] := by
      intro r
      rcases hr : mine r with _ | ⟨e, es⟩
      · rfl
      · have := hm.lt r e (by rw [hr]; simp); omega
    have hon : ∀ r, other r = [] := by
      intro r
      rcases hr : other r with _ | ⟨e, es⟩
      · rfl
      · have := ho.lt r e (by rw [hr]; simp); omega
    unfold matchSide
    simp only
    rw [if_pos ⟨hbm, hbo⟩]
    rw [procs_spec _ (fun _ => fun _ => none) (by
      intro b; unfold fillBins; rw [show arriving (binSize pts n P) mine b.val = [] by
        simp [arriving, sendsTo, hmn]]; rfl)]
    rw [procs_spec _ (fun _ => fun _ => none) (by
      intro b; unfold fillBins; rw [show arriving (binSize pts n P) other b.val = [] by
        simp [arriving, sendsTo, hon]]; rfl)]
    refine ⟨_, rfl, ?_⟩
    intro r
    simp [hmn, unpack]
  · have hs : 0 < binSize pts n P := by
      unfold binSize
      exact lt_min (binDivide_pos hP (by omega)) hpos
    choose mb hmb _ using fillBins_spec (P := P) hs mine hm
    choose ob hob hobs using fillBins_spec (P := P) hs other ho
    refine ⟨fun r => (mine r).map fun e => ob (binOf (binSize pts n P) e.1) e.1, ?_, ?_⟩
    · unfold matchSide
      simp only
      rw [if_pos ⟨hbm, hbo⟩, procs_spec _ (fun b => mb b.val) (fun b => hmb b.val),
        procs_spec _ (fun b => ob b.val) (fun b => hob b.val)]
      simp only [bind, Option.bind]
      congr 1
      funext r
      have h := unpack_spec (binSize pts n P)
        (fun b i => (if h : b < P then ob b else fun _ => none) i) (mine r) []
      rw [List.nil_append] at h
      unfold reply
      refine Eq.trans ?_ (h.trans ?_)
      · congr 1
      · apply List.map_congr_left
        intro e he
        rw [dif_pos (hbm r e he).2]
    · intro r
      refine ⟨by simp, ?_⟩
      intro j e hj
      refine ⟨ob (binOf (binSize pts n P) e.1) e.1, by simp [hj], ?_⟩
      intro b
      exact hobs _ e.1 b rfl

/-- C72: for every file with as many connections as records on each side, however its records are distributed
over the processes, matching succeeds and every donor gets the receiver of its connection and every receiver
the donor of its connection. -/
theorem C72_matching {P : Nat} (pts n : Nat) (hP : 0 < P) (hn : n ≤ pts)
    (donors : Fin P → List (Nat × α)) (receivers : Fin P → List (Nat × β))
    (hd : Spec.Side n donors) (hr : Spec.Side n receivers)
    (hdc : Spec.Complete n donors) (hrc : Spec.Complete n receivers) :
    (∃ found, matchSide pts n donors receivers = some found ∧ Spec.Matched donors receivers found) ∧
      ∃ found, matchSide pts n receivers donors = some found ∧ Spec.Matched receivers donors found := by
  constructor
  · obtain ⟨f, hf, h⟩ := C72_lookup pts n hP hn donors receivers hd hr
    refine ⟨f, hf, fun r => ⟨(h r).1, fun j e hj => ?_⟩⟩
    obtain ⟨o, hoj, hob⟩ := (h r).2 j e hj
    obtain ⟨r', e', he', hee⟩ := hrc e.1 (hd.lt r e (List.mem_of_getElem? hj))
    have hmem : (e.1, e'.2) ∈ receivers r' := by rw [← hee]; exact he'
    exact ⟨e'.2, r', hmem, by rw [hoj, (hob e'.2).mpr ⟨r', hmem⟩]⟩
  · obtain ⟨f, hf, h⟩ := C72_lookup pts n hP hn receivers donors hr hd
    refine ⟨f, hf, fun r => ⟨(h r).1, fun j e hj => ?_⟩⟩
    obtain ⟨o, hoj, hob⟩ := (h r).2 j e hj
    obtain ⟨r', e', he', hee⟩ := hdc e.1 (hr.lt r e (List.mem_of_getElem? hj))
    have hmem : (e.1, e'.2) ∈ donors r' := by rw [← hee]; exact he'
    exact ⟨e'.2, r', hmem, by rw [hoj, (hob e'.2).mpr ⟨r', hmem⟩]⟩

/-- Two processes, three connections. -/
example : (matchSide (P := 2) 8 3
    (fun r => if r = 0 then [(0, "d0"), (1, "d1")] else [(2, "d2")])
    (fun r => if r = 0 then [(2, "r2")] else [(1, "r1"), (0, "r0")])).map (fun f => (f 0, f 1)) =
    some ([some "r0", some "r1"], [some "r2"]) := by decide +kernel

example : Spec.Side (P := 2) 3 (fun r => if r = 0 then [(2, "r2")] else [(1, "r1"), (0, "r0")]) ∧
    Spec.Complete (P := 2) 3 (fun r => if r = 0 then [(2, "r2")] else [(1, "r1"), (0, "r0")]) :=
  ⟨⟨by decide, by decide, by decide⟩, by unfold Spec.Complete; decide⟩

end Xintout
end Ovk
