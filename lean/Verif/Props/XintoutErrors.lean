/-
Property C97: errors while reading XINTOUT files.
-/
import Verif.Model.XintoutErrors
import Verif.Lemmas.Collective
import Mathlib.Tactic.IntervalCases
import Mathlib.Tactic.FinCases

namespace Ovk.XErr
open Coll
variable {n : Nat}

namespace Spec
/-- Places where `ReadDonors` and `ReadReceivers` can find errors. -/
def places : Part → Nat
  | .donors => 16
  | .receivers => 6

/-- Some process finds an error in the data of grid `g`. -/
def Fails (I : Input n) (g : Nat) : Prop :=
  (∃ p, I.holds g p = true ∧ I.infoErr g p = true) ∨
    ∃ part p s, I.hasChunk g part p = true ∧ s < places part ∧ I.err g part s p = true

/-- There is an error to be found. -/
def AnyError (I : Input n) : Prop := (∃ p, I.globalErr p = true) ∨ ∃ g ∈ I.grids, Fails I g

/-- Only processes that have a grid read parts of it. -/
def Proper (I : Input n) : Prop := ∀ g part p, I.hasChunk g part p = true → I.holds g p = true

/-- All executions of `x` end, all processes with `t`. -/
def Ends (I : Input n) (x : Fin n → Prog Comm) (t : Bool) : Prop :=
  ∃ N, ∀ cs y, run (member I) x cs = some y →
    cs.length ≤ N ∧ ((∀ c, step (member I) y c = none) → ∀ p, y p = .ret t)

/-- Opening a file fails on all processes that open it or on none. -/
def OpensAlike (I : Input n) : Prop :=
  ∀ g part p q, I.hasChunk g part p = true → I.hasChunk g part q = true →
    I.err g part 1 p = I.err g part 1 q ∧ (part = .donors → I.err g part 2 p = I.err g part 2 q)

/-- Process `p` has found an error in one of the grids `l`. -/
def Out (I : Input n) (l : List Nat) (p : Fin n) : Prop := ∃ g ∈ l, I.holds g p = true ∧ Fails I g

/-- When it is the turn of a grid, all or none of its processes have found an error in a grid before it. -/
def Together (I : Input n) : Prop :=
  ∀ l g l', I.grids = l ++ g :: l' → ∀ p q, I.holds g p = true → I.holds g q = true → (Out I l p ↔ Out I l q)
end Spec

/-- C97, as stated in properties.jsonl: reading ends, and all processes throw if and only if there is an error. -/
def C97_statement : Prop :=
  ∀ (n : Nat) (I : Input n), Spec.Proper I → ∃ t, (t = true ↔ Spec.AnyError I) ∧ Spec.Ends I (read I) t

/-! ### Reading one grid -/

open Classical in
/-- Whether `f` holds for a process in `S`. -/
noncomputable def any (S f : Fin n → Bool) : Bool := decide (∃ p, S p = true ∧ f p = true)

theorem any_iff {S f : Fin n → Bool} : any S f = true ↔ ∃ p, S p = true ∧ f p = true := by
  unfold any; rw [decide_eq_true_eq]

variable {I : Input n}

theorem openFile_runs {g : Nat} {part : Part} {x : Bool} {e : Fin n → Bool}
    (he : ∀ p q, I.hasChunk g part p = true → I.hasChunk g part q = true → e p = e q) :
    Runs (member I) (I.hasChunk g part) (fun p => openFile (.chunk g part) x (e p)) fun _ => any (I.hasChunk g part) e := by
  refine .coll (fun p => rfl) (r := false) (by simp) (Runs.congr (.ret e) (fun _ _ => rfl) fun p hp => ?_)
  rw [Bool.eq_iff_iff, any_iff]
  exact ⟨fun h => ⟨p, hp, h⟩, fun ⟨q, hq, h⟩ => by rw [he p q hp hq]; exact h⟩

theorem check_runs {S : Fin n → Bool} {c : Comm} {e : Fin n → Bool} (hS : ∀ p, member I c p = S p) :
    Runs (member I) S (fun p => .check c (e p)) fun _ => any S e := .check hS any_iff

theorem plain_runs {S : Fin n → Bool} {c : Comm} {l : Kind} (hS : ∀ p, member I c p = S p) :
    Runs (member I) S (fun _ => .plain c l) fun _ => false := .plain hS

theorem dataset_runs {S : Fin n → Bool} {c : Comm} {x : Bool} {e : Fin n → Bool} (hS : ∀ p, member I c p = S p) :
    Runs (member I) S (fun p => dataset c x (e p)) fun _ => any S e :=
  Runs.congr (.seqs_cons (plain_runs hS) (.seqs_cons (plain_runs hS) (.seqs_cons (check_runs hS) .seqs_nil)))
    (fun _ _ => rfl) fun _ _ => by simp

theorem chunk_runs (ho : Spec.OpensAlike I) (g : Nat) (part : Part) :
    ∃ b, (b = true ↔ ∃ p s, I.hasChunk g part p = true ∧ s < Spec.places part ∧ I.err g part s p = true) ∧
      Runs (member I) (I.hasChunk g part) (chunk I g part) fun _ => b := by
  have hS : ∀ p, member I (.chunk g part) p = I.hasChunk g part p := fun _ => rfl
  cases part with
  | donors =>
    have h1 : ∀ p q, I.hasChunk g .donors p = true → I.hasChunk g .donors q = true →
        I.err g .donors 1 p = I.err g .donors 1 q := fun p q hp hq => (ho g .donors p q hp hq).1
    have h2 : ∀ p q, I.hasChunk g .donors p = true → I.hasChunk g .donors q = true →
        I.err g .donors 2 p = I.err g .donors 2 q := fun p q hp hq => (ho g .donors p q hp hq).2 rfl
    refine ⟨_, ?_, .seqs_cons (check_runs hS) (.seqs_cons (openFile_runs h1) (.seqs_cons (.closing (plain_runs hS)
      (.seqs_cons (openFile_runs h2) (.seqs_cons (.closing (plain_runs hS)
        (.seqs_cons (dataset_runs hS) (.seqs_cons (dataset_runs hS) (.seqs_cons (dataset_runs hS)
        (.seqs_cons (dataset_runs hS) (.seqs_cons (dataset_runs hS) (.seqs_cons (dataset_runs hS)
        (.seqs_cons (dataset_runs hS) (.seqs_cons (dataset_runs hS) (.seqs_cons (dataset_runs hS)
        (.seqs_cons (check_runs hS) (.seqs_cons (plain_runs hS) (.seqs_cons (plain_runs hS)
        (.seqs_cons (dataset_runs hS) (.seqs_cons (dataset_runs hS) (.seqs_cons (dataset_runs hS) .seqs_nil)))))))))))))))) .seqs_nil)))
        .seqs_nil))⟩
    simp only [Bool.or_eq_true, any_iff, Bool.false_eq_true, or_false, false_or]
    constructor
    · rintro (⟨p, hp, h⟩ | ⟨p, hp, h⟩ | ⟨p, hp, h⟩ | ⟨p, hp, h⟩ | ⟨p, hp, h⟩ | ⟨p, hp, h⟩ | ⟨p, hp, h⟩ | ⟨p, hp, h⟩ |
        ⟨p, hp, h⟩ | ⟨p, hp, h⟩ | ⟨p, hp, h⟩ | ⟨p, hp, h⟩ | ⟨p, hp, h⟩ | ⟨p, hp, h⟩ | ⟨p, hp, h⟩ | ⟨p, hp, h⟩) <;>
        (refine ⟨p, _, hp, ?_, h⟩; decide)
    · rintro ⟨p, s, hp, hs, h⟩
      unfold Spec.places at hs
      interval_cases s <;>
        first
        | exact .inl ⟨p, hp, h⟩
        | exact .inr (.inl ⟨p, hp, h⟩)
        | exact .inr (.inr (.inl ⟨p, hp, h⟩))
        | exact .inr (.inr (.inr (.inl ⟨p, hp, h⟩)))
        | exact .inr (.inr (.inr (.inr (.inl ⟨p, hp, h⟩))))
        | exact .inr (.inr (.inr (.inr (.inr (.inl ⟨p, hp, h⟩)))))
        | exact .inr (.inr (.inr (.inr (.inr (.inr (.inl ⟨p, hp, h⟩))))))
        | exact .inr (.inr (.inr (.inr (.inr (.inr (.inr (.inl ⟨p, hp, h⟩)))))))
        | exact .inr (.inr (.inr (.inr (.inr (.inr (.inr (.inr (.inl ⟨p, hp, h⟩))))))))
        | exact .inr (.inr (.inr (.inr (.inr (.inr (.inr (.inr (.inr (.inl ⟨p, hp, h⟩)))))))))
        | exact .inr (.inr (.inr (.inr (.inr (.inr (.inr (.inr (.inr (.inr (.inl ⟨p, hp, h⟩))))))))))
        | exact .inr (.inr (.inr (.inr (.inr (.inr (.inr (.inr (.inr (.inr (.inr (.inl ⟨p, hp, h⟩)))))))))))
        | exact .inr (.inr (.inr (.inr (.inr (.inr (.inr (.inr (.inr (.inr (.inr (.inr (.inl ⟨p, hp, h⟩))))))))))))
        | exact .inr (.inr (.inr (.inr (.inr (.inr (.inr (.inr (.inr (.inr (.inr (.inr (.inr (.inl ⟨p, hp, h⟩)))))))))))))
        | exact .inr (.inr (.inr (.inr (.inr (.inr (.inr (.inr (.inr (.inr (.inr (.inr (.inr (.inr (.inl ⟨p, hp, h⟩))))))))))))))
        | exact .inr (.inr (.inr (.inr (.inr (.inr (.inr (.inr (.inr (.inr (.inr (.inr (.inr (.inr (.inr ⟨p, hp, h⟩))))))))))))))
  | receivers =>
    have h1 : ∀ p q, I.hasChunk g .receivers p = true → I.hasChunk g .receivers q = true →
        I.err g .receivers 1 p = I.err g .receivers 1 q := fun p q hp hq => (ho g .receivers p q hp hq).1
    refine ⟨_, ?_, .seqs_cons (check_runs hS) (.seqs_cons (openFile_runs h1) (.seqs_cons (.closing (plain_runs hS)
      (.seqs_cons (dataset_runs hS) (.seqs_cons (dataset_runs hS) (.seqs_cons (dataset_runs hS) (.seqs_cons (dataset_runs hS)
        .seqs_nil))))) .seqs_nil))⟩
    simp only [Bool.or_eq_true, any_iff, Bool.false_eq_true, or_false]
    constructor
    · rintro (⟨p, hp, h⟩ | ⟨p, hp, h⟩ | ⟨p, hp, h⟩ | ⟨p, hp, h⟩ | ⟨p, hp, h⟩ | ⟨p, hp, h⟩) <;>
        (refine ⟨p, _, hp, ?_, h⟩; decide)
    · rintro ⟨p, s, hp, hs, h⟩
      unfold Spec.places at hs
      interval_cases s <;>
        first
        | exact .inl ⟨p, hp, h⟩
        | exact .inr (.inl ⟨p, hp, h⟩)
        | exact .inr (.inr (.inl ⟨p, hp, h⟩))
        | exact .inr (.inr (.inr (.inl ⟨p, hp, h⟩)))
        | exact .inr (.inr (.inr (.inr (.inl ⟨p, hp, h⟩))))
        | exact .inr (.inr (.inr (.inr (.inr ⟨p, hp, h⟩))))

theorem readPart_runs (hP : Spec.Proper I) (ho : Spec.OpensAlike I) (g : Nat) (part : Part) :
    ∃ b, (b = true ↔ ∃ p s, I.hasChunk g part p = true ∧ s < Spec.places part ∧ I.err g part s p = true) ∧
      Runs (member I) (I.holds g) (readPart I g part) fun _ => b := by
  have hS : ∀ p, member I (.grid g) p = I.holds g p := fun _ => rfl
  obtain ⟨b, hb, h⟩ := chunk_runs ho g part
  have h1 : Runs (member I) (I.holds g) (fun p => if I.hasChunk g part p then chunk I g part p else .ret false)
      fun p => I.hasChunk g part p && b := by
    refine Runs.sub (Runs.congr h (fun p hp => ?_) fun p hp => ?_) (hP g part) fun p _ hp => ?_
    · rw [if_pos hp]
    · rw [hp]; rfl
    · rw [hp]; rfl
  refine ⟨b, hb, ?_⟩
  have hc : Runs (member I) (I.holds g) (fun p => .seqs [.plain (.grid g) .indicator,
      .check (.grid g) (I.hasChunk g part p && b)]) fun _ => false || (b || false) := by
    refine .seqs_cons (plain_runs hS) (.seqs_cons (.check hS ⟨fun h => ?_, ?_⟩) .seqs_nil)
    · obtain ⟨p, s, h1, -⟩ := hb.1 h
      exact ⟨p, hP g part p h1, by rw [h1, h]; rfl⟩
    · rintro ⟨p, -, h⟩
      rw [Bool.and_eq_true] at h
      exact h.2
  have : (false || (b || false)) = b := by simp
  rw [this] at hc
  exact Runs.bind (plain_runs hS) (Runs.bind h1 hc)

theorem bcasts_runs {S : Fin n → Bool} {c : Comm} (hS : ∀ p, member I c p = S p) : ∀ k, Runs (member I) S
    (fun _ => .seqs (List.replicate k (.plain c .bcast))) fun _ => false := by
  intro k
  induction k with
  | zero => exact .seqs_nil
  | succ k ih => exact Runs.congr (.seqs_cons (plain_runs hS) ih) (fun _ _ => rfl) fun _ _ => rfl

theorem readGrid_runs (hP : Spec.Proper I) (ho : Spec.OpensAlike I) (g : Nat) :
    ∃ b, (b = true ↔ Spec.Fails I g) ∧ Runs (member I) (I.holds g) (readGrid I g) fun _ => b := by
  have hS : ∀ p, member I (.grid g) p = I.holds g p := fun _ => rfl
  obtain ⟨b1, hb1, h1⟩ := readPart_runs hP ho g .donors
  obtain ⟨b2, hb2, h2⟩ := readPart_runs hP ho g .receivers
  have h0 : Runs (member I) (I.holds g) (readInfo I g) fun _ => any (I.holds g) (I.infoErr g) :=
    Runs.congr (.seqs_cons (plain_runs hS) (.seqs_cons (check_runs hS) (bcasts_runs hS 9))) (fun _ _ => rfl)
      fun _ _ => by simp
  refine ⟨_, ?_, .seqs_cons h0 (.seqs_cons h1 (.seqs_cons h2 .seqs_nil))⟩
  simp only [Bool.or_eq_true, any_iff, hb1, hb2, Bool.false_eq_true, or_false]
  unfold Spec.Fails
  refine or_congr_right ⟨?_, ?_⟩
  · rintro (⟨p, s, h⟩ | ⟨p, s, h⟩)
    · exact ⟨_, p, s, h⟩
    · exact ⟨_, p, s, h⟩
  · rintro ⟨part, p, s, h⟩
    cases part
    · exact .inl ⟨p, s, h⟩
    · exact .inr ⟨p, s, h⟩

/-! ### The loop over the grids -/

/-- What process `p` does with the grids `l`, if it has not thrown before. -/
def rest (I : Input n) (l : List Nat) (D : Fin n → Bool) (p : Fin n) : Prog Comm :=
  if D p then .ret true else .seqs ((l.filter fun g => I.holds g p).map fun g => readGrid I g p)

theorem rest_cons {g : Nat} {l : List Nat} {D : Fin n → Bool} {p : Fin n} (h : I.holds g p = false ∨ D p = true) :
    rest I (g :: l) D p = rest I l D p := by
  unfold rest
  rcases h with h | h
  · rw [List.filter_cons_of_neg (by simp [h])]
  · rw [if_pos h, if_pos h]

/-- Grids are read one after the other, as long as the processes of each are together. -/
theorem loop (hP : Spec.Proper I) (ho : Spec.OpensAlike I) (l' : List Nat) (k : Fin n → Bool → Prog Comm) :
    ∀ (l : List Nat) (D : Fin n → Bool),
    (∀ l1 g l2, l = l1 ++ g :: l2 → ∀ p q, I.holds g p = true → I.holds g q = true →
      (D p = true ∨ Spec.Out I l1 p ↔ D q = true ∨ Spec.Out I l1 q)) →
    ∃ D' : Fin n → Bool, (∀ p, D' p = true ↔ D p = true ∨ Spec.Out I l p) ∧
      Leads (member I) (fun p => (rest I (l ++ l') D p).bind (k p)) fun p => (rest I l' D' p).bind (k p) := by
  intro l
  induction l with
  | nil =>
    intro D _
    refine ⟨D, fun p => ?_, .refl _⟩
    simp [Spec.Out]
  | cons g l ih =>
    intro D h
    obtain ⟨b, hb, hg⟩ := readGrid_runs hP ho g
    have h0 : ∀ p q, I.holds g p = true → I.holds g q = true → D p = D q := by
      intro p q hp hq
      have := h [] g l rfl p q hp hq
      simp only [Spec.Out, List.not_mem_nil, false_and, exists_false, or_false] at this
      exact Bool.eq_iff_iff.2 this
    have hout : ∀ l1 p, Spec.Out I (g :: l1) p ↔ (I.holds g p && b) = true ∨ Spec.Out I l1 p := by
      intro l1 p
      unfold Spec.Out
      rw [Bool.and_eq_true, hb]
      simp [List.mem_cons, or_and_right, exists_or]
    -- what the processes have done with `g`
    obtain ⟨D1, hD1, hL⟩ : ∃ D1 : Fin n → Bool, (∀ p, D1 p = true ↔ D p = true ∨ (I.holds g p && b) = true) ∧
        Leads (member I) (fun p => (rest I (g :: (l ++ l')) D p).bind (k p))
          fun p => (rest I (l ++ l') D1 p).bind (k p) := by
      by_cases hd : ∃ q, I.holds g q = true ∧ D q = true
      · obtain ⟨q, hq, hdq⟩ := hd
        refine ⟨D, fun p => ⟨.inl, ?_⟩, ?_⟩
        · rintro (h | h)
          · exact h
          · rw [Bool.and_eq_true] at h
            rw [h0 p q h.1 hq]; exact hdq
        · have : (fun p => (rest I (g :: (l ++ l')) D p).bind (k p)) = fun p => (rest I (l ++ l') D p).bind (k p) := by
            funext p
            rw [rest_cons]
            cases hp : I.holds g p with
            | false => exact .inl rfl
            | true => exact .inr (by rw [h0 p q hp hq]; exact hdq)
          rw [this]
          exact .refl _
      · have hd' : ∀ p, I.holds g p = true → D p = false := fun p hp => by
          cases e : D p with
          | false => rfl
          | true => exact absurd ⟨p, hp, e⟩ hd
        refine ⟨fun p => D p || (I.holds g p && b), fun p => by rw [Bool.or_eq_true], ?_⟩
        have h1 := hg (fun p t => (if t then .ret true else
          Prog.seqs (((l ++ l').filter fun g => I.holds g p).map fun g => readGrid I g p)).bind (k p))
          (fun p => (rest I (g :: (l ++ l')) D p).bind (k p)) fun p hp => by
            unfold rest
            rw [hd' p hp, List.filter_cons_of_pos (p := fun g => I.holds g p) hp, List.map_cons]
            show (Prog.seq _ _).bind _ = _
            unfold Prog.seq
            rw [Prog.bind_assoc]
        have h2 : (fun p => if I.holds g p then (if b then Prog.ret true else
            Prog.seqs (((l ++ l').filter fun g => I.holds g p).map fun g => readGrid I g p)).bind (k p)
            else (rest I (g :: (l ++ l')) D p).bind (k p)) =
            fun p => (rest I (l ++ l') (fun p => D p || (I.holds g p && b)) p).bind (k p) := by
          funext p
          cases hp : I.holds g p with
          | true =>
            simp only [if_true]
            unfold rest
            simp only [hd' p hp, hp, Bool.false_or, Bool.true_and]
          | false =>
            rw [rest_cons (.inl hp)]
            unfold rest
            simp [hp]
        rw [← h2]
        exact h1
    obtain ⟨D', hD', hL'⟩ := ih D1 fun l1 g' l2 e p q hp hq => by
      have := h (g :: l1) g' l2 (by rw [e]; rfl) p q hp hq
      rw [hout, hout] at this
      rw [hD1, hD1, or_assoc, or_assoc]
      exact this
    refine ⟨D', fun p => ?_, hL.trans hL'⟩
    rw [hD', hD1, hout, or_assoc]

theorem rest_nil {D : Fin n → Bool} : rest I [] D = fun p => .ret (D p) := by
  funext p
  unfold rest
  cases D p <;> rfl

theorem rest_all (p : Fin n) : rest I I.grids (fun _ => false) p = readGrids I p := rfl

/-! ### Reading the files -/

theorem readGlobal_runs : Runs (member I) (fun _ => true) (readGlobal I)
    fun _ => any (fun _ => true) I.globalErr := by
  have hS : ∀ p, member I .world p = (fun _ : Fin n => true) p := fun _ => rfl
  exact Runs.congr (.seqs_cons (plain_runs hS) (.seqs_cons (check_runs hS) (bcasts_runs hS 3))) (fun _ _ => rfl)
    fun _ _ => by simp

/-- The end of `ReadXINTOUT`, with what the loop over the grids has thrown. -/
def finish (t : Bool) : Prog Comm := .seqs [.check .world t, .plain .world .barrier]

theorem read_leads (h : ∀ p, I.globalErr p = false) :
    Leads (member I) (read I) fun p => (readGrids I p).bind finish := by
  have hS : ∀ p, member I .world p = (fun _ : Fin n => true) p := fun _ => rfl
  have hg : any (fun _ => true) I.globalErr = false := by
    cases e : any (fun _ => true) I.globalErr with
    | false => rfl
    | true =>
      obtain ⟨p, -, hp⟩ := any_iff.1 e
      rw [h p] at hp
      cases hp
  have h1 := plain_runs (l := .barrier) hS (fun p t => if t then .ret true else (readGlobal I p).seq
    ((readGrids I p).bind finish)) (read I) fun p _ => rfl
  have h2 := readGlobal_runs (I := I) (fun p t => if t then .ret true else (readGrids I p).bind finish)
    (fun p => (readGlobal I p).seq ((readGrids I p).bind finish)) fun p _ => rfl
  rw [hg] at h2
  exact Leads.trans h1 h2

theorem finish_runs (D : Fin n → Bool) : Runs (member I) (fun _ => true) (fun p => finish (D p))
    fun _ => any (fun _ => true) D := by
  have hS : ∀ p, member I .world p = (fun _ : Fin n => true) p := fun _ => rfl
  exact Runs.congr (.seqs_cons (check_runs hS) (.seqs_cons (plain_runs hS) .seqs_nil)) (fun _ _ => rfl)
    fun _ _ => by simp

/-- If one execution ends, all do. -/
theorem ends_of_leads {x : Fin n → Prog Comm} {t : Bool} (h : Leads (member I) x fun _ => .ret t) :
    Spec.Ends I x t := by
  obtain ⟨ds, hd⟩ := h
  have hz : Done (fun _ : Fin n => Prog.ret (κ := Comm) t) := fun p => ⟨t, rfl⟩
  refine ⟨ds.length, fun cs y hy => ?_⟩
  obtain ⟨cs', h1, h2⟩ := confluent_run ds hd hz cs hy
  refine ⟨by omega, fun hs p => ?_⟩
  cases cs' with
  | nil => cases h1; rfl
  | cons c cs' =>
    unfold run at h1
    rw [hs c] at h1
    cases h1

/-- C97 where the processes of each grid stay together and files open on all processes or on none.  Missing: files
that open on some processes only, and grids whose processes have found errors in different other grids
(`C97_false`, `C97_open_false`, `C97_apart`). -/
theorem C97_partial (hP : Spec.Proper I) (ho : Spec.OpensAlike I) (ht : Spec.Together I) :
    ∃ t, (t = true ↔ Spec.AnyError I) ∧ Spec.Ends I (read I) t := by
  by_cases hg : ∃ p, I.globalErr p = true
  · have hS : ∀ p, member I .world p = (fun _ : Fin n => true) p := fun _ => rfl
    refine ⟨true, ⟨fun _ => .inl hg, fun _ => rfl⟩, ends_of_leads ?_⟩
    have h1 := plain_runs (l := .barrier) hS (fun p t => if t then .ret true else (readGlobal I p).seq
      ((readGrids I p).bind finish)) (read I) fun p _ => rfl
    have h2 := readGlobal_runs (I := I) (fun p t => if t then .ret true else (readGrids I p).bind finish)
      (fun p => (readGlobal I p).seq ((readGrids I p).bind finish)) fun p _ => rfl
    obtain ⟨p, hp⟩ := hg
    rw [any_iff.2 ⟨p, rfl, hp⟩] at h2
    exact Leads.trans h1 h2
  · have hg' : ∀ p, I.globalErr p = false := fun p => by
      cases e : I.globalErr p with
      | false => rfl
      | true => exact absurd ⟨p, e⟩ hg
    obtain ⟨D, hD, hL⟩ := loop hP ho [] (fun _ => finish) I.grids (fun _ => false)
      (fun l g l' e p q hp hq => by simpa using ht l g l' e p q hp hq)
    have h2 := finish_runs (I := I) D (fun _ => .ret) (fun p => finish (D p)) fun p _ => (Prog.bind_ret _).symm
    refine ⟨any (fun _ => true) D, ?_, ends_of_leads ?_⟩
    · rw [any_iff]
      unfold Spec.AnyError
      constructor
      · rintro ⟨p, -, h⟩
        rcases (hD p).1 h with h | ⟨g, hm, -, hf⟩
        · cases h
        · exact .inr ⟨g, hm, hf⟩
      · rintro (h | ⟨g, hm, hf⟩)
        · exact absurd h hg
        · rcases id hf with ⟨p, hp, -⟩ | ⟨part, p, s, hp, -⟩
          · exact ⟨p, rfl, (hD p).2 (.inr ⟨g, hm, hp, hf⟩)⟩
          · exact ⟨p, rfl, (hD p).2 (.inr ⟨g, hm, hP g part p hp, hf⟩)⟩
    · refine (read_leads hg').trans (Leads.trans ?_ h2)
      have e : (fun p => (rest I (I.grids ++ []) (fun _ => false) p).bind finish) =
          fun p => (readGrids I p).bind finish := by
        funext p
        rw [List.append_nil, rest_all]
      rw [e, rest_nil] at hL
      exact hL

/-- Processes that hold one grid each stay together. -/
theorem together_of_disjoint (hn : I.grids.Nodup)
    (h : ∀ g ∈ I.grids, ∀ g' ∈ I.grids, ∀ p, I.holds g p = true → I.holds g' p = true → g = g') : Spec.Together I := by
  intro l g l' e p q hp hq
  have key : ∀ p, I.holds g p = true → ¬ Spec.Out I l p := by
    rintro p hp ⟨g', hm, hp', -⟩
    have := h g (by rw [e]; simp) g' (by rw [e]; simp [hm]) p hp hp'
    subst this
    rw [e] at hn
    exact (List.nodup_append.1 hn).2.2 _ hm _ List.mem_cons_self rfl
  exact ⟨fun a => absurd a (key p hp), fun a => absurd a (key q hq)⟩

/-- Process `p` waits for all processes, process `q` for those of grid `g`, which both hold. -/
def Apart (I : Input n) (g : Nat) (p q : Fin n) (x : Fin n → Prog Comm) : Prop :=
  I.holds g p = true ∧ I.holds g q = true ∧ (∃ a, (x p).at .world = some a) ∧ ∃ a, (x q).at (.grid g) = some a

theorem apart_step {g : Nat} {p q : Fin n} {x y : Fin n → Prog Comm} {c : Comm} (h : Apart I g p q x)
    (hs : step (member I) x c = some y) : Apart I g p q y := by
  obtain ⟨hp, hq, ⟨a, ha⟩, b, hb⟩ := h
  obtain ⟨-, l, hl, r, -, rfl⟩ := step_iff.1 hs
  have h1 : member I c p = false := by
    cases e : member I c p with
    | false => rfl
    | true =>
      obtain ⟨b1, h1⟩ := hl p e
      obtain rfl := at_unique ha h1
      obtain ⟨b2, h2⟩ := hl q rfl
      cases at_unique h2 hb
  have h2 : member I c q = false := by
    cases e : member I c q with
    | false => rfl
    | true =>
      obtain ⟨b1, h1⟩ := hl q e
      obtain rfl := at_unique hb h1
      obtain ⟨b2, h2⟩ := hl p hp
      cases at_unique h2 ha
  exact ⟨hp, hq, ⟨a, by simp only [h1]; exact ha⟩, b, by simp only [h2]; exact hb⟩

theorem apart_run {g : Nat} {p q : Fin n} : ∀ (cs : List Comm) {x y : Fin n → Prog Comm}, Apart I g p q x →
    run (member I) x cs = some y → ¬ Done y := by
  intro cs
  induction cs with
  | nil =>
    intro x y h hr hd
    cases hr
    obtain ⟨-, -, ⟨a, ha⟩, -⟩ := h
    obtain ⟨t, ht⟩ := hd p
    rw [ht] at ha
    cases ha
  | cons c cs ih =>
    intro x y h hr
    unfold run at hr
    obtain ⟨z, hz, hr⟩ := Option.bind_eq_some_iff.1 hr
    exact ih (apart_step h hz) hr

/-- Where processes do not stay together, no execution ends: the first grid for which they are apart is waited for
by those that have found no error, and the others wait at the end. -/
theorem C97_apart (hP : Spec.Proper I) (ho : Spec.OpensAlike I) (hg : ∀ p, I.globalErr p = false)
    (ht : ¬ Spec.Together I) : ∀ cs y, run (member I) (read I) cs = some y → ¬ Done y := by
  -- the first grid
  have key : ∀ m l g l', l.length ≤ m → I.grids = l ++ g :: l' → (∃ p q, I.holds g p = true ∧ I.holds g q = true ∧
      ¬ (Spec.Out I l p ↔ Spec.Out I l q)) → ∃ l g l', I.grids = l ++ g :: l' ∧ (∃ p q, I.holds g p = true ∧
      I.holds g q = true ∧ Spec.Out I l p ∧ ¬ Spec.Out I l q) ∧ ∀ l1 g1 l2, l = l1 ++ g1 :: l2 → ∀ p q,
      I.holds g1 p = true → I.holds g1 q = true → (Spec.Out I l1 p ↔ Spec.Out I l1 q) := by
    intro m
    induction m with
    | zero =>
      intro l g l' hm e ⟨p, q, hp, hq, h⟩
      obtain rfl : l = [] := List.length_eq_zero_iff.1 (by omega)
      exact absurd (by simp [Spec.Out]) h
    | succ m ih =>
      intro l g l' hm e ⟨p, q, hp, hq, h⟩
      by_cases hw : ∃ l1 g1 l2, l = l1 ++ g1 :: l2 ∧ ∃ p q, I.holds g1 p = true ∧ I.holds g1 q = true ∧
          ¬ (Spec.Out I l1 p ↔ Spec.Out I l1 q)
      · obtain ⟨l1, g1, l2, e1, h1⟩ := hw
        refine ih l1 g1 (l2 ++ g :: l') ?_ (by rw [e, e1]; simp) h1
        rw [e1] at hm
        simp at hm
        omega
      · refine ⟨l, g, l', e, ?_, fun l1 g1 l2 e1 p q hp hq => ?_⟩
        · by_cases hpo : Spec.Out I l p
          · exact ⟨p, q, hp, hq, hpo, fun hqo => h ⟨fun _ => hqo, fun _ => hpo⟩⟩
          · by_cases hqo : Spec.Out I l q
            · exact ⟨q, p, hq, hp, hqo, hpo⟩
            · exact absurd ⟨fun a => absurd a hpo, fun a => absurd a hqo⟩ h
        · by_contra hn
          exact hw ⟨l1, g1, l2, e1, p, q, hp, hq, hn⟩
  have ht' : ∃ l g l', I.grids = l ++ g :: l' ∧ ∃ p q, I.holds g p = true ∧ I.holds g q = true ∧
      ¬ (Spec.Out I l p ↔ Spec.Out I l q) := by
    by_contra hn
    refine ht fun l g l' e p q hp hq => ?_
    by_contra h
    exact hn ⟨l, g, l', e, p, q, hp, hq, h⟩
  obtain ⟨l, g, l', e, h⟩ := ht'
  obtain ⟨l, g, l', e, ⟨p, q, hp, hq, hpo, hqo⟩, hw⟩ := key _ l g l' le_rfl e h
  obtain ⟨D, hD, hL⟩ := loop hP ho (g :: l') (fun _ => finish) l (fun _ => false)
    (fun l1 g1 l2 e1 p q hp hq => by simpa using hw l1 g1 l2 e1 p q hp hq)
  rw [← e] at hL
  obtain ⟨ds, hds⟩ := (read_leads hg).trans hL
  intro cs y hy hd
  obtain ⟨cs', h1, -⟩ := confluent_run cs hy hd ds hds
  refine apart_run (g := g) (p := p) (q := q) cs' ⟨hp, hq, ?_, ?_⟩ h1 hd
  · have : D p = true := (hD p).2 (.inr hpo)
    unfold rest
    simp only [this]
    exact ⟨_, rfl⟩
  · have : D q = false := by
      cases e : D q with
      | false => rfl
      | true => exact absurd ((hD q).1 e) (by simp [hqo])
    unfold rest
    simp only [this]
    rw [List.filter_cons_of_pos (p := fun g => I.holds g q) hq]
    exact ⟨(.indicator, false), by simp [Prog.seqs, Prog.seq, readGrid, readInfo, Prog.plain, Prog.bind, Prog.at]⟩

/-! ### Witnesses -/

/-- Grid 1 on process 0, grid 2 on both; grid 1 has another size in the file. -/
def sharing : Input 2 where
  grids := [1, 2]
  holds g p := decide (g = 2 ∨ g = 1 ∧ p = 0)
  hasChunk g _ p := decide ((g = 1 ∨ g = 2) ∧ p = 0)
  globalErr _ := false
  infoErr g p := decide (g = 1 ∧ p = 0)
  err _ _ _ _ := false

theorem sharing_proper : Spec.Proper sharing := by
  intro g part p h
  simp only [sharing, decide_eq_true_eq] at h ⊢
  omega

theorem sharing_opens : Spec.OpensAlike sharing := fun _ _ _ _ _ _ => ⟨rfl, fun _ => rfl⟩

theorem sharing_apart : ¬ Spec.Together sharing := by
  intro h
  have h1 := h [1] 2 [] rfl 0 1 rfl rfl
  have : Spec.Out sharing [1] 0 := ⟨1, by simp, rfl, .inl ⟨0, rfl, rfl⟩⟩
  obtain ⟨g, hm, hh, -⟩ := h1.1 this
  obtain rfl : g = 1 := by simpa using hm
  simp [sharing] at hh

/-- No execution that goes on for as long as possible ends for all processes. -/
theorem not_ends {x : Fin n → Prog Comm} {t : Bool} (h : ∀ cs y, run (member I) x cs = some y → ¬ Done y) :
    ¬ Spec.Ends I x t := by
  rintro ⟨N, hN⟩
  have key : ∀ m cs y, run (member I) x cs = some y → N + 1 ≤ cs.length + m → False := by
    intro m
    induction m with
    | zero => intro cs y hr hm; have := (hN cs y hr).1; omega
    | succ m ih =>
      intro cs y hr hm
      by_cases hs : ∀ c, step (member I) y c = none
      · exact h cs y hr fun p => ⟨t, (hN cs y hr).2 hs p⟩
      · push Not at hs
        obtain ⟨c, hc⟩ := hs
        obtain ⟨z, hz⟩ := Option.ne_none_iff_exists'.1 hc
        refine ih (cs ++ [c]) z ?_ (by simp; omega)
        rw [run_append, hr, Option.bind_some]
        unfold run
        rw [hz]
        rfl
  exact key (N + 1) [] x rfl (by simp)

/-- C97 is false of the code: the process with both grids goes to the end, where it waits for the other one, which
waits for it to read grid 2. -/
theorem C97_false : ¬ C97_statement := by
  intro h
  obtain ⟨t, -, ht⟩ := h 2 sharing sharing_proper
  exact not_ends (C97_apart sharing_proper sharing_opens (fun _ => rfl) sharing_apart) ht

/-- One grid on two processes that both read; process 0 cannot open the second file for the donors. -/
def partly : Input 2 where
  grids := [1]
  holds g _ := decide (g = 1)
  hasChunk g _ _ := decide (g = 1)
  globalErr _ := false
  infoErr _ _ := false
  err g part s p := decide (g = 1 ∧ part = .donors ∧ s = 2 ∧ p = 0)

/-- Two members of a communicator wait in different operations on it. -/
def Mismatch (I : Input n) (c : Comm) (p q : Fin n) (x : Fin n → Prog Comm) : Prop :=
  member I c p = true ∧ member I c q = true ∧
    ∃ a b, (x p).at c = some a ∧ (x q).at c = some b ∧ a.1 ≠ b.1

theorem mismatch_run {c : Comm} {p q : Fin n} : ∀ (cs : List Comm) {x y : Fin n → Prog Comm}, Mismatch I c p q x →
    run (member I) x cs = some y → ¬ Done y := by
  intro cs
  induction cs with
  | nil =>
    intro x y h hr hd
    cases hr
    obtain ⟨-, -, a, b, ha, -⟩ := h
    obtain ⟨t, ht⟩ := hd p
    rw [ht] at ha
    cases ha
  | cons e cs ih =>
    intro x y h hr
    unfold run at hr
    obtain ⟨z, hz, hr⟩ := Option.bind_eq_some_iff.1 hr
    refine ih (x := z) ?_ hr
    obtain ⟨hp, hq, a, b, ha, hb, hab⟩ := h
    obtain ⟨-, l, hl, r, -, rfl⟩ := step_iff.1 hz
    have key : e ≠ c := by
      rintro rfl
      obtain ⟨b1, h1⟩ := hl p hp
      obtain ⟨b2, h2⟩ := hl q hq
      rw [ha] at h1
      rw [hb] at h2
      cases h1
      cases h2
      exact hab rfl
    have h1 : member I e p = false := by
      cases e' : member I e p with
      | false => rfl
      | true =>
        obtain ⟨b1, h1⟩ := hl p e'
        exact absurd (at_unique ha h1).symm key
    have h2 : member I e q = false := by
      cases e' : member I e q with
      | false => rfl
      | true =>
        obtain ⟨b1, h1⟩ := hl q e'
        exact absurd (at_unique hb h1).symm key
    exact ⟨hp, hq, a, b, by simp only [h1]; exact ha, by simp only [h2]; exact hb, hab⟩

theorem partly_proper : Spec.Proper partly := fun _ _ _ h => h

theorem partly_together : Spec.Together partly := by
  intro l g l' e p q _ _
  cases l with
  | nil => simp [Spec.Out]
  | cons a l => simp [partly] at e

/-- C97 is false also for a single grid, if a file opens on some processes only: one process closes the first file
while the other one reads the second. -/
theorem C97_open_false : Spec.Proper partly ∧ Spec.Together partly ∧ Spec.AnyError partly ∧
    (∀ cs y, run (member partly) (read partly) cs = some y → ¬ Done y) ∧ ∀ t, ¬ Spec.Ends partly (read partly) t := by
  have h : ∀ cs y, run (member partly) (read partly) cs = some y → ¬ Done y := by
    intro cs y hy hd
    let ds : List Comm := List.replicate 6 .world ++ List.replicate 12 (.grid 1) ++ List.replicate 3 (.chunk 1 .donors)
    have key : (run (member partly) (read partly) ds).map (fun x => ((x 0).at (.chunk 1 .donors),
        (x 1).at (.chunk 1 .donors))) = some (some (.closeFile false, false), some (.setView true, false)) := by
      decide +kernel
    obtain ⟨z, hz, e⟩ := Option.map_eq_some_iff.1 key
    obtain ⟨cs', h1, -⟩ := confluent_run cs hy hd ds hz
    refine mismatch_run (c := .chunk 1 .donors) (p := 0) (q := 1) cs' ⟨rfl, rfl, _, _, (Prod.mk.inj e).1,
      (Prod.mk.inj e).2, by decide⟩ h1 hd
  refine ⟨partly_proper, partly_together, .inr ⟨1, by simp [partly], .inr ⟨.donors, 0, 2, rfl, by decide, rfl⟩⟩, h,
    fun t => not_ends h⟩

/-! ### Examples -/

/-- Grid 1 on processes 0 and 1, grid 2 on process 2; process 1 finds too little data in grid 1. -/
def apart : Input 3 where
  grids := [1, 2]
  holds g p := decide (g = 1 ∧ p ≠ 2 ∨ g = 2 ∧ p = 2)
  hasChunk g _ p := decide (g = 1 ∧ p ≠ 2 ∨ g = 2 ∧ p = 2)
  globalErr _ := false
  infoErr _ _ := false
  err g part s p := decide (g = 1 ∧ part = .receivers ∧ s = 3 ∧ p = 1)

/-- All processes throw, also the one that does not have the grid. -/
example : Spec.AnyError apart ∧ Spec.Ends apart (read apart) true := by
  have ha : Spec.AnyError apart := .inr ⟨1, by simp [apart], .inr ⟨.receivers, 1, 3, rfl, by decide, rfl⟩⟩
  obtain ⟨t, h1, h2⟩ := C97_partial (I := apart) (fun _ _ _ h => h)
    (by
      intro g part p q _ _
      simp [apart])
    (together_of_disjoint (by decide) (by
      intro g _ g' _ p h h'
      simp only [apart, decide_eq_true_eq] at h h'
      omega))
  rw [h1.2 ha] at h2
  exact ⟨ha, h2⟩

end Ovk.XErr
