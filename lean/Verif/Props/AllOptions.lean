import Verif.Model.AllOptions
import Verif.Props.OptionsLife
import Mathlib.Logic.Function.Basic
import Mathlib.Tactic.NormNum
/-!
# C129: all options of the assembler, in C++ and C
-/
namespace Ovk.AllOpt
open Opt (Opt pair run1 run2)

namespace Spec
/-- Options that have a value for every grid. -/
inductive Name1
  | overlapAccelDepthAdjust
  | overlapAccelResolutionAdjust
  | inferBoundaries
  | edgeSmoothing
  | fringeSize
  deriving DecidableEq

/-- Options that have a value for every pair of grids. -/
inductive Name2
  | overlappable
  | overlapTolerance
  | cutBoundaryHoles
  | occludes
  | edgePadding
  | connectionType
  | minimizeOverlap
  | disjointConnections
  deriving DecidableEq

/-- The type of the values of an option. -/
abbrev Ty1 : Name1 → Type
  | .overlapAccelDepthAdjust => Rat
  | .overlapAccelResolutionAdjust => Rat
  | .inferBoundaries => Bool
  | .edgeSmoothing => Int
  | .fringeSize => Int

/-- The value an option has as long as it is not set. -/
def dflt1 : (o : Name1) → Ty1 o
  | .overlapAccelDepthAdjust => (0 : Rat)
  | .overlapAccelResolutionAdjust => (0 : Rat)
  | .inferBoundaries => (false : Bool)
  | .edgeSmoothing => (0 : Int)
  | .fringeSize => (0 : Int)

/-- Values an option may be set to. -/
def Ok1 : (o : Name1) → Ty1 o → Prop
  | .edgeSmoothing, (v : Int) => 0 ≤ v
  | .fringeSize, (v : Int) => 0 ≤ v
  | _, _ => True

/-- The type of the values of an option. -/
abbrev Ty2 : Name2 → Type
  | .overlappable => Bool
  | .overlapTolerance => Rat
  | .cutBoundaryHoles => Bool
  | .occludes => Int
  | .edgePadding => Int
  | .connectionType => Int
  | .minimizeOverlap => Bool
  | .disjointConnections => Bool

/-- The value an option has as long as it is not set. -/
def dflt2 : (o : Name2) → Ty2 o
  | .overlappable => (false : Bool)
  | .overlapTolerance => (1 / 1000000000000 : Rat)
  | .cutBoundaryHoles => (false : Bool)
  | .occludes => (0 : Int)
  | .edgePadding => (0 : Int)
  | .connectionType => (0 : Int)
  | .minimizeOverlap => (false : Bool)
  | .disjointConnections => (true : Bool)

/-- Values an option may be set to. -/
def Ok2 : (o : Name2) → Ty2 o → Prop
  | .overlapTolerance, (v : Rat) => 0 ≤ v
  | .occludes, (v : Int) => 0 ≤ v ∧ v ≤ 2
  | .edgePadding, (v : Int) => 0 ≤ v
  | .connectionType, (v : Int) => 0 ≤ v ∧ v ≤ 3
  | _, _ => True

/-- What the user sees: the grids that exist, and the value of every option for every grid and every pair. -/
structure View where
  grid : Int → Prop
  one : (o : Name1) → Int → Ty1 o
  two : (o : Name2) → Int → Int → Ty2 o

/-- What can happen to options. -/
inductive Event
  | add (gs : List Int)
  | remove (gs : List Int)
  | set1 (o : Name1) (p : Int) (v : Ty1 o)
  | set2 (o : Name2) (p q : Int) (v : Ty2 o)

/-- A setting for `p` is one for the grid `g`. -/
def Hits (p g : Int) : Prop := p = g ∨ p = -1

/-- What happens: grids come with defaults and take their values with them; a setting changes one option, for the
grids it is for. -/
noncomputable def see (w : View) : Event → View := by
  classical
  exact fun
  | .add gs => { w with grid := fun g => g ∈ gs ∨ w.grid g }
  | .remove gs => {
      grid := fun g => g ∉ gs ∧ w.grid g
      one := fun o g => if g ∈ gs then dflt1 o else w.one o g
      two := fun o m n => if m ∈ gs ∨ n ∈ gs then dflt2 o else w.two o m n }
  | .set1 o p v => { w with one := Function.update w.one o fun g => if w.grid g ∧ Hits p g then v else w.one o g }
  | .set2 o p q v => { w with two := Function.update w.two o fun m n =>
      if (w.grid m ∧ Hits p m) ∧ w.grid n ∧ Hits q n then v else w.two o m n }

/-- Options of a grid with itself that are reset at the end of an edit: all but whether connections are disjoint. -/
def selfOptions : List Name2 :=
  [.overlappable, .overlapTolerance, .cutBoundaryHoles, .occludes, .edgePadding, .connectionType, .minimizeOverlap]

/-- What each function is for. -/
def events : Call → List Event
  | .addGrids gs => [.add gs]
  | .removeGrids gs => [.remove gs]
  | .endEdit gs => gs.flatMap fun g => selfOptions.map fun o => .set2 o g g (dflt2 o)
  | .setOverlappable m n v => [.set2 .overlappable m n v]
  | .resetOverlappable m n => [.set2 .overlappable m n (dflt2 .overlappable)]
  | .setOverlapTolerance m n v => [.set2 .overlapTolerance m n v]
  | .resetOverlapTolerance m n => [.set2 .overlapTolerance m n (dflt2 .overlapTolerance)]
  | .setOverlapAccelDepthAdjust g v => [.set1 .overlapAccelDepthAdjust g v]
  | .resetOverlapAccelDepthAdjust g => [.set1 .overlapAccelDepthAdjust g (dflt1 .overlapAccelDepthAdjust)]
  | .setOverlapAccelResolutionAdjust g v => [.set1 .overlapAccelResolutionAdjust g v]
  | .resetOverlapAccelResolutionAdjust g => [.set1 .overlapAccelResolutionAdjust g (dflt1 .overlapAccelResolutionAdjust)]
  | .setInferBoundaries g v => [.set1 .inferBoundaries g v]
  | .resetInferBoundaries g => [.set1 .inferBoundaries g (dflt1 .inferBoundaries)]
  | .setCutBoundaryHoles m n v => [.set2 .cutBoundaryHoles m n v]
  | .resetCutBoundaryHoles m n => [.set2 .cutBoundaryHoles m n (dflt2 .cutBoundaryHoles)]
  | .setOccludes m n v => [.set2 .occludes m n v]
  | .resetOccludes m n => [.set2 .occludes m n (dflt2 .occludes)]
  | .setEdgePadding m n v => [.set2 .edgePadding m n v]
  | .resetEdgePadding m n => [.set2 .edgePadding m n (dflt2 .edgePadding)]
  | .setEdgeSmoothing g v => [.set1 .edgeSmoothing g v]
  | .resetEdgeSmoothing g => [.set1 .edgeSmoothing g (dflt1 .edgeSmoothing)]
  | .setConnectionType m n v => [.set2 .connectionType m n v]
  | .resetConnectionType m n => [.set2 .connectionType m n (dflt2 .connectionType)]
  | .setFringeSize g v => [.set1 .fringeSize g v]
  | .resetFringeSize g => [.set1 .fringeSize g (dflt1 .fringeSize)]
  | .setMinimizeOverlap m n v => [.set2 .minimizeOverlap m n v]
  | .resetMinimizeOverlap m n => [.set2 .minimizeOverlap m n (dflt2 .minimizeOverlap)]
  | .setDisjointConnections m n v => [.set2 .disjointConnections m n v]
  | .resetDisjointConnections m n => [.set2 .disjointConnections m n (dflt2 .disjointConnections)]
  | .cSetOverlappable m n v => [.set2 .overlappable m n v]
  | .cResetOverlappable m n => [.set2 .overlappable m n (dflt2 .overlappable)]
  | .cSetOverlapTolerance m n v => [.set2 .overlapTolerance m n v]
  | .cResetOverlapTolerance m n => [.set2 .overlapTolerance m n (dflt2 .overlapTolerance)]
  | .cSetOverlapAccelDepthAdjust g v => [.set1 .overlapAccelDepthAdjust g v]
  | .cResetOverlapAccelDepthAdjust g => [.set1 .overlapAccelDepthAdjust g (dflt1 .overlapAccelDepthAdjust)]
  | .cSetOverlapAccelResolutionAdjust g v => [.set1 .overlapAccelResolutionAdjust g v]
  | .cResetOverlapAccelResolutionAdjust g => [.set1 .overlapAccelResolutionAdjust g (dflt1 .overlapAccelResolutionAdjust)]
  | .cSetInferBoundaries g v => [.set1 .inferBoundaries g v]
  | .cResetInferBoundaries g => [.set1 .inferBoundaries g (dflt1 .inferBoundaries)]
  | .cSetCutBoundaryHoles m n v => [.set2 .cutBoundaryHoles m n v]
  | .cResetCutBoundaryHoles m n => [.set2 .cutBoundaryHoles m n (dflt2 .cutBoundaryHoles)]
  | .cSetOccludes m n v => [.set2 .occludes m n v]
  | .cResetOccludes m n => [.set2 .occludes m n (dflt2 .occludes)]
  | .cSetEdgePadding m n v => [.set2 .edgePadding m n v]
  | .cResetEdgePadding m n => [.set2 .edgePadding m n (dflt2 .edgePadding)]
  | .cSetEdgeSmoothing g v => [.set1 .edgeSmoothing g v]
  | .cResetEdgeSmoothing g => [.set1 .edgeSmoothing g (dflt1 .edgeSmoothing)]
  | .cSetConnectionType m n v => [.set2 .connectionType m n v]
  | .cResetConnectionType m n => [.set2 .connectionType m n (dflt2 .connectionType)]
  | .cSetFringeSize g v => [.set1 .fringeSize g v]
  | .cResetFringeSize g => [.set1 .fringeSize g (dflt1 .fringeSize)]
  | .cSetMinimizeOverlap m n v => [.set2 .minimizeOverlap m n v]
  | .cResetMinimizeOverlap m n => [.set2 .minimizeOverlap m n (dflt2 .minimizeOverlap)]
  | .cSetDisjointConnections m n v => [.set2 .disjointConnections m n v]
  | .cResetDisjointConnections m n => [.set2 .disjointConnections m n (dflt2 .disjointConnections)]

/-- What the user sees after a sequence of events. -/
noncomputable def after (w : View) (es : List Event) : View := es.foldl see w

/-- New options. -/
def start : View := ⟨fun _ => False, fun o _ => dflt1 o, fun o _ _ => dflt2 o⟩

/-- What the user sees after a sequence of calls. -/
noncomputable def view (calls : List Call) : View := after start (calls.flatMap events)

/-- Events that are allowed: settings name grids that exist or all grids, and have permitted values. -/
def Allowed (w : View) : Event → Prop
  | .add gs => gs.Pairwise (· < ·) ∧ ∀ g ∈ gs, 0 ≤ g
  | .remove gs => gs.Pairwise (· < ·)
  | .set1 o p v => (p = -1 ∨ w.grid p) ∧ Ok1 o v
  | .set2 o p q v => (p = -1 ∨ w.grid p) ∧ (q = -1 ∨ w.grid q) ∧ Ok2 o v

/-- Sequences of events that are allowed. -/
def AllAllowed (w : View) : List Event → Prop
  | [] => True
  | e :: es => Allowed w e ∧ AllAllowed (see w e) es
end Spec
open Spec

/-! ## Reading -/

/-- The function of C++ that reads an option. -/
def read1 (s : Options) : (o : Name1) → Int → Option (Ty1 o)
  | .overlapAccelDepthAdjust, g => s.getOverlapAccelDepthAdjust g
  | .overlapAccelResolutionAdjust, g => s.getOverlapAccelResolutionAdjust g
  | .inferBoundaries, g => s.getInferBoundaries g
  | .edgeSmoothing, g => s.getEdgeSmoothing g
  | .fringeSize, g => s.getFringeSize g

/-- The function of C++ that reads an option. -/
def read2 (s : Options) : (o : Name2) → Int → Int → Option (Ty2 o)
  | .overlappable, m, n => s.getOverlappable (m, n)
  | .overlapTolerance, m, n => s.getOverlapTolerance (m, n)
  | .cutBoundaryHoles, m, n => s.getCutBoundaryHoles (m, n)
  | .occludes, m, n => s.getOccludes (m, n)
  | .edgePadding, m, n => s.getEdgePadding (m, n)
  | .connectionType, m, n => s.getConnectionType (m, n)
  | .minimizeOverlap, m, n => s.getMinimizeOverlap (m, n)
  | .disjointConnections, m, n => s.getDisjointConnections (m, n)

/-- The function of C that reads an option. -/
def cRead1 (s : Options) : (o : Name1) → Int → Option (Ty1 o)
  | .overlapAccelDepthAdjust, g => s.cGetOverlapAccelDepthAdjust g
  | .overlapAccelResolutionAdjust, g => s.cGetOverlapAccelResolutionAdjust g
  | .inferBoundaries, g => s.cGetInferBoundaries g
  | .edgeSmoothing, g => s.cGetEdgeSmoothing g
  | .fringeSize, g => s.cGetFringeSize g

/-- The function of C that reads an option. -/
def cRead2 (s : Options) : (o : Name2) → Int → Int → Option (Ty2 o)
  | .overlappable, m, n => s.cGetOverlappable m n
  | .overlapTolerance, m, n => s.cGetOverlapTolerance m n
  | .cutBoundaryHoles, m, n => s.cGetCutBoundaryHoles m n
  | .occludes, m, n => s.cGetOccludes m n
  | .edgePadding, m, n => s.cGetEdgePadding m n
  | .connectionType, m, n => s.cGetConnectionType m n
  | .minimizeOverlap, m, n => s.cGetMinimizeOverlap m n
  | .disjointConnections, m, n => s.cGetDisjointConnections m n

/-! ## Tables -/

def tab1 (s : Options) : (o : Name1) → OMap Int (Ty1 o)
  | .overlapAccelDepthAdjust => s.overlapAccelDepthAdjust
  | .overlapAccelResolutionAdjust => s.overlapAccelResolutionAdjust
  | .inferBoundaries => s.inferBoundaries
  | .edgeSmoothing => s.edgeSmoothing
  | .fringeSize => s.fringeSize

def tab2 (s : Options) : (o : Name2) → OMap (Elem 2) (Ty2 o)
  | .overlappable => s.overlappable
  | .overlapTolerance => s.overlapTolerance
  | .cutBoundaryHoles => s.cutBoundaryHoles
  | .occludes => s.occludes
  | .edgePadding => s.edgePadding
  | .connectionType => s.connectionType
  | .minimizeOverlap => s.minimizeOverlap
  | .disjointConnections => s.disjointConnections

instance (o : Name1) : DecidableEq (Ty1 o) := by cases o <;> (dsimp only [Ty1]; infer_instance)
instance (o : Name2) : DecidableEq (Ty2 o) := by cases o <;> (dsimp only [Ty2]; infer_instance)

/-! ## One table -/

section
variable {ν : Type} [DecidableEq ν] {dflt : ν}

/-- A table per grid holds the values the user should see. -/
def Good1 (dflt : ν) (t : Opt Int ν) (grid : Int → Prop) (val : Int → ν) : Prop :=
  ∃ ops, t = run1 dflt ops ∧ Opt.Spec.Valid (fun p => [p]) ops ∧ (∀ g, Opt.Spec.Known ops g ↔ grid g) ∧
    (∀ g, grid g → (run1 dflt ops).get intLess dflt g = val g) ∧ ∀ g, ¬ grid g → val g = dflt

/-- A table per pair holds the values the user should see. -/
def Good2 (dflt : ν) (t : Opt (Elem 2) ν) (grid : Int → Prop) (val : Int → Int → ν) : Prop :=
  ∃ ops, t = run2 dflt ops ∧ Opt.Spec.Valid (fun p => [p.1, p.2]) ops ∧ (∀ g, Opt.Spec.Known ops g ↔ grid g) ∧
    (∀ m n, grid m → grid n → (run2 dflt ops).get elemLess dflt (pair m n) = val m n) ∧
    ∀ m n, ¬ grid m ∨ ¬ grid n → val m n = dflt

theorem good1_new : Good1 dflt {} (fun _ => False) fun _ => dflt :=
  ⟨[], rfl, Opt.valid_nil, fun g => by simp [Opt.known_nil], fun g h => h.elim, fun _ _ => rfl⟩

theorem good2_new : Good2 dflt {} (fun _ => False) fun _ _ => dflt :=
  ⟨[], rfl, Opt.valid_nil, fun g => by simp [Opt.known_nil], fun m n h => h.elim, fun _ _ _ => rfl⟩

variable {grid : Int → Prop}

theorem good1_add {t : Opt Int ν} {val : Int → ν} (h : Good1 dflt t grid val) {gs : List Int} (hg : ∀ g ∈ gs, 0 ≤ g) :
    Good1 dflt (t.add gs) (fun g => g ∈ gs ∨ grid g) val := by
  obtain ⟨ops, rfl, hv, hk, hget, hd⟩ := h
  have hv' := Opt.valid_snoc (op := .add gs) hv hg
  refine ⟨ops ++ [.add gs], by simp [run1, Opt.step1], hv', fun g => ?_, fun g hgg => ?_, fun g hgg => ?_⟩
  · rw [Opt.known_add, hk]
  · refine OLife.get1_add hv' ?_ (fun h1 => hget g ((hk g).1 h1)) fun h1 => hd g fun h2 => h1 ((hk g).2 h2)
    rwa [hk]
  · exact hd g fun h1 => hgg (.inr h1)

theorem good2_add {t : Opt (Elem 2) ν} {val : Int → Int → ν} (h : Good2 dflt t grid val) {gs : List Int}
    (hg : ∀ g ∈ gs, 0 ≤ g) : Good2 dflt (t.add gs) (fun g => g ∈ gs ∨ grid g) val := by
  obtain ⟨ops, rfl, hv, hk, hget, hd⟩ := h
  have hv' := Opt.valid_snoc (op := .add gs) hv hg
  refine ⟨ops ++ [.add gs], by simp [run2, Opt.step2], hv', fun g => ?_, fun m n hm hn => ?_, fun m n hmn => ?_⟩
  · rw [Opt.known_add, hk]
  · refine OLife.get2_add hv' ?_ ?_ (fun h1 h2 => hget m n ((hk m).1 h1) ((hk n).1 h2)) fun h1 => hd m n ?_
    · rwa [hk]
    · rwa [hk]
    · rwa [hk, hk] at h1
  · exact hd m n (hmn.imp (fun h1 h2 => h1 (.inr h2)) fun h1 h2 => h1 (.inr h2))

open Classical in
theorem good1_remove {t : Opt Int ν} {val : Int → ν} (h : Good1 dflt t grid val) {gs : List Int}
    (hg : gs.Pairwise (· < ·)) :
    Good1 dflt (t.remove1 gs) (fun g => g ∉ gs ∧ grid g) fun g => if g ∈ gs then dflt else val g := by
  obtain ⟨ops, rfl, hv, hk, hget, hd⟩ := h
  have hv' := Opt.valid_snoc (op := .remove gs) hv hg
  refine ⟨ops ++ [.remove gs], by simp [run1, Opt.step1], hv', fun g => ?_, fun g hgg => ?_, fun g hgg => ?_⟩
  · rw [Opt.known_remove, hk]
  · rw [OLife.get1_remove hv' ((hk g).2 hgg.2) hgg.1, hget g hgg.2]; exact (if_neg hgg.1).symm
  · beta_reduce
    split
    · rfl
    · rename_i h1
      exact hd g fun h2 => hgg ⟨h1, h2⟩

open Classical in
theorem good2_remove {t : Opt (Elem 2) ν} {val : Int → Int → ν} (h : Good2 dflt t grid val) {gs : List Int}
    (hg : gs.Pairwise (· < ·)) :
    Good2 dflt (t.remove2 gs) (fun g => g ∉ gs ∧ grid g) fun m n => if m ∈ gs ∨ n ∈ gs then dflt else val m n := by
  obtain ⟨ops, rfl, hv, hk, hget, hd⟩ := h
  have hv' := Opt.valid_snoc (op := .remove gs) hv hg
  refine ⟨ops ++ [.remove gs], by simp [run2, Opt.step2], hv', fun g => ?_, fun m n hm hn => ?_, fun m n hmn => ?_⟩
  · rw [Opt.known_remove, hk]
  · rw [OLife.get2_remove hv' ((hk m).2 hm.2) ((hk n).2 hn.2) hm.1 hn.1, hget m n hm.2 hn.2]
    exact (if_neg (not_or.2 ⟨hm.1, hn.1⟩)).symm
  · beta_reduce
    split
    · rfl
    · rename_i h1
      rw [not_or] at h1
      exact hd m n (hmn.imp (fun h2 h3 => h2 ⟨h1.1, h3⟩) fun h2 h3 => h2 ⟨h1.2, h3⟩)

open Classical in
theorem good1_set {t : Opt Int ν} {val : Int → ν} (h : Good1 dflt t grid val) {p : Int} (v : ν)
    (hp : p = -1 ∨ grid p) :
    Good1 dflt (t.set1 dflt p v) grid fun g => if grid g ∧ Hits p g then v else val g := by
  obtain ⟨ops, rfl, hv, hk, hget, hd⟩ := h
  have hv' := Opt.valid_snoc (op := .set p v) hv (by intro g hg; rw [List.mem_singleton] at hg; subst hg; rwa [hk])
  refine ⟨ops ++ [.set p v], by simp [run1, Opt.step1], hv', fun g => ?_, fun g hgg => ?_, fun g hgg => ?_⟩
  · rw [Opt.known_set, hk]
  · rw [OLife.get1_set hv' ((hk g).2 hgg), hget g hgg]
    unfold Hits
    simp [hgg]
  · exact (if_neg fun h1 => hgg h1.1).trans (hd g hgg)

open Classical in
theorem good2_set {t : Opt (Elem 2) ν} {val : Int → Int → ν} (h : Good2 dflt t grid val) {p q : Int} (v : ν)
    (hp : p = -1 ∨ grid p) (hq : q = -1 ∨ grid q) :
    Good2 dflt (t.set2 dflt p q v) grid fun m n =>
      if (grid m ∧ Hits p m) ∧ grid n ∧ Hits q n then v else val m n := by
  obtain ⟨ops, rfl, hv, hk, hget, hd⟩ := h
  have hv' := Opt.valid_snoc (op := .set (p, q) v) hv (by
    intro g hg
    rw [hk]
    rcases List.mem_cons.1 hg with rfl | hg
    · exact hp
    · rw [List.mem_singleton] at hg; subst hg; exact hq)
  refine ⟨ops ++ [.set (p, q) v], by simp [run2, Opt.step2], hv', fun g => ?_, fun m n hm hn => ?_, fun m n hmn => ?_⟩
  · rw [Opt.known_set, hk]
  · rw [Opt.C47_read_back dflt ops (p, q) v hv' m n ((hk m).2 hm) ((hk n).2 hn), hget m n hm hn]
    unfold Hits
    simp [hm, hn]
  · exact (if_neg fun h1 => hmn.elim (fun h2 => h2 h1.1.1) fun h2 => h2 h1.2.1).trans (hd m n hmn)

theorem good1_ids {t : Opt Int ν} {val : Int → ν} (h : Good1 dflt t grid val) (g : Int) :
    (OSet.contains intLess t.ids g = true ↔ grid g) ∧ (grid g → 0 ≤ g) := by
  obtain ⟨ops, rfl, hv, hk, -, -⟩ := h
  have hG := Opt.good1 dflt ops hv
  exact ⟨by rw [Opt.contains_iff (OLife.known_lt hG.sorted), hG.known, hk], fun h1 => Opt.known_nonneg hv ((hk g).2 h1)⟩
end

/-! ## All tables -/

structure Inv (s : Options) (w : View) : Prop where
  one : ∀ o, Good1 (dflt1 o) ⟨s.ids, tab1 s o⟩ w.grid (w.one o)
  two : ∀ o, Good2 (dflt2 o) ⟨s.ids, tab2 s o⟩ w.grid (w.two o)

theorem inv_start : Inv {} start :=
  ⟨fun o => by cases o <;> exact good1_new, fun o => by cases o <;> exact good2_new⟩

theorem Inv.contains {s : Options} {w : View} (h : Inv s w) (g : Int) :
    OSet.contains intLess s.ids g = true ↔ w.grid g := (good1_ids (h.one .fringeSize) g).1

theorem Inv.nonneg {s : Options} {w : View} (h : Inv s w) {g : Int} (hg : w.grid g) : 0 ≤ g :=
  (good1_ids (h.one .fringeSize) g).2 hg

theorem Inv.admits {s : Options} {w : View} (h : Inv s w) (g : Int) :
    admits s.ids g = true ↔ g = -1 ∨ w.grid g := by
  unfold AllOpt.admits
  rw [Bool.or_eq_true, beq_iff_eq, h.contains]; rfl

theorem Inv.knows {s : Options} {w : View} (h : Inv s w) (g : Int) : knows s.ids g = true ↔ w.grid g := by
  unfold AllOpt.knows
  rw [Bool.and_eq_true, h.contains, decide_eq_true_iff]
  exact ⟨fun h => h.2, fun hg => ⟨h.nonneg hg, hg⟩⟩

/-- A function that returned `r` did what the events say, and failed only if they are not allowed. -/
def Does (r : Option Options) (s : Options) (es : List Event) : Prop :=
  ∀ w, Inv s w → match r with
    | some s' => AllAllowed w es ∧ Inv s' (after w es)
    | none => ¬ AllAllowed w es

theorem allAllowed_append (w : View) (es es' : List Event) :
    AllAllowed w (es ++ es') ↔ AllAllowed w es ∧ AllAllowed (after w es) es' := by
  induction es generalizing w with
  | nil => simp [AllAllowed, after]
  | cons e es ih =>
    show Allowed w e ∧ AllAllowed (see w e) (es ++ es') ↔
      (Allowed w e ∧ AllAllowed (see w e) es) ∧ AllAllowed (after (see w e) es) es'
    rw [ih, and_assoc]

theorem Does.bind {r : Option Options} {s : Options} {es es' : List Event} {k : Options → Option Options}
    (h : Does r s es) (hk : ∀ s', Does (k s') s' es') : Does (r.bind k) s (es ++ es') := by
  intro w hw
  have h1 := h w hw
  cases r with
  | none =>
    rw [Option.bind_none]
    simp only at h1 ⊢
    rw [allAllowed_append]
    exact fun h2 => h1 h2.1
  | some s' =>
    rw [Option.bind_some]
    simp only at h1
    have h2 := hk s' _ h1.2
    cases hr : k s' with
    | none =>
      rw [hr] at h2
      simp only at h2 ⊢
      rw [allAllowed_append]
      exact fun h3 => h2 h3.2
    | some s'' =>
      rw [hr] at h2
      simp only at h2 ⊢
      rw [allAllowed_append]
      refine ⟨⟨h1.1, h2.1⟩, ?_⟩
      unfold after at h2 ⊢
      rw [List.foldl_append]
      exact h2.2

theorem does_some (s : Options) : Does (some s) s [] := fun _ hw => ⟨trivial, hw⟩

theorem does_set1 (s : Options) (o : Name1) (f : OMap Int (Ty1 o) → Options) (p : Int) (v : Ty1 o)
    (hid : ∀ t, (f t).ids = s.ids) (ht : ∀ t, tab1 (f t) o = t) (ho : ∀ t o', o' ≠ o → tab1 (f t) o' = tab1 s o')
    (h2 : ∀ t o', tab2 (f t) o' = tab2 s o') (hok : Ok1 o v) :
    Does ((setOption1 s.ids (tab1 s o) p v (dflt1 o)).map f) s [.set1 o p v] := by
  intro w hw
  unfold setOption1
  by_cases ha : admits s.ids p = true
  · rw [if_pos ha]
    have hp := (hw.admits p).1 ha
    refine ⟨⟨⟨hp, hok⟩, trivial⟩, fun o' => ?_, fun o' => ?_⟩
    · rw [hid]
      unfold after
      rw [List.foldl_cons, List.foldl_nil]
      by_cases hoo : o' = o
      · subst hoo
        rw [ht]
        unfold see
        dsimp only
        rw [Function.update_self]
        exact good1_set (hw.one o') v hp
      · rw [ho _ _ hoo]
        unfold see
        dsimp only
        rw [Function.update_of_ne hoo]
        exact hw.one o'
    · rw [hid, h2]
      exact hw.two o'
  · rw [if_neg ha]
    exact fun h => ha ((hw.admits p).2 h.1.1)

theorem does_set2 (s : Options) (o : Name2) (f : OMap (Elem 2) (Ty2 o) → Options) (p q : Int) (v : Ty2 o)
    (hid : ∀ t, (f t).ids = s.ids) (ht : ∀ t, tab2 (f t) o = t) (ho : ∀ t o', o' ≠ o → tab2 (f t) o' = tab2 s o')
    (h1 : ∀ t o', tab1 (f t) o' = tab1 s o') (hok : Ok2 o v) :
    Does ((setOption2 s.ids (tab2 s o) (p, q) v (dflt2 o)).map f) s [.set2 o p q v] := by
  intro w hw
  unfold setOption2
  by_cases ha : (admits s.ids p && admits s.ids q) = true
  · rw [if_pos ha]
    rw [Bool.and_eq_true] at ha
    have hp := (hw.admits p).1 ha.1
    have hq := (hw.admits q).1 ha.2
    refine ⟨⟨⟨hp, hq, hok⟩, trivial⟩, fun o' => ?_, fun o' => ?_⟩
    · rw [hid, h1]
      exact hw.one o'
    · rw [hid]
      unfold after
      rw [List.foldl_cons, List.foldl_nil]
      by_cases hoo : o' = o
      · subst hoo
        rw [ht]
        unfold see
        dsimp only
        rw [Function.update_self]
        exact good2_set (hw.two o') v hp hq
      · rw [ho _ _ hoo]
        unfold see
        dsimp only
        rw [Function.update_of_ne hoo]
        exact hw.two o'
  · rw [if_neg ha]
    rw [Bool.and_eq_true] at ha
    exact fun h => ha ⟨(hw.admits p).2 h.1.1, (hw.admits q).2 h.1.2.1⟩

theorem does_if {c : Prop} [Decidable c] {r : Option Options} {s : Options} {e : Event}
    (h : c → Does r s [e]) (hn : ∀ w, Allowed w e → c) : Does (if c then r else none) s [e] := by
  by_cases hc : c
  · rw [if_pos hc]; exact h hc
  · rw [if_neg hc]; exact fun w _ h1 => hc (hn w h1.1)

theorem does_add (s : Options) (gs : List Int) : Does (step s (.addGrids gs)) s [.add gs] := by
  refine does_if (fun hg w hw => ⟨⟨hg, trivial⟩, fun o => ?_, fun o => ?_⟩) fun w h => h
  · have := good1_add (hw.one o) hg.2
    cases o <;> exact this
  · have := good2_add (hw.two o) hg.2
    cases o <;> exact this

theorem does_remove (s : Options) (gs : List Int) : Does (step s (.removeGrids gs)) s [.remove gs] := by
  refine does_if (fun hg w hw => ⟨⟨hg, trivial⟩, fun o => ?_, fun o => ?_⟩) fun w h => h
  · have := good1_remove (hw.one o) hg
    cases o <;> exact this
  · have := good2_remove (hw.two o) hg
    cases o <;> exact this

theorem occludes_ok (v : Int) : validOccludes v = true ↔ 0 ≤ v ∧ v ≤ 2 := by
  simp [validOccludes]; omega

theorem connectionType_ok (v : Int) : validConnectionType v = true ↔ 0 ≤ v ∧ v ≤ 3 := by
  simp [validConnectionType]; omega

/-! ## The functions -/

theorem does_setOverlappable (s : Options) (m n : Int) (v : Bool) : Does (s.setOverlappable (m, n) v) s [.set2 .overlappable m n v] :=
  does_set2 s .overlappable _ m n v (fun _ => rfl) (fun _ => rfl) (by intro _ o' h; cases o' <;> first | rfl | exact absurd rfl h)
      (by intro _ o'; cases o' <;> rfl) trivial

theorem does_resetOverlappable (s : Options) (m n : Int) : Does (s.resetOverlappable (m, n)) s [.set2 .overlappable m n (dflt2 .overlappable)] :=
  does_set2 s .overlappable _ m n (dflt2 .overlappable) (fun _ => rfl) (fun _ => rfl) (by intro _ o' h; cases o' <;> first | rfl | exact absurd rfl h)
      (by intro _ o'; cases o' <;> rfl) trivial

theorem does_setOverlapTolerance (s : Options) (m n : Int) (v : Rat) : Does (s.setOverlapTolerance (m, n) v) s [.set2 .overlapTolerance m n v] :=
  does_if (fun hc => does_set2 s .overlapTolerance _ m n v (fun _ => rfl) (fun _ => rfl) (by intro _ o' h; cases o' <;> first | rfl | exact absurd rfl h)
      (by intro _ o'; cases o' <;> rfl) hc) fun w h => h.2.2

theorem does_resetOverlapTolerance (s : Options) (m n : Int) : Does (s.resetOverlapTolerance (m, n)) s [.set2 .overlapTolerance m n (dflt2 .overlapTolerance)] :=
  does_set2 s .overlapTolerance _ m n (dflt2 .overlapTolerance) (fun _ => rfl) (fun _ => rfl) (by intro _ o' h; cases o' <;> first | rfl | exact absurd rfl h)
      (by intro _ o'; cases o' <;> rfl) (by show (0 : Rat) ≤ 1 / 1000000000000; norm_num)

theorem does_setOverlapAccelDepthAdjust (s : Options) (g : Int) (v : Rat) : Does (s.setOverlapAccelDepthAdjust g v) s [.set1 .overlapAccelDepthAdjust g v] :=
  does_set1 s .overlapAccelDepthAdjust _ g v (fun _ => rfl) (fun _ => rfl) (by intro _ o' h; cases o' <;> first | rfl | exact absurd rfl h)
      (by intro _ o'; cases o' <;> rfl) trivial

theorem does_resetOverlapAccelDepthAdjust (s : Options) (g : Int) : Does (s.resetOverlapAccelDepthAdjust g) s [.set1 .overlapAccelDepthAdjust g (dflt1 .overlapAccelDepthAdjust)] :=
  does_set1 s .overlapAccelDepthAdjust _ g (dflt1 .overlapAccelDepthAdjust) (fun _ => rfl) (fun _ => rfl) (by intro _ o' h; cases o' <;> first | rfl | exact absurd rfl h)
      (by intro _ o'; cases o' <;> rfl) trivial

theorem does_setOverlapAccelResolutionAdjust (s : Options) (g : Int) (v : Rat) : Does (s.setOverlapAccelResolutionAdjust g v) s [.set1 .overlapAccelResolutionAdjust g v] :=
  does_set1 s .overlapAccelResolutionAdjust _ g v (fun _ => rfl) (fun _ => rfl) (by intro _ o' h; cases o' <;> first | rfl | exact absurd rfl h)
      (by intro _ o'; cases o' <;> rfl) trivial

theorem does_resetOverlapAccelResolutionAdjust (s : Options) (g : Int) : Does (s.resetOverlapAccelResolutionAdjust g) s [.set1 .overlapAccelResolutionAdjust g (dflt1 .overlapAccelResolutionAdjust)] :=
  does_set1 s .overlapAccelResolutionAdjust _ g (dflt1 .overlapAccelResolutionAdjust) (fun _ => rfl) (fun _ => rfl) (by intro _ o' h; cases o' <;> first | rfl | exact absurd rfl h)
      (by intro _ o'; cases o' <;> rfl) trivial

theorem does_setInferBoundaries (s : Options) (g : Int) (v : Bool) : Does (s.setInferBoundaries g v) s [.set1 .inferBoundaries g v] :=
  does_set1 s .inferBoundaries _ g v (fun _ => rfl) (fun _ => rfl) (by intro _ o' h; cases o' <;> first | rfl | exact absurd rfl h)
      (by intro _ o'; cases o' <;> rfl) trivial

theorem does_resetInferBoundaries (s : Options) (g : Int) : Does (s.resetInferBoundaries g) s [.set1 .inferBoundaries g (dflt1 .inferBoundaries)] :=
  does_set1 s .inferBoundaries _ g (dflt1 .inferBoundaries) (fun _ => rfl) (fun _ => rfl) (by intro _ o' h; cases o' <;> first | rfl | exact absurd rfl h)
      (by intro _ o'; cases o' <;> rfl) trivial

theorem does_setCutBoundaryHoles (s : Options) (m n : Int) (v : Bool) : Does (s.setCutBoundaryHoles (m, n) v) s [.set2 .cutBoundaryHoles m n v] :=
  does_set2 s .cutBoundaryHoles _ m n v (fun _ => rfl) (fun _ => rfl) (by intro _ o' h; cases o' <;> first | rfl | exact absurd rfl h)
      (by intro _ o'; cases o' <;> rfl) trivial

theorem does_resetCutBoundaryHoles (s : Options) (m n : Int) : Does (s.resetCutBoundaryHoles (m, n)) s [.set2 .cutBoundaryHoles m n (dflt2 .cutBoundaryHoles)] :=
  does_set2 s .cutBoundaryHoles _ m n (dflt2 .cutBoundaryHoles) (fun _ => rfl) (fun _ => rfl) (by intro _ o' h; cases o' <;> first | rfl | exact absurd rfl h)
      (by intro _ o'; cases o' <;> rfl) trivial

theorem does_setOccludes (s : Options) (m n : Int) (v : Int) : Does (s.setOccludes (m, n) v) s [.set2 .occludes m n v] :=
  does_if (fun hc => does_set2 s .occludes _ m n v (fun _ => rfl) (fun _ => rfl) (by intro _ o' h; cases o' <;> first | rfl | exact absurd rfl h)
      (by intro _ o'; cases o' <;> rfl) ((occludes_ok v).1 hc)) fun w h => (occludes_ok v).2 h.2.2

theorem does_resetOccludes (s : Options) (m n : Int) : Does (s.resetOccludes (m, n)) s [.set2 .occludes m n (dflt2 .occludes)] :=
  does_set2 s .occludes _ m n (dflt2 .occludes) (fun _ => rfl) (fun _ => rfl) (by intro _ o' h; cases o' <;> first | rfl | exact absurd rfl h)
      (by intro _ o'; cases o' <;> rfl) (by show (0 : Int) ≤ 0 ∧ (0 : Int) ≤ _; decide)

theorem does_setEdgePadding (s : Options) (m n : Int) (v : Int) : Does (s.setEdgePadding (m, n) v) s [.set2 .edgePadding m n v] :=
  does_if (fun hc => does_set2 s .edgePadding _ m n v (fun _ => rfl) (fun _ => rfl) (by intro _ o' h; cases o' <;> first | rfl | exact absurd rfl h)
      (by intro _ o'; cases o' <;> rfl) hc) fun w h => h.2.2

theorem does_resetEdgePadding (s : Options) (m n : Int) : Does (s.resetEdgePadding (m, n)) s [.set2 .edgePadding m n (dflt2 .edgePadding)] :=
  does_set2 s .edgePadding _ m n (dflt2 .edgePadding) (fun _ => rfl) (fun _ => rfl) (by intro _ o' h; cases o' <;> first | rfl | exact absurd rfl h)
      (by intro _ o'; cases o' <;> rfl) (by show (0 : Int) ≤ 0; decide)

theorem does_setEdgeSmoothing (s : Options) (g : Int) (v : Int) : Does (s.setEdgeSmoothing g v) s [.set1 .edgeSmoothing g v] :=
  does_if (fun hc => does_set1 s .edgeSmoothing _ g v (fun _ => rfl) (fun _ => rfl) (by intro _ o' h; cases o' <;> first | rfl | exact absurd rfl h)
      (by intro _ o'; cases o' <;> rfl) hc) fun w h => h.2

theorem does_resetEdgeSmoothing (s : Options) (g : Int) : Does (s.resetEdgeSmoothing g) s [.set1 .edgeSmoothing g (dflt1 .edgeSmoothing)] :=
  does_set1 s .edgeSmoothing _ g (dflt1 .edgeSmoothing) (fun _ => rfl) (fun _ => rfl) (by intro _ o' h; cases o' <;> first | rfl | exact absurd rfl h)
      (by intro _ o'; cases o' <;> rfl) (by show (0 : Int) ≤ 0; decide)

theorem does_setConnectionType (s : Options) (m n : Int) (v : Int) : Does (s.setConnectionType (m, n) v) s [.set2 .connectionType m n v] :=
  does_if (fun hc => does_set2 s .connectionType _ m n v (fun _ => rfl) (fun _ => rfl) (by intro _ o' h; cases o' <;> first | rfl | exact absurd rfl h)
      (by intro _ o'; cases o' <;> rfl) ((connectionType_ok v).1 hc)) fun w h => (connectionType_ok v).2 h.2.2

theorem does_resetConnectionType (s : Options) (m n : Int) : Does (s.resetConnectionType (m, n)) s [.set2 .connectionType m n (dflt2 .connectionType)] :=
  does_set2 s .connectionType _ m n (dflt2 .connectionType) (fun _ => rfl) (fun _ => rfl) (by intro _ o' h; cases o' <;> first | rfl | exact absurd rfl h)
      (by intro _ o'; cases o' <;> rfl) (by show (0 : Int) ≤ 0 ∧ (0 : Int) ≤ _; decide)

theorem does_setFringeSize (s : Options) (g : Int) (v : Int) : Does (s.setFringeSize g v) s [.set1 .fringeSize g v] :=
  does_if (fun hc => does_set1 s .fringeSize _ g v (fun _ => rfl) (fun _ => rfl) (by intro _ o' h; cases o' <;> first | rfl | exact absurd rfl h)
      (by intro _ o'; cases o' <;> rfl) hc) fun w h => h.2

theorem does_resetFringeSize (s : Options) (g : Int) : Does (s.resetFringeSize g) s [.set1 .fringeSize g (dflt1 .fringeSize)] :=
  does_set1 s .fringeSize _ g (dflt1 .fringeSize) (fun _ => rfl) (fun _ => rfl) (by intro _ o' h; cases o' <;> first | rfl | exact absurd rfl h)
      (by intro _ o'; cases o' <;> rfl) (by show (0 : Int) ≤ 0; decide)

theorem does_setMinimizeOverlap (s : Options) (m n : Int) (v : Bool) : Does (s.setMinimizeOverlap (m, n) v) s [.set2 .minimizeOverlap m n v] :=
  does_set2 s .minimizeOverlap _ m n v (fun _ => rfl) (fun _ => rfl) (by intro _ o' h; cases o' <;> first | rfl | exact absurd rfl h)
      (by intro _ o'; cases o' <;> rfl) trivial

theorem does_resetMinimizeOverlap (s : Options) (m n : Int) : Does (s.resetMinimizeOverlap (m, n)) s [.set2 .minimizeOverlap m n (dflt2 .minimizeOverlap)] :=
  does_set2 s .minimizeOverlap _ m n (dflt2 .minimizeOverlap) (fun _ => rfl) (fun _ => rfl) (by intro _ o' h; cases o' <;> first | rfl | exact absurd rfl h)
      (by intro _ o'; cases o' <;> rfl) trivial

theorem does_setDisjointConnections (s : Options) (m n : Int) (v : Bool) : Does (s.setDisjointConnections (m, n) v) s [.set2 .disjointConnections m n v] :=
  does_set2 s .disjointConnections _ m n v (fun _ => rfl) (fun _ => rfl) (by intro _ o' h; cases o' <;> first | rfl | exact absurd rfl h)
      (by intro _ o'; cases o' <;> rfl) trivial

theorem does_resetDisjointConnections (s : Options) (m n : Int) : Does (s.resetDisjointConnections (m, n)) s [.set2 .disjointConnections m n (dflt2 .disjointConnections)] :=
  does_set2 s .disjointConnections _ m n (dflt2 .disjointConnections) (fun _ => rfl) (fun _ => rfl) (by intro _ o' h; cases o' <;> first | rfl | exact absurd rfl h)
      (by intro _ o'; cases o' <;> rfl) trivial

theorem does_resetSelf (s : Options) (g : Int) :
    Does (s.resetSelf g) s (selfOptions.map fun o => .set2 o g g (dflt2 o)) := by
  unfold Options.resetSelf
  refine (does_resetOverlappable _ g g).bind fun _ => (does_resetOverlapTolerance _ g g).bind fun _ => (does_resetCutBoundaryHoles _ g g).bind fun _ => (does_resetOccludes _ g g).bind fun _ => (does_resetEdgePadding _ g g).bind fun _ => (does_resetConnectionType _ g g).bind fun _ => does_resetMinimizeOverlap _ g g

theorem does_endEdit (s : Options) (gs : List Int) : Does (s.endEdit gs) s (events (.endEdit gs)) := by
  show Does (gs.foldlM Options.resetSelf s) s (gs.flatMap fun g => selfOptions.map fun o => .set2 o g g (dflt2 o))
  induction gs generalizing s with
  | nil => exact does_some s
  | cons g gs ih =>
    rw [List.foldlM_cons, List.flatMap_cons]
    exact (does_resetSelf s g).bind ih

theorem does_step (s : Options) (c : Call) : Does (step s c) s (events c) := by
  cases c with
  | addGrids gs => exact does_add s gs
  | removeGrids gs => exact does_remove s gs
  | endEdit gs => exact does_endEdit s gs
  | setOverlappable m n v => exact does_setOverlappable s m n v
  | resetOverlappable m n => exact does_resetOverlappable s m n
  | setOverlapTolerance m n v => exact does_setOverlapTolerance s m n v
  | resetOverlapTolerance m n => exact does_resetOverlapTolerance s m n
  | setOverlapAccelDepthAdjust g v => exact does_setOverlapAccelDepthAdjust s g v
  | resetOverlapAccelDepthAdjust g => exact does_resetOverlapAccelDepthAdjust s g
  | setOverlapAccelResolutionAdjust g v => exact does_setOverlapAccelResolutionAdjust s g v
  | resetOverlapAccelResolutionAdjust g => exact does_resetOverlapAccelResolutionAdjust s g
  | setInferBoundaries g v => exact does_setInferBoundaries s g v
  | resetInferBoundaries g => exact does_resetInferBoundaries s g
  | setCutBoundaryHoles m n v => exact does_setCutBoundaryHoles s m n v
  | resetCutBoundaryHoles m n => exact does_resetCutBoundaryHoles s m n
  | setOccludes m n v => exact does_setOccludes s m n v
  | resetOccludes m n => exact does_resetOccludes s m n
  | setEdgePadding m n v => exact does_setEdgePadding s m n v
  | resetEdgePadding m n => exact does_resetEdgePadding s m n
  | setEdgeSmoothing g v => exact does_setEdgeSmoothing s g v
  | resetEdgeSmoothing g => exact does_resetEdgeSmoothing s g
  | setConnectionType m n v => exact does_setConnectionType s m n v
  | resetConnectionType m n => exact does_resetConnectionType s m n
  | setFringeSize g v => exact does_setFringeSize s g v
  | resetFringeSize g => exact does_resetFringeSize s g
  | setMinimizeOverlap m n v => exact does_setMinimizeOverlap s m n v
  | resetMinimizeOverlap m n => exact does_resetMinimizeOverlap s m n
  | setDisjointConnections m n v => exact does_setDisjointConnections s m n v
  | resetDisjointConnections m n => exact does_resetDisjointConnections s m n
  | cSetOverlappable m n v => exact does_setOverlappable s m n v
  | cResetOverlappable m n => exact does_resetOverlappable s m n
  | cSetOverlapTolerance m n v => exact does_setOverlapTolerance s m n v
  | cResetOverlapTolerance m n => exact does_resetOverlapTolerance s m n
  | cSetOverlapAccelDepthAdjust g v => exact does_setOverlapAccelDepthAdjust s g v
  | cResetOverlapAccelDepthAdjust g => exact does_resetOverlapAccelDepthAdjust s g
  | cSetOverlapAccelResolutionAdjust g v => exact does_setOverlapAccelResolutionAdjust s g v
  | cResetOverlapAccelResolutionAdjust g => exact does_resetOverlapAccelResolutionAdjust s g
  | cSetInferBoundaries g v => exact does_setInferBoundaries s g v
  | cResetInferBoundaries g => exact does_resetInferBoundaries s g
  | cSetCutBoundaryHoles m n v => exact does_setCutBoundaryHoles s m n v
  | cResetCutBoundaryHoles m n => exact does_resetCutBoundaryHoles s m n
  | cSetOccludes m n v => exact does_setOccludes s m n v
  | cResetOccludes m n => exact does_resetOccludes s m n
  | cSetEdgePadding m n v => exact does_setEdgePadding s m n v
  | cResetEdgePadding m n => exact does_resetEdgePadding s m n
  | cSetEdgeSmoothing g v => exact does_setEdgeSmoothing s g v
  | cResetEdgeSmoothing g => exact does_resetEdgeSmoothing s g
  | cSetConnectionType m n v => exact does_setConnectionType s m n v
  | cResetConnectionType m n => exact does_resetConnectionType s m n
  | cSetFringeSize g v => exact does_setFringeSize s g v
  | cResetFringeSize g => exact does_resetFringeSize s g
  | cSetMinimizeOverlap m n v => exact does_setMinimizeOverlap s m n v
  | cResetMinimizeOverlap m n => exact does_resetMinimizeOverlap s m n
  | cSetDisjointConnections m n v => exact does_setDisjointConnections s m n v
  | cResetDisjointConnections m n => exact does_resetDisjointConnections s m n

theorem does_run (calls : List Call) (s : Options) : Does (calls.foldlM step s) s (calls.flatMap events) := by
  induction calls generalizing s with
  | nil => exact does_some s
  | cons c calls ih =>
    rw [List.foldlM_cons, List.flatMap_cons]
    exact (does_step s c).bind ih

theorem inv_run {calls : List Call} {s : Options} (h : run calls = some s) : Inv s (view calls) := by
  have := does_run calls {} start inv_start
  unfold run at h
  rw [h] at this
  exact this.2

theorem run_snoc (calls : List Call) (c : Call) : run (calls ++ [c]) = (run calls).bind fun s => step s c := by
  unfold run
  rw [List.foldlM_append]
  cases List.foldlM step {} calls with
  | none => rfl
  | some s => simp

theorem read1_eq {s : Options} {w : View} (h : Inv s w) (o : Name1) (g : Int) :
    (w.grid g → getOption1 s.ids (tab1 s o) g (dflt1 o) = some (w.one o g)) ∧
    (¬ w.grid g → getOption1 s.ids (tab1 s o) g (dflt1 o) = none) := by
  unfold getOption1
  refine ⟨fun hg => ?_, fun hg => if_neg fun h1 => hg ((h.knows g).1 h1)⟩
  rw [if_pos ((h.knows g).2 hg)]
  obtain ⟨ops, e, -, -, h4, -⟩ := h.one o
  rw [e, h4 g hg]

theorem read2_eq {s : Options} {w : View} (h : Inv s w) (o : Name2) (m n : Int) :
    (w.grid m → w.grid n → getOption2 s.ids (tab2 s o) (m, n) (dflt2 o) = some (w.two o m n)) ∧
    (¬ (w.grid m ∧ w.grid n) → getOption2 s.ids (tab2 s o) (m, n) (dflt2 o) = none) := by
  unfold getOption2
  refine ⟨fun hm hn => ?_, fun hg => if_neg fun h1 => ?_⟩
  · rw [if_pos (by rw [Bool.and_eq_true]; exact ⟨(h.knows m).2 hm, (h.knows n).2 hn⟩)]
    obtain ⟨ops, e, -, -, h4, -⟩ := h.two o
    rw [e, h4 m n hm hn]
  · rw [Bool.and_eq_true] at h1
    exact hg ⟨(h.knows m).1 h1.1, (h.knows n).1 h1.2⟩

/-! ## C129 -/

/-- C129: the functions of C++ and of C that read an option of a grid return the value the calls made before have given
it, and fail if there is no such grid. -/
theorem C129_one {calls : List Call} {s : Options} (h : run calls = some s) (o : Name1) (g : Int) :
    ((view calls).grid g → read1 s o g = some ((view calls).one o g)) ∧
    (¬ (view calls).grid g → read1 s o g = none) ∧ cRead1 s o g = read1 s o g := by
  have := read1_eq (inv_run h) o g
  cases o <;> exact ⟨this.1, this.2, rfl⟩

/-- C129: the functions of C++ and of C that read an option of a pair of grids return the value the calls made before
have given it, and fail if there are no such grids. -/
theorem C129_two {calls : List Call} {s : Options} (h : run calls = some s) (o : Name2) (m n : Int) :
    ((view calls).grid m → (view calls).grid n → read2 s o m n = some ((view calls).two o m n)) ∧
    (¬ ((view calls).grid m ∧ (view calls).grid n) → read2 s o m n = none) ∧ cRead2 s o m n = read2 s o m n := by
  have := read2_eq (inv_run h) o m n
  cases o <;> exact ⟨this.1, this.2, rfl⟩

/-- C129: a call is accepted exactly if what it is for is allowed. -/
theorem C129_defined {calls : List Call} {s : Options} (h : run calls = some s) (c : Call) :
    (run (calls ++ [c])).isSome = true ↔ AllAllowed (view calls) (events c) := by
  rw [run_snoc, h, Option.bind_some]
  have := does_step s c _ (inv_run h)
  cases hs : step s c with
  | none => rw [hs] at this; simpa using this
  | some s' => rw [hs] at this; simpa using this.1

/-- The options of pairs that an event changes. -/
def Spec.Event.about2 (o : Name2) : Event → Prop
  | .set2 o' _ _ _ => o' = o
  | .set1 _ _ _ => False
  | _ => True

/-- The options of grids that an event changes. -/
def Spec.Event.about1 (o : Name1) : Event → Prop
  | .set1 o' _ _ => o' = o
  | .set2 _ _ _ _ => False
  | _ => True

theorem after_other2 (o : Name2) (es : List Event) (w : View) (h : ∀ e ∈ es, ¬ e.about2 o) :
    (after w es).grid = w.grid ∧ (after w es).two o = w.two o := by
  induction es generalizing w with
  | nil => exact ⟨rfl, rfl⟩
  | cons e es ih =>
    obtain ⟨h1, h2⟩ := ih (see w e) fun e' he' => h e' (List.mem_cons_of_mem _ he')
    have he := h e List.mem_cons_self
    unfold after at h1 h2 ⊢
    rw [List.foldl_cons, h1, h2]
    cases e with
    | add gs => exact (he trivial).elim
    | remove gs => exact (he trivial).elim
    | set1 => exact ⟨rfl, rfl⟩
    | set2 o' p q v =>
      refine ⟨rfl, ?_⟩
      unfold see
      exact Function.update_of_ne (fun h3 => he h3.symm) _ _

theorem after_other1 (o : Name1) (es : List Event) (w : View) (h : ∀ e ∈ es, ¬ e.about1 o) :
    (after w es).grid = w.grid ∧ (after w es).one o = w.one o := by
  induction es generalizing w with
  | nil => exact ⟨rfl, rfl⟩
  | cons e es ih =>
    obtain ⟨h1, h2⟩ := ih (see w e) fun e' he' => h e' (List.mem_cons_of_mem _ he')
    have he := h e List.mem_cons_self
    unfold after at h1 h2 ⊢
    rw [List.foldl_cons, h1, h2]
    cases e with
    | add gs => exact (he trivial).elim
    | remove gs => exact (he trivial).elim
    | set2 => exact ⟨rfl, rfl⟩
    | set1 o' p v =>
      refine ⟨rfl, ?_⟩
      unfold see
      exact Function.update_of_ne (fun h3 => he h3.symm) _ _

/-- C129: functions for one option leave all other options as they are, for all grids. -/
theorem C129_independent {calls : List Call} {s : Options} (h : run calls = some s) {c : Call} {s' : Options}
    (h' : step s c = some s') :
    (∀ o, (∀ e ∈ events c, ¬ e.about2 o) → ∀ m n, read2 s' o m n = read2 s o m n) ∧
    (∀ o, (∀ e ∈ events c, ¬ e.about1 o) → ∀ g, read1 s' o g = read1 s o g) := by
  have hr : run (calls ++ [c]) = some s' := by rw [run_snoc, h]; exact h'
  have hv : view (calls ++ [c]) = after (view calls) (events c) := by
    unfold view after
    rw [List.flatMap_append, List.foldl_append]
    simp
  refine ⟨fun o ho m n => ?_, fun o ho g => ?_⟩
  · obtain ⟨h1, h2⟩ := after_other2 o _ (view calls) ho
    have a := C129_two h o m n
    have b := C129_two hr o m n
    rw [hv, h1, h2] at b
    by_cases hg : (view calls).grid m ∧ (view calls).grid n
    · rw [a.1 hg.1 hg.2, b.1 hg.1 hg.2]
    · rw [a.2.1 hg, b.2.1 hg]
  · obtain ⟨h1, h2⟩ := after_other1 o _ (view calls) ho
    have a := C129_one h o g
    have b := C129_one hr o g
    rw [hv, h1, h2] at b
    by_cases hg : (view calls).grid g
    · rw [a.1 hg, b.1 hg]
    · rw [a.2.1 hg, b.2.1 hg]

/-- C129: at the end of an edit no grid has options with itself, except whether its connections are disjoint. -/
theorem C129_self {calls : List Call} {s : Options} {gs : List Int} (h : run (calls ++ [.endEdit gs]) = some s)
    (hgs : ∀ g, g ∈ gs ↔ (view calls).grid g) {g : Int} (hg : g ∈ gs) :
    (∀ o ≠ .disjointConnections, read2 s o g g = some (dflt2 o)) ∧
    read2 s .disjointConnections g g = some ((view calls).two .disjointConnections g g) := by
  have hv : view (calls ++ [.endEdit gs]) = after (view calls) (events (.endEdit gs)) := by
    unfold view after
    rw [List.flatMap_append, List.foldl_append]
    simp
  have hgrid : ∀ es : List Event, (∀ e ∈ es, ∃ o a, e = .set2 o a a (dflt2 o)) → ∀ w, (after w es).grid = w.grid := by
    intro es
    induction es with
    | nil => intro _ w; rfl
    | cons e es ih =>
      intro he w
      obtain ⟨o, a, rfl⟩ := he e List.mem_cons_self
      exact ih (fun e' he' => he e' (List.mem_cons_of_mem _ he')) _
  have hform : ∀ e ∈ events (.endEdit gs), ∃ o a, e = Event.set2 o a a (dflt2 o) := by
    intro e he
    obtain ⟨a, -, he⟩ := List.mem_flatMap.1 he
    obtain ⟨o, -, rfl⟩ := List.mem_map.1 he
    exact ⟨o, a, rfl⟩
  have hG : (view (calls ++ [.endEdit gs])).grid = (view calls).grid := by rw [hv]; exact hgrid _ hform _
  have hk : (view (calls ++ [.endEdit gs])).grid g := by rw [hG]; exact (hgs g).1 hg
  refine ⟨fun o ho => ?_, ?_⟩
  · rw [(C129_two h o g g).1 hk hk, hv]
    congr 1
    have keep : ∀ es : List Event, (∀ e ∈ es, ∃ o a, e = .set2 o a a (dflt2 o)) → ∀ w : View, w.two o g g = dflt2 o →
        (after w es).two o g g = dflt2 o := by
      intro es
      induction es with
      | nil => intro _ w hw; exact hw
      | cons e es ih =>
        intro he w hw
        obtain ⟨o', a, rfl⟩ := he e List.mem_cons_self
        refine ih (fun e' he' => he e' (List.mem_cons_of_mem _ he')) _ ?_
        unfold see
        dsimp only
        by_cases hoo : o = o'
        · subst hoo
          rw [Function.update_self]
          split
          · rfl
          · exact hw
        · rw [Function.update_of_ne hoo]; exact hw
    have hmem : Event.set2 o g g (dflt2 o) ∈ events (.endEdit gs) := by
      refine List.mem_flatMap.2 ⟨g, hg, List.mem_map.2 ⟨o, ?_, rfl⟩⟩
      cases o <;> first | exact absurd rfl ho | decide
    obtain ⟨pre, post, e⟩ := List.append_of_mem hmem
    rw [e] at hform ⊢
    unfold after
    rw [List.foldl_append, List.foldl_cons]
    refine keep post (fun e' he' => hform e' (by simp [he'])) _ ?_
    have hp : (List.foldl see (view calls) pre).grid g := by
      have := hgrid pre (fun e' he' => hform e' (by simp [he'])) (view calls)
      unfold after at this
      rw [this]; exact (hgs g).1 hg
    unfold see
    dsimp only
    rw [Function.update_self, if_pos ⟨⟨hp, .inl rfl⟩, hp, .inl rfl⟩]
  · rw [(C129_two h _ g g).1 hk hk, hv]
    congr 1
    rw [(after_other2 .disjointConnections _ (view calls) ?_).2]
    intro e he
    obtain ⟨a, -, he⟩ := List.mem_flatMap.1 he
    obtain ⟨o, ho, rfl⟩ := List.mem_map.1 he
    unfold Event.about2
    rintro rfl
    revert ho
    decide

/-! ## Examples -/

def exCalls : List Call :=
  [.addGrids [1, 2, 5], .setOverlappable (-1) (-1) true, .cSetOverlapTolerance 1 2 (1 / 100), .cSetOccludes 2 1 2,
    .setDisjointConnections (-1) 5 false, .setFringeSize (-1) 2, .cResetFringeSize 2, .setEdgePadding 1 5 6,
    .removeGrids [2], .endEdit [1, 5]]

example : (run exCalls).isSome = true := by decide +kernel
example : ((run exCalls).bind fun s => s.getOverlappable (1, 5)) = some true := by decide +kernel
example : ((run exCalls).bind fun s => s.getOverlappable (1, 1)) = some false := by decide +kernel
example : ((run exCalls).bind fun s => s.getDisjointConnections (5, 5)) = some false := by decide +kernel
example : ((run exCalls).bind fun s => s.cGetEdgePadding 1 5) = some 6 := by decide +kernel
example : ((run exCalls).bind fun s => s.cGetOverlapTolerance 1 2) = none := by decide +kernel
example : ((run (exCalls.take 8)).bind fun s => s.cGetOverlapTolerance 1 2) = some (1 / 100) := by decide +kernel
example : ((run (exCalls.take 8)).bind fun s => s.cGetFringeSize 2) = some 0 := by decide +kernel
example : ((run (exCalls.take 8)).bind fun s => s.cGetFringeSize 1) = some 2 := by decide +kernel
example : run (exCalls ++ [.setOccludes 1 5 3]) = none := by
  have : (run (exCalls ++ [.setOccludes 1 5 3])).isNone = true := by decide +kernel
  simpa using this

end Ovk.AllOpt
