import Verif.Model.Options
import Mathlib.Data.Rat.Defs
import Mathlib.Algebra.Order.Ring.Rat
/-!
# All options of the assembler, and their functions in C

Model of `assembler::options` (src/core/AssemblerOptions.cpp, src/core/Assembler.hpp 382-486) with all thirteen
tables, of the functions of the C interface for them (src/core-c/Assembler.cpp 360-753) and of the resets at the end
of an edit (`assembler::OnOptionsEndEdit_`, src/core/Assembler.cpp 259-273).  The templates `GetOption_` and `SetOption_`
are those of `Verif/Model/Options.lean`; here they are applied to the tables as the code does.

Simplified: a `double` is a rational number (so there is no NaN, and `1.e-12` is exact); an `enum` is its value; the
conversions between the C and C++ enums keep it (src/core/Assembler.hpp 48-52, 58-63).  Handles of the C interface are
C105.  `none` is a violated `OVK_DEBUG_ASSERT`.
-/
namespace Ovk.AllOpt
open Opt (Opt allGrids pair)
variable {ν : Type} [DecidableEq ν]

/-- `assembler::options` (src/core/Assembler.hpp 456-470). -/
structure Options where
  /-- `GridIDs_` -/
  ids : List Int := []
  overlappable : OMap (Elem 2) Bool := ⟨[], []⟩
  overlapTolerance : OMap (Elem 2) Rat := ⟨[], []⟩
  overlapAccelDepthAdjust : OMap Int Rat := ⟨[], []⟩
  overlapAccelResolutionAdjust : OMap Int Rat := ⟨[], []⟩
  inferBoundaries : OMap Int Bool := ⟨[], []⟩
  cutBoundaryHoles : OMap (Elem 2) Bool := ⟨[], []⟩
  occludes : OMap (Elem 2) Int := ⟨[], []⟩
  edgePadding : OMap (Elem 2) Int := ⟨[], []⟩
  edgeSmoothing : OMap Int Int := ⟨[], []⟩
  connectionType : OMap (Elem 2) Int := ⟨[], []⟩
  fringeSize : OMap Int Int := ⟨[], []⟩
  minimizeOverlap : OMap (Elem 2) Bool := ⟨[], []⟩
  disjointConnections : OMap (Elem 2) Bool := ⟨[], []⟩

/-- `ovkValidOccludes` (src/core/Assembler.h 21-32). -/
def validOccludes (v : Int) : Bool := v == 0 || v == 1 || v == 2

/-- `ovkValidConnectionType` (src/core/Assembler.h 41-53). -/
def validConnectionType (v : Int) : Bool := v == 0 || v == 1 || v == 2 || v == 3

/-- The assertion about an ID in `SetOption_` (src/core/AssemblerOptions.cpp 503, 529-530). -/
def admits (ids : List Int) (g : Int) : Bool := g == allGrids || OSet.contains intLess ids g

/-- The assertions about an ID in `GetOption_` (src/core/AssemblerOptions.cpp 463-464, 483-486). -/
def knows (ids : List Int) (g : Int) : Bool := decide (0 ≤ g) && OSet.contains intLess ids g

/-- `SetOption_` for a table per grid (src/core/AssemblerOptions.cpp 500-521). -/
def setOption1 (ids : List Int) (t : OMap Int ν) (g : Int) (v dflt : ν) : Option (OMap Int ν) :=
  if admits ids g then some (Opt.set1 dflt ⟨ids, t⟩ g v).map else none

/-- `SetOption_` for a table per pair (src/core/AssemblerOptions.cpp 523-568). -/
def setOption2 (ids : List Int) (t : OMap (Elem 2) ν) (p : Int × Int) (v dflt : ν) : Option (OMap (Elem 2) ν) :=
  if admits ids p.1 && admits ids p.2 then some (Opt.set2 dflt ⟨ids, t⟩ p.1 p.2 v).map else none

omit [DecidableEq ν] in
/-- `GetOption_` for a table per grid (src/core/AssemblerOptions.cpp 460-475). -/
def getOption1 (ids : List Int) (t : OMap Int ν) (g : Int) (dflt : ν) : Option ν :=
  if knows ids g then some (Opt.get intLess dflt ⟨ids, t⟩ g) else none

omit [DecidableEq ν] in
/-- `GetOption_` for a table per pair (src/core/AssemblerOptions.cpp 477-498). -/
def getOption2 (ids : List Int) (t : OMap (Elem 2) ν) (p : Int × Int) (dflt : ν) : Option ν :=
  if knows ids p.1 && knows ids p.2 then some (Opt.get elemLess dflt ⟨ids, t⟩ (pair p.1 p.2)) else none

/-- `MatchesGridToRemove` (src/core/AssemblerOptions.cpp 29-31). -/
def matches1 (gs : List Int) (g : Int) : Bool := OSet.contains intLess gs g

/-- `MatchesGridToRemovePair` (src/core/AssemblerOptions.cpp 33-37). -/
def matches2 (gs : List Int) (e : Elem 2) : Bool :=
  OSet.contains intLess gs (e.1[0]'(by have := e.2; omega)) || OSet.contains intLess gs (e.1[1]'(by have := e.2; omega))

namespace Options

/-- `AddGrids` (src/core/AssemblerOptions.cpp 19-25). -/
def addGrids (s : Options) (gs : List Int) : Options := { s with ids := gs.foldl (OSet.insert intLess) s.ids }

/-- `RemoveGrids` (src/core/AssemblerOptions.cpp 27-55). -/
def removeGrids (s : Options) (gs : List Int) : Options where
  overlappable := s.overlappable.eraseIf fun e => matches2 gs e.1
  overlapTolerance := s.overlapTolerance.eraseIf fun e => matches2 gs e.1
  overlapAccelDepthAdjust := s.overlapAccelDepthAdjust.eraseIf fun e => matches1 gs e.1
  overlapAccelResolutionAdjust := s.overlapAccelResolutionAdjust.eraseIf fun e => matches1 gs e.1
  inferBoundaries := s.inferBoundaries.eraseIf fun e => matches1 gs e.1
  cutBoundaryHoles := s.cutBoundaryHoles.eraseIf fun e => matches2 gs e.1
  occludes := s.occludes.eraseIf fun e => matches2 gs e.1
  edgePadding := s.edgePadding.eraseIf fun e => matches2 gs e.1
  edgeSmoothing := s.edgeSmoothing.eraseIf fun e => matches1 gs e.1
  connectionType := s.connectionType.eraseIf fun e => matches2 gs e.1
  fringeSize := s.fringeSize.eraseIf fun e => matches1 gs e.1
  minimizeOverlap := s.minimizeOverlap.eraseIf fun e => matches2 gs e.1
  disjointConnections := s.disjointConnections.eraseIf fun e => matches2 gs e.1
  ids := OSet.eraseIf (matches1 gs) s.ids

/-- `Overlappable` (src/core/AssemblerOptions.cpp 57-61). -/
def getOverlappable (s : Options) (p : Int × Int) : Option Bool := getOption2 s.ids s.overlappable p false

/-- `SetOverlappable` (src/core/AssemblerOptions.cpp 63-70). -/
def setOverlappable (s : Options) (p : Int × Int) (v : Bool) : Option Options :=
  (setOption2 s.ids s.overlappable p v false).map fun t => { s with overlappable := t }

/-- `ResetOverlappable` (src/core/AssemblerOptions.cpp 72-78). -/
def resetOverlappable (s : Options) (p : Int × Int) : Option Options :=
  (setOption2 s.ids s.overlappable p false false).map fun t => { s with overlappable := t }

/-- `OverlapTolerance` (src/core/AssemblerOptions.cpp 80-84). -/
def getOverlapTolerance (s : Options) (p : Int × Int) : Option Rat := getOption2 s.ids s.overlapTolerance p (1 / 1000000000000)

/-- `SetOverlapTolerance` (src/core/AssemblerOptions.cpp 86-95). -/
def setOverlapTolerance (s : Options) (p : Int × Int) (v : Rat) : Option Options :=
  if 0 ≤ v then (setOption2 s.ids s.overlapTolerance p v (1 / 1000000000000)).map fun t => { s with overlapTolerance := t } else none

/-- `ResetOverlapTolerance` (src/core/AssemblerOptions.cpp 97-103). -/
def resetOverlapTolerance (s : Options) (p : Int × Int) : Option Options :=
  (setOption2 s.ids s.overlapTolerance p (1 / 1000000000000) (1 / 1000000000000)).map fun t => { s with overlapTolerance := t }

/-- `OverlapAccelDepthAdjust` (src/core/AssemblerOptions.cpp 105-109). -/
def getOverlapAccelDepthAdjust (s : Options) (g : Int) : Option Rat := getOption1 s.ids s.overlapAccelDepthAdjust g 0

/-- `SetOverlapAccelDepthAdjust` (src/core/AssemblerOptions.cpp 111-118). -/
def setOverlapAccelDepthAdjust (s : Options) (g : Int) (v : Rat) : Option Options :=
  (setOption1 s.ids s.overlapAccelDepthAdjust g v 0).map fun t => { s with overlapAccelDepthAdjust := t }

/-- `ResetOverlapAccelDepthAdjust` (src/core/AssemblerOptions.cpp 120-126). -/
def resetOverlapAccelDepthAdjust (s : Options) (g : Int) : Option Options :=
  (setOption1 s.ids s.overlapAccelDepthAdjust g 0 0).map fun t => { s with overlapAccelDepthAdjust := t }

/-- `OverlapAccelResolutionAdjust` (src/core/AssemblerOptions.cpp 128-132). -/
def getOverlapAccelResolutionAdjust (s : Options) (g : Int) : Option Rat := getOption1 s.ids s.overlapAccelResolutionAdjust g 0

/-- `SetOverlapAccelResolutionAdjust` (src/core/AssemblerOptions.cpp 134-141). -/
def setOverlapAccelResolutionAdjust (s : Options) (g : Int) (v : Rat) : Option Options :=
  (setOption1 s.ids s.overlapAccelResolutionAdjust g v 0).map fun t => { s with overlapAccelResolutionAdjust := t }

/-- `ResetOverlapAccelResolutionAdjust` (src/core/AssemblerOptions.cpp 143-149). -/
def resetOverlapAccelResolutionAdjust (s : Options) (g : Int) : Option Options :=
  (setOption1 s.ids s.overlapAccelResolutionAdjust g 0 0).map fun t => { s with overlapAccelResolutionAdjust := t }

/-- `InferBoundaries` (src/core/AssemblerOptions.cpp 151-155). -/
def getInferBoundaries (s : Options) (g : Int) : Option Bool := getOption1 s.ids s.inferBoundaries g false

/-- `SetInferBoundaries` (src/core/AssemblerOptions.cpp 157-163). -/
def setInferBoundaries (s : Options) (g : Int) (v : Bool) : Option Options :=
  (setOption1 s.ids s.inferBoundaries g v false).map fun t => { s with inferBoundaries := t }

/-- `ResetInferBoundaries` (src/core/AssemblerOptions.cpp 165-171). -/
def resetInferBoundaries (s : Options) (g : Int) : Option Options :=
  (setOption1 s.ids s.inferBoundaries g false false).map fun t => { s with inferBoundaries := t }

/-- `CutBoundaryHoles` (src/core/AssemblerOptions.cpp 173-177). -/
def getCutBoundaryHoles (s : Options) (p : Int × Int) : Option Bool := getOption2 s.ids s.cutBoundaryHoles p false

/-- `SetCutBoundaryHoles` (src/core/AssemblerOptions.cpp 179-186). -/
def setCutBoundaryHoles (s : Options) (p : Int × Int) (v : Bool) : Option Options :=
  (setOption2 s.ids s.cutBoundaryHoles p v false).map fun t => { s with cutBoundaryHoles := t }

/-- `ResetCutBoundaryHoles` (src/core/AssemblerOptions.cpp 188-194). -/
def resetCutBoundaryHoles (s : Options) (p : Int × Int) : Option Options :=
  (setOption2 s.ids s.cutBoundaryHoles p false false).map fun t => { s with cutBoundaryHoles := t }

/-- `Occludes` (src/core/AssemblerOptions.cpp 196-200). -/
def getOccludes (s : Options) (p : Int × Int) : Option Int := getOption2 s.ids s.occludes p 0

/-- `SetOccludes` (src/core/AssemblerOptions.cpp 202-211). -/
def setOccludes (s : Options) (p : Int × Int) (v : Int) : Option Options :=
  if validOccludes v = true then (setOption2 s.ids s.occludes p v 0).map fun t => { s with occludes := t } else none

/-- `ResetOccludes` (src/core/AssemblerOptions.cpp 213-219). -/
def resetOccludes (s : Options) (p : Int × Int) : Option Options :=
  (setOption2 s.ids s.occludes p 0 0).map fun t => { s with occludes := t }

/-- `EdgePadding` (src/core/AssemblerOptions.cpp 221-225). -/
def getEdgePadding (s : Options) (p : Int × Int) : Option Int := getOption2 s.ids s.edgePadding p 0

/-- `SetEdgePadding` (src/core/AssemblerOptions.cpp 227-236). -/
def setEdgePadding (s : Options) (p : Int × Int) (v : Int) : Option Options :=
  if 0 ≤ v then (setOption2 s.ids s.edgePadding p v 0).map fun t => { s with edgePadding := t } else none

/-- `ResetEdgePadding` (src/core/AssemblerOptions.cpp 238-244). -/
def resetEdgePadding (s : Options) (p : Int × Int) : Option Options :=
  (setOption2 s.ids s.edgePadding p 0 0).map fun t => { s with edgePadding := t }

/-- `EdgeSmoothing` (src/core/AssemblerOptions.cpp 246-250). -/
def getEdgeSmoothing (s : Options) (g : Int) : Option Int := getOption1 s.ids s.edgeSmoothing g 0

/-- `SetEdgeSmoothing` (src/core/AssemblerOptions.cpp 252-260). -/
def setEdgeSmoothing (s : Options) (g : Int) (v : Int) : Option Options :=
  if 0 ≤ v then (setOption1 s.ids s.edgeSmoothing g v 0).map fun t => { s with edgeSmoothing := t } else none

/-- `ResetEdgeSmoothing` (src/core/AssemblerOptions.cpp 262-268). -/
def resetEdgeSmoothing (s : Options) (g : Int) : Option Options :=
  (setOption1 s.ids s.edgeSmoothing g 0 0).map fun t => { s with edgeSmoothing := t }

/-- `ConnectionType` (src/core/AssemblerOptions.cpp 270-274). -/
def getConnectionType (s : Options) (p : Int × Int) : Option Int := getOption2 s.ids s.connectionType p 0

/-- `SetConnectionType` (src/core/AssemblerOptions.cpp 276-285). -/
def setConnectionType (s : Options) (p : Int × Int) (v : Int) : Option Options :=
  if validConnectionType v = true then (setOption2 s.ids s.connectionType p v 0).map fun t => { s with connectionType := t } else none

/-- `ResetConnectionType` (src/core/AssemblerOptions.cpp 287-293). -/
def resetConnectionType (s : Options) (p : Int × Int) : Option Options :=
  (setOption2 s.ids s.connectionType p 0 0).map fun t => { s with connectionType := t }

/-- `FringeSize` (src/core/AssemblerOptions.cpp 295-299). -/
def getFringeSize (s : Options) (g : Int) : Option Int := getOption1 s.ids s.fringeSize g 0

/-- `SetFringeSize` (src/core/AssemblerOptions.cpp 301-309). -/
def setFringeSize (s : Options) (g : Int) (v : Int) : Option Options :=
  if 0 ≤ v then (setOption1 s.ids s.fringeSize g v 0).map fun t => { s with fringeSize := t } else none

/-- `ResetFringeSize` (src/core/AssemblerOptions.cpp 311-317). -/
def resetFringeSize (s : Options) (g : Int) : Option Options :=
  (setOption1 s.ids s.fringeSize g 0 0).map fun t => { s with fringeSize := t }

/-- `MinimizeOverlap` (src/core/AssemblerOptions.cpp 319-323). -/
def getMinimizeOverlap (s : Options) (p : Int × Int) : Option Bool := getOption2 s.ids s.minimizeOverlap p false

/-- `SetMinimizeOverlap` (src/core/AssemblerOptions.cpp 325-332). -/
def setMinimizeOverlap (s : Options) (p : Int × Int) (v : Bool) : Option Options :=
  (setOption2 s.ids s.minimizeOverlap p v false).map fun t => { s with minimizeOverlap := t }

/-- `ResetMinimizeOverlap` (src/core/AssemblerOptions.cpp 334-340). -/
def resetMinimizeOverlap (s : Options) (p : Int × Int) : Option Options :=
  (setOption2 s.ids s.minimizeOverlap p false false).map fun t => { s with minimizeOverlap := t }

/-- `DisjointConnections` (src/core/AssemblerOptions.cpp 342-346). -/
def getDisjointConnections (s : Options) (p : Int × Int) : Option Bool := getOption2 s.ids s.disjointConnections p true

/-- `SetDisjointConnections` (src/core/AssemblerOptions.cpp 348-355). -/
def setDisjointConnections (s : Options) (p : Int × Int) (v : Bool) : Option Options :=
  (setOption2 s.ids s.disjointConnections p v true).map fun t => { s with disjointConnections := t }

/-- `ResetDisjointConnections` (src/core/AssemblerOptions.cpp 357-363). -/
def resetDisjointConnections (s : Options) (p : Int × Int) : Option Options :=
  (setOption2 s.ids s.disjointConnections p true true).map fun t => { s with disjointConnections := t }

/-- `ovkGetAssemblerOptionOverlappable` (src/core-c/Assembler.cpp 360-369). -/
def cGetOverlappable (s : Options) (m n : Int) : Option Bool := s.getOverlappable (m, n)

/-- `ovkSetAssemblerOptionOverlappable` (src/core-c/Assembler.cpp 371-379). -/
def cSetOverlappable (s : Options) (m n : Int) (v : Bool) : Option Options := s.setOverlappable (m, n) v

/-- `ovkResetAssemblerOptionOverlappable` (src/core-c/Assembler.cpp 381-388). -/
def cResetOverlappable (s : Options) (m n : Int) : Option Options := s.resetOverlappable (m, n)

/-- `ovkGetAssemblerOptionOverlapTolerance` (src/core-c/Assembler.cpp 390-399). -/
def cGetOverlapTolerance (s : Options) (m n : Int) : Option Rat := s.getOverlapTolerance (m, n)

/-- `ovkSetAssemblerOptionOverlapTolerance` (src/core-c/Assembler.cpp 401-409). -/
def cSetOverlapTolerance (s : Options) (m n : Int) (v : Rat) : Option Options := s.setOverlapTolerance (m, n) v

/-- `ovkResetAssemblerOptionOverlapTolerance` (src/core-c/Assembler.cpp 411-419). -/
def cResetOverlapTolerance (s : Options) (m n : Int) : Option Options := s.resetOverlapTolerance (m, n)

/-- `ovkGetAssemblerOptionOverlapAccelDepthAdjust` (src/core-c/Assembler.cpp 421-430). -/
def cGetOverlapAccelDepthAdjust (s : Options) (g : Int) : Option Rat := s.getOverlapAccelDepthAdjust g

/-- `ovkSetAssemblerOptionOverlapAccelDepthAdjust` (src/core-c/Assembler.cpp 432-440). -/
def cSetOverlapAccelDepthAdjust (s : Options) (g : Int) (v : Rat) : Option Options := s.setOverlapAccelDepthAdjust g v

/-- `ovkResetAssemblerOptionOverlapAccelDepthAdjust` (src/core-c/Assembler.cpp 442-449). -/
def cResetOverlapAccelDepthAdjust (s : Options) (g : Int) : Option Options := s.resetOverlapAccelDepthAdjust g

/-- `ovkGetAssemblerOptionOverlapAccelResolutionAdjust` (src/core-c/Assembler.cpp 451-460). -/
def cGetOverlapAccelResolutionAdjust (s : Options) (g : Int) : Option Rat := s.getOverlapAccelResolutionAdjust g

/-- `ovkSetAssemblerOptionOverlapAccelResolutionAdjust` (src/core-c/Assembler.cpp 462-470). -/
def cSetOverlapAccelResolutionAdjust (s : Options) (g : Int) (v : Rat) : Option Options := s.setOverlapAccelResolutionAdjust g v

/-- `ovkResetAssemblerOptionOverlapAccelResolutionAdjust` (src/core-c/Assembler.cpp 472-480). -/
def cResetOverlapAccelResolutionAdjust (s : Options) (g : Int) : Option Options := s.resetOverlapAccelResolutionAdjust g

/-- `ovkGetAssemblerOptionInferBoundaries` (src/core-c/Assembler.cpp 482-491). -/
def cGetInferBoundaries (s : Options) (g : Int) : Option Bool := s.getInferBoundaries g

/-- `ovkSetAssemblerOptionInferBoundaries` (src/core-c/Assembler.cpp 493-501). -/
def cSetInferBoundaries (s : Options) (g : Int) (v : Bool) : Option Options := s.setInferBoundaries g v

/-- `ovkResetAssemblerOptionInferBoundaries` (src/core-c/Assembler.cpp 503-510). -/
def cResetInferBoundaries (s : Options) (g : Int) : Option Options := s.resetInferBoundaries g

/-- `ovkGetAssemblerOptionCutBoundaryHoles` (src/core-c/Assembler.cpp 512-521). -/
def cGetCutBoundaryHoles (s : Options) (m n : Int) : Option Bool := s.getCutBoundaryHoles (m, n)

/-- `ovkSetAssemblerOptionCutBoundaryHoles` (src/core-c/Assembler.cpp 523-531). -/
def cSetCutBoundaryHoles (s : Options) (m n : Int) (v : Bool) : Option Options := s.setCutBoundaryHoles (m, n) v

/-- `ovkResetAssemblerOptionCutBoundaryHoles` (src/core-c/Assembler.cpp 533-541). -/
def cResetCutBoundaryHoles (s : Options) (m n : Int) : Option Options := s.resetCutBoundaryHoles (m, n)

/-- `ovkGetAssemblerOptionOccludes` (src/core-c/Assembler.cpp 543-552). -/
def cGetOccludes (s : Options) (m n : Int) : Option Int := s.getOccludes (m, n)

/-- `ovkSetAssemblerOptionOccludes` (src/core-c/Assembler.cpp 554-562). -/
def cSetOccludes (s : Options) (m n : Int) (v : Int) : Option Options := s.setOccludes (m, n) v

/-- `ovkResetAssemblerOptionOccludes` (src/core-c/Assembler.cpp 564-571). -/
def cResetOccludes (s : Options) (m n : Int) : Option Options := s.resetOccludes (m, n)

/-- `ovkGetAssemblerOptionEdgePadding` (src/core-c/Assembler.cpp 573-582). -/
def cGetEdgePadding (s : Options) (m n : Int) : Option Int := s.getEdgePadding (m, n)

/-- `ovkSetAssemblerOptionEdgePadding` (src/core-c/Assembler.cpp 584-592). -/
def cSetEdgePadding (s : Options) (m n : Int) (v : Int) : Option Options := s.setEdgePadding (m, n) v

/-- `ovkResetAssemblerOptionEdgePadding` (src/core-c/Assembler.cpp 594-601). -/
def cResetEdgePadding (s : Options) (m n : Int) : Option Options := s.resetEdgePadding (m, n)

/-- `ovkGetAssemblerOptionEdgeSmoothing` (src/core-c/Assembler.cpp 603-612). -/
def cGetEdgeSmoothing (s : Options) (g : Int) : Option Int := s.getEdgeSmoothing g

/-- `ovkSetAssemblerOptionEdgeSmoothing` (src/core-c/Assembler.cpp 614-622). -/
def cSetEdgeSmoothing (s : Options) (g : Int) (v : Int) : Option Options := s.setEdgeSmoothing g v

/-- `ovkResetAssemblerOptionEdgeSmoothing` (src/core-c/Assembler.cpp 624-631). -/
def cResetEdgeSmoothing (s : Options) (g : Int) : Option Options := s.resetEdgeSmoothing g

/-- `ovkGetAssemblerOptionConnectionType` (src/core-c/Assembler.cpp 633-642). -/
def cGetConnectionType (s : Options) (m n : Int) : Option Int := s.getConnectionType (m, n)

/-- `ovkSetAssemblerOptionConnectionType` (src/core-c/Assembler.cpp 644-652). -/
def cSetConnectionType (s : Options) (m n : Int) (v : Int) : Option Options := s.setConnectionType (m, n) v

/-- `ovkResetAssemblerOptionConnectionType` (src/core-c/Assembler.cpp 654-662). -/
def cResetConnectionType (s : Options) (m n : Int) : Option Options := s.resetConnectionType (m, n)

/-- `ovkGetAssemblerOptionFringeSize` (src/core-c/Assembler.cpp 664-673). -/
def cGetFringeSize (s : Options) (g : Int) : Option Int := s.getFringeSize g

/-- `ovkSetAssemblerOptionFringeSize` (src/core-c/Assembler.cpp 675-682). -/
def cSetFringeSize (s : Options) (g : Int) (v : Int) : Option Options := s.setFringeSize g v

/-- `ovkResetAssemblerOptionFringeSize` (src/core-c/Assembler.cpp 684-691). -/
def cResetFringeSize (s : Options) (g : Int) : Option Options := s.resetFringeSize g

/-- `ovkGetAssemblerOptionMinimizeOverlap` (src/core-c/Assembler.cpp 693-702). -/
def cGetMinimizeOverlap (s : Options) (m n : Int) : Option Bool := s.getMinimizeOverlap (m, n)

/-- `ovkSetAssemblerOptionMinimizeOverlap` (src/core-c/Assembler.cpp 704-712). -/
def cSetMinimizeOverlap (s : Options) (m n : Int) (v : Bool) : Option Options := s.setMinimizeOverlap (m, n) v

/-- `ovkResetAssemblerOptionMinimizeOverlap` (src/core-c/Assembler.cpp 714-722). -/
def cResetMinimizeOverlap (s : Options) (m n : Int) : Option Options := s.resetMinimizeOverlap (m, n)

/-- `ovkGetAssemblerOptionDisjointConnections` (src/core-c/Assembler.cpp 724-733). -/
def cGetDisjointConnections (s : Options) (m n : Int) : Option Bool := s.getDisjointConnections (m, n)

/-- `ovkSetAssemblerOptionDisjointConnections` (src/core-c/Assembler.cpp 735-743). -/
def cSetDisjointConnections (s : Options) (m n : Int) (v : Bool) : Option Options := s.setDisjointConnections (m, n) v

/-- `ovkResetAssemblerOptionDisjointConnections` (src/core-c/Assembler.cpp 745-753). -/
def cResetDisjointConnections (s : Options) (m n : Int) : Option Options := s.resetDisjointConnections (m, n)

/-- The resets for one grid at the end of an edit (src/core/Assembler.cpp 264-273). -/
def resetSelf (s : Options) (g : Int) : Option Options := do
  let s ← s.resetOverlappable (g, g)
  let s ← s.resetOverlapTolerance (g, g)
  let s ← s.resetCutBoundaryHoles (g, g)
  let s ← s.resetOccludes (g, g)
  let s ← s.resetEdgePadding (g, g)
  let s ← s.resetConnectionType (g, g)
  let s ← s.resetMinimizeOverlap (g, g)
  return s

/-- The resets at the end of an edit (src/core/Assembler.cpp 263-273); `gs` are the grids of the domain. -/
def endEdit (s : Options) (gs : List Int) : Option Options := gs.foldlM resetSelf s

end Options

/-- Functions that change options: those of the C++ interface, those of the C interface, and those the assembler
calls itself. -/
inductive Call
  | addGrids (gs : List Int)
  | removeGrids (gs : List Int)
  | endEdit (gs : List Int)
  | setOverlappable (m n : Int) (v : Bool)
  | resetOverlappable (m n : Int)
  | setOverlapTolerance (m n : Int) (v : Rat)
  | resetOverlapTolerance (m n : Int)
  | setOverlapAccelDepthAdjust (g : Int) (v : Rat)
  | resetOverlapAccelDepthAdjust (g : Int)
  | setOverlapAccelResolutionAdjust (g : Int) (v : Rat)
  | resetOverlapAccelResolutionAdjust (g : Int)
  | setInferBoundaries (g : Int) (v : Bool)
  | resetInferBoundaries (g : Int)
  | setCutBoundaryHoles (m n : Int) (v : Bool)
  | resetCutBoundaryHoles (m n : Int)
  | setOccludes (m n : Int) (v : Int)
  | resetOccludes (m n : Int)
  | setEdgePadding (m n : Int) (v : Int)
  | resetEdgePadding (m n : Int)
  | setEdgeSmoothing (g : Int) (v : Int)
  | resetEdgeSmoothing (g : Int)
  | setConnectionType (m n : Int) (v : Int)
  | resetConnectionType (m n : Int)
  | setFringeSize (g : Int) (v : Int)
  | resetFringeSize (g : Int)
  | setMinimizeOverlap (m n : Int) (v : Bool)
  | resetMinimizeOverlap (m n : Int)
  | setDisjointConnections (m n : Int) (v : Bool)
  | resetDisjointConnections (m n : Int)
  | cSetOverlappable (m n : Int) (v : Bool)
  | cResetOverlappable (m n : Int)
  | cSetOverlapTolerance (m n : Int) (v : Rat)
  | cResetOverlapTolerance (m n : Int)
  | cSetOverlapAccelDepthAdjust (g : Int) (v : Rat)
  | cResetOverlapAccelDepthAdjust (g : Int)
  | cSetOverlapAccelResolutionAdjust (g : Int) (v : Rat)
  | cResetOverlapAccelResolutionAdjust (g : Int)
  | cSetInferBoundaries (g : Int) (v : Bool)
  | cResetInferBoundaries (g : Int)
  | cSetCutBoundaryHoles (m n : Int) (v : Bool)
  | cResetCutBoundaryHoles (m n : Int)
  | cSetOccludes (m n : Int) (v : Int)
  | cResetOccludes (m n : Int)
  | cSetEdgePadding (m n : Int) (v : Int)
  | cResetEdgePadding (m n : Int)
  | cSetEdgeSmoothing (g : Int) (v : Int)
  | cResetEdgeSmoothing (g : Int)
  | cSetConnectionType (m n : Int) (v : Int)
  | cResetConnectionType (m n : Int)
  | cSetFringeSize (g : Int) (v : Int)
  | cResetFringeSize (g : Int)
  | cSetMinimizeOverlap (m n : Int) (v : Bool)
  | cResetMinimizeOverlap (m n : Int)
  | cSetDisjointConnections (m n : Int) (v : Bool)
  | cResetDisjointConnections (m n : Int)

/-- Effect of a call.  The arguments of `AddGrids` and `RemoveGrids` are sets (increasing lists) of IDs, which are not
negative. -/
def step (s : Options) : Call → Option Options
  | .addGrids gs => if gs.Pairwise (· < ·) ∧ ∀ g ∈ gs, 0 ≤ g then some (s.addGrids gs) else none
  | .removeGrids gs => if gs.Pairwise (· < ·) then some (s.removeGrids gs) else none
  | .endEdit gs => s.endEdit gs
  | .setOverlappable m n v => s.setOverlappable (m, n) v
  | .resetOverlappable m n => s.resetOverlappable (m, n)
  | .setOverlapTolerance m n v => s.setOverlapTolerance (m, n) v
  | .resetOverlapTolerance m n => s.resetOverlapTolerance (m, n)
  | .setOverlapAccelDepthAdjust g v => s.setOverlapAccelDepthAdjust g v
  | .resetOverlapAccelDepthAdjust g => s.resetOverlapAccelDepthAdjust g
  | .setOverlapAccelResolutionAdjust g v => s.setOverlapAccelResolutionAdjust g v
  | .resetOverlapAccelResolutionAdjust g => s.resetOverlapAccelResolutionAdjust g
  | .setInferBoundaries g v => s.setInferBoundaries g v
  | .resetInferBoundaries g => s.resetInferBoundaries g
  | .setCutBoundaryHoles m n v => s.setCutBoundaryHoles (m, n) v
  | .resetCutBoundaryHoles m n => s.resetCutBoundaryHoles (m, n)
  | .setOccludes m n v => s.setOccludes (m, n) v
  | .resetOccludes m n => s.resetOccludes (m, n)
  | .setEdgePadding m n v => s.setEdgePadding (m, n) v
  | .resetEdgePadding m n => s.resetEdgePadding (m, n)
  | .setEdgeSmoothing g v => s.setEdgeSmoothing g v
  | .resetEdgeSmoothing g => s.resetEdgeSmoothing g
  | .setConnectionType m n v => s.setConnectionType (m, n) v
  | .resetConnectionType m n => s.resetConnectionType (m, n)
  | .setFringeSize g v => s.setFringeSize g v
  | .resetFringeSize g => s.resetFringeSize g
  | .setMinimizeOverlap m n v => s.setMinimizeOverlap (m, n) v
  | .resetMinimizeOverlap m n => s.resetMinimizeOverlap (m, n)
  | .setDisjointConnections m n v => s.setDisjointConnections (m, n) v
  | .resetDisjointConnections m n => s.resetDisjointConnections (m, n)
  | .cSetOverlappable m n v => s.cSetOverlappable m n v
  | .cResetOverlappable m n => s.cResetOverlappable m n
  | .cSetOverlapTolerance m n v => s.cSetOverlapTolerance m n v
  | .cResetOverlapTolerance m n => s.cResetOverlapTolerance m n
  | .cSetOverlapAccelDepthAdjust g v => s.cSetOverlapAccelDepthAdjust g v
  | .cResetOverlapAccelDepthAdjust g => s.cResetOverlapAccelDepthAdjust g
  | .cSetOverlapAccelResolutionAdjust g v => s.cSetOverlapAccelResolutionAdjust g v
  | .cResetOverlapAccelResolutionAdjust g => s.cResetOverlapAccelResolutionAdjust g
  | .cSetInferBoundaries g v => s.cSetInferBoundaries g v
  | .cResetInferBoundaries g => s.cResetInferBoundaries g
  | .cSetCutBoundaryHoles m n v => s.cSetCutBoundaryHoles m n v
  | .cResetCutBoundaryHoles m n => s.cResetCutBoundaryHoles m n
  | .cSetOccludes m n v => s.cSetOccludes m n v
  | .cResetOccludes m n => s.cResetOccludes m n
  | .cSetEdgePadding m n v => s.cSetEdgePadding m n v
  | .cResetEdgePadding m n => s.cResetEdgePadding m n
  | .cSetEdgeSmoothing g v => s.cSetEdgeSmoothing g v
  | .cResetEdgeSmoothing g => s.cResetEdgeSmoothing g
  | .cSetConnectionType m n v => s.cSetConnectionType m n v
  | .cResetConnectionType m n => s.cResetConnectionType m n
  | .cSetFringeSize g v => s.cSetFringeSize g v
  | .cResetFringeSize g => s.cResetFringeSize g
  | .cSetMinimizeOverlap m n v => s.cSetMinimizeOverlap m n v
  | .cResetMinimizeOverlap m n => s.cResetMinimizeOverlap m n
  | .cSetDisjointConnections m n v => s.cSetDisjointConnections m n v
  | .cResetDisjointConnections m n => s.cResetDisjointConnections m n

/-- Options after a sequence of calls, starting with new options. -/
def run (calls : List Call) : Option Options := calls.foldlM step {}

end Ovk.AllOpt
