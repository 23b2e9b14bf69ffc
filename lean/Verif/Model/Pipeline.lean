import Verif.Model.Assembly
import Verif.Model.Fill

/-!
# From the choice of donors to filling

`GenerateConnectivityData_` (src/core/AssemblerAssembly.cpp 4254-5240) is modelled in two parts: `Problem.generate_`
chooses the donors, `Ovl.fill` fills the connectivities.  Here the first is connected with the second.
-/
namespace Ovk.Asm

/-- What the loops that fill the connectivities read: `Options_.ConnectionType` (4652, 4813), `ReceiverMasks`
(4289-4306) and `DonorGridIDsForLocalGrid` (4462-4598), which are fields over the points of a grid. -/
def handOver (P : Problem (d + 2) N) (type : Fin N → Fin N → Ovl.ConnType) (c : Problem.Conn (d + 2) N) :
    Ovl.Choice d where
  type m k := if h : m < N ∧ k < N then type ⟨m, h.1⟩ ⟨k, h.2⟩ else .none
  receiver k p := if h : k < N then (P.grid ⟨k, h⟩).cart.range.contains p && c.receiver ⟨k, h⟩ p else false
  donor k p := if h : k < N then
      if (P.grid ⟨k, h⟩).cart.range.contains p then (c.donor ⟨k, h⟩ p).map Fin.val else none
    else none

end Ovk.Asm
