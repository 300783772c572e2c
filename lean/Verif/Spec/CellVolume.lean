import Verif.Model.CellVolume

/-!
# Specification of the volumes of cells
-/

namespace RSVS.Spec

open RSVS.CellVolume

/-- The volume inside the surfaces of cell `c`: those of which it is the second cell count, those of which it is the first count with the other sign. -/
def enclosed (facets : List Facet) (c : Int) : ℚ :=
  (facets.map fun f => (if f.voluind[1]? = some c then f.tris.sum else 0) - (if f.voluind[0]? = some c then f.tris.sum else 0)).sum

end RSVS.Spec
