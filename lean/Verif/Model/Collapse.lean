import Verif.Model.Close

/-!
# The collapse of the short edges of a mesh

The steps of the conversion of a Voronoi diagram after it is closed (SRCC/src/interfaces/tetgenrsvs.cpp:828-835).
-/

namespace RSVS.Mesh

/-- Groups of close vertices are merged, degenerate elements are removed, and the lists are tightened (tetgenrsvs.cpp:828-835).  The order of the
hash table of `groupedVertices` is given by `all`.  Simplification: `HashArray` and `PrepareForUse`, which prepare the containers and set borders, are left out. -/
def collapseShort (m : Mesh) (tol : ℚ) (all : List Int → Int → List Nat) : Res Mesh := do
  let lab ← groupCloseVertices m tol
  let (m', out) ← mergeGrouped m lab (all lab) false
  let r ← m'.removeSingular (sortUnique out) true
  r.tighten

end RSVS.Mesh
