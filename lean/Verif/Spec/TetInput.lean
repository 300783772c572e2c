import Mathlib.Data.Fin.VecNotation
import Verif.Model.TetInput
import Verif.Spec.Mesh

/-!
# What the tetrahedral mesher has to be given
-/

namespace RSVS.Spec

open RSVS.Mesh RSVS.Tet

variable {K : Type}

/-- The arrays `io` hold the mesh `m` with coordinates `co`: the vertex at place `p` is the point `po + p` with mark `mark`, and the
surface at place `p` is the facet `fo + p` with mark `fmark`, whose corners are points with the coordinates of the vertices `ring f`
in this order. -/
structure TetHolds (m : Mesh) (co : Int → Fin 3 → K) (ring : Surf → List Int) (po fo : Nat) (mark fmark : Int) (io : Io K) : Prop where
  point : ∀ (p : Nat) v, m.verts[p]? = some v → io.points[po + p]? = some (some (co v.index))
  pointMark : ∀ p : Nat, p < m.verts.length → io.marks[po + p]? = some (some mark)
  facetMark : ∀ p : Nat, p < m.surfs.length → io.facetMarks[fo + p]? = some (some fmark)
  facet : ∀ (p : Nat) f, m.surfs[p]? = some f → ∃ poly, io.facets[fo + p]? = some (some poly) ∧
    List.Forall₂ (fun i v => 0 ≤ i ∧ io.points[i.toNat]? = some (some (co v))) poly (ring f)

/-- All arrays have an entry for each point or facet and nothing else. -/
structure TetSized (nP nF : Nat) (io : Io K) : Prop where
  points : io.points.length = nP
  mtrs : io.mtrs.length = nP
  marks : io.marks.length = nP
  facets : io.facets.length = nF
  facetMarks : io.facetMarks.length = nF

/-- The point `p` has the metric `x`. -/
def HasMetric (io : Io K) (p : Nat) (x : K) : Prop := io.mtrs[p]? = some (some x)

end RSVS.Spec
