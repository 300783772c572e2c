import Verif.Spec.Border

/-!
# Specification of block grids

Only the data of the mesh is mentioned, none of the functions of the model.
-/

namespace RSVS.Spec

/-- The indices are 1 to `n` in order. -/
def OneTo (l : List Int) (n : Nat) : Prop := l = (List.range n).map (fun i : Nat => (i : Int) + 1)

/-- Every cell lists six distinct faces, every face four distinct edges and every edge two distinct
vertices. -/
structure HexCounts (m : Mesh) : Prop where
  volus : ∀ x ∈ m.volus, x.surfind.length = 6 ∧ x.surfind.Nodup
  surfs : ∀ x ∈ m.surfs, x.edgeind.length = 4 ∧ x.edgeind.Nodup
  edges : ∀ x ∈ m.edges, x.vertind.length = 2 ∧ x.vertind.Nodup

/-- All vertices picked by `sel` have a `j`-th coordinate satisfying `ok`, and there is one. -/
def AllCoord (m : Mesh) (sel : Int → Prop) (j : Nat) (ok : ℚ → Prop) : Prop :=
  (∃ v, HasVert m v ∧ sel v) ∧ ∀ x ∈ m.verts, sel x.index → ∃ c, x.coord[j]? = some c ∧ ok c

end RSVS.Spec
