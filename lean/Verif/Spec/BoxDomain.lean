import Verif.Spec.Mesh

/-!
# Nested boxes
-/

namespace RSVS.Spec

open RSVS.Mesh

/-- The vertices `8 k` to `8 k + 7` of the mesh are the corners of the box from `lb` to `ub`: the bits of the number of a corner say
in which directions it is on the upper side. -/
def BoxCorners (m : Mesh) (k : Nat) (lb ub : Fin 3 → ℚ) : Prop :=
  ∀ j : Nat, j < 8 → ∃ v, m.verts[8 * k + j]? = some v ∧
    v.coord = [if j.testBit 0 then ub 0 else lb 0, if j.testBit 1 then ub 1 else lb 1, if j.testBit 2 then ub 2 else lb 2]

/-- The block `k` of the mesh `m` is the mesh `c` with indices larger by `a`, `b`, `d` and `e`; 0 stays 0. -/
structure CopyAt (c m : Mesh) (k : Nat) (a b d e : Int) : Prop where
  vert : ∀ (j : Nat) x, c.verts[j]? = some x → ∃ y, m.verts[c.verts.length * k + j]? = some y ∧ y.index = x.index + a ∧
    y.edgeind = x.edgeind.map (· + b)
  edge : ∀ (j : Nat) x, c.edges[j]? = some x → ∃ y, m.edges[c.edges.length * k + j]? = some y ∧ y.index = x.index + b ∧
    y.vertind = x.vertind.map (· + a) ∧ y.surfind = x.surfind.map fun s => if s = 0 then 0 else s + d
  surf : ∀ (j : Nat) x, c.surfs[j]? = some x → ∃ y, m.surfs[c.surfs.length * k + j]? = some y ∧ y.index = x.index + d ∧
    y.edgeind = x.edgeind.map (· + b) ∧ y.voluind = x.voluind.map fun s => if s = 0 then 0 else s + e
  volu : ∀ (j : Nat) x, c.volus[j]? = some x → ∃ y, m.volus[c.volus.length * k + j]? = some y ∧ y.index = x.index + e ∧
    y.surfind = x.surfind.map (· + d)

end RSVS.Spec
