import Verif.Model.TetMesh
import Verif.Spec.Mesh

/-!
# What the mesh of a tetrahedral mesher has to hold
-/

namespace RSVS.Spec

open RSVS.TetMesh

/-- The numbers in `l` are of one of `n` elements, counted from `first`. -/
def InRange (first : Int) (n : Nat) (l : List Int) (count : Nat) : Prop :=
  count ≤ l.length ∧ ∀ k < count, first ≤ l.getD k 0 ∧ l.getD k 0 < first + n

/-- The output of the mesher is complete and its numbers are in range. -/
structure TetValid (t : TetOut) (l : List Int) : Prop where
  first : t.firstnumber = 0 ∨ t.firstnumber = 1
  faces : t.tet2facelist = some l
  points : t.numberofpoints * 3 ≤ t.pointlist.length
  edges : InRange t.firstnumber t.numberofpoints t.edgelist (t.numberofedges * 2)
  tris : InRange t.firstnumber t.numberofedges t.face2edgelist (t.numberoftrifaces * 3)
  tets : InRange t.firstnumber t.numberoftrifaces l (t.numberoftetrahedra * 4)

/-- The number of times that the face with the index `s` is in the list of a tetrahedron. -/
def timesUsed (t : TetOut) (l : List Int) (s : Int) : Nat :=
  (List.range (t.numberoftetrahedra * 4)).countP fun k => l.getD k 0 - t.firstnumber + 1 = s

/-- The mesh `m` has the elements of the output of the mesher, numbered from 1, and their connections. -/
structure FromTets (t : TetOut) (l : List Int) (m : Mesh) : Prop where
  verts : ∀ i c, (∃ v ∈ m.verts, v.index = i ∧ v.coord = c) ↔
    ∃ k < t.numberofpoints, i = k + 1 ∧ c = [t.pointlist.getD (3 * k) 0, t.pointlist.getD (3 * k + 1) 0, t.pointlist.getD (3 * k + 2) 0]
  edges : ∀ i c, (∃ e ∈ m.edges, e.index = i ∧ e.vertind = c) ↔ ∃ k < t.numberofedges, i = k + 1 ∧
    c = [t.edgelist.getD (2 * k) 0 - t.firstnumber + 1, t.edgelist.getD (2 * k + 1) 0 - t.firstnumber + 1]
  surfs : ∀ i, HasSurf m i ↔ ∃ k < t.numberoftrifaces, i = k + 1
  volus : ∀ i, HasVolu m i ↔ ∃ k < t.numberoftetrahedra, i = k + 1
  surfEdge : ∀ s e, SurfEdge m s e ↔ ∃ k < t.numberoftrifaces, s = k + 1 ∧ ∃ j < 3, e = t.face2edgelist.getD (3 * k + j) 0 - t.firstnumber + 1
  voluSurf : ∀ c s, VoluSurf m c s ↔ ∃ k < t.numberoftetrahedra, c = k + 1 ∧ ∃ j < 4, s = l.getD (4 * k + j) 0 - t.firstnumber + 1
  outside : ∀ s, SurfVolu m s 0 ↔ HasSurf m s ∧ timesUsed t l s = 1
  noTwice : (∀ v ∈ m.verts, v.edgeind.Nodup) ∧ (∀ e ∈ m.edges, e.surfind.Nodup) ∧ (∀ s ∈ m.surfs, s.edgeind.Nodup ∧ s.voluind.Nodup) ∧
    ∀ c ∈ m.volus, c.surfind.Nodup

end RSVS.Spec
