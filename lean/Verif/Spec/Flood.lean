import Mathlib.Logic.Relation
import Verif.Spec.Mesh
import Verif.Model.Flood

/-!
# Specification of the flood fills: paths in a mesh
-/

namespace RSVS.Spec

/-- Vertices `a` and `b` are joined by a path of edges in `Via` which stays in `In`. -/
def VertJoined (m : Mesh) (Via In : Int → Prop) : Int → Int → Prop :=
  Relation.ReflTransGen
    (fun a b => In a ∧ In b ∧ ∃ e, Via e ∧ EdgeVert m e a ∧ EdgeVert m e b)

/-- Volumes `a` and `b` are joined by a path through surfaces in `Via` which stays in `In`. -/
def VoluJoined (m : Mesh) (Via In : Int → Prop) : Int → Int → Prop :=
  Relation.ReflTransGen
    (fun a b => In a ∧ In b ∧ a ≠ 0 ∧ b ≠ 0 ∧ ∃ s, Via s ∧ SurfVolu m s a ∧ SurfVolu m s b)

/-- Every surface has two volumes. -/
def TwoVolus (m : Mesh) : Prop := ∀ x ∈ m.surfs, x.voluind.length = 2

/-- Surface `s` is not marked as boundary; the marks are listed in the order of the surfaces. -/
def OpenFace (m : Mesh) (bound : List Bool) (s : Int) : Prop :=
  ∃ (k : Nat) (x : Surf), m.surfs[k]? = some x ∧ x.index = s ∧ bound[k]? ≠ some true

/-- The vertex has no label from before; labels are listed in the order of the vertices. -/
def FreeVert (m : Mesh) (block : List Int) (v : Int) : Prop :=
  ∃ (k : Nat) (x : Vert), m.verts[k]? = some x ∧ x.index = v ∧ (block[k]? = none ∨ block[k]? = some 0)

/-- The volume has no label from before. -/
def FreeVolu (m : Mesh) (block : List Int) (c : Int) : Prop :=
  ∃ (k : Nat) (x : Volu), m.volus[k]? = some x ∧ x.index = c ∧ (block[k]? = none ∨ block[k]? = some 0)

/-- `l` is the label of the vertex with index `v`. -/
def VertLabel (m : Mesh) (labels : List Int) (v l : Int) : Prop :=
  ∃ (k : Nat) (x : Vert), m.verts[k]? = some x ∧ x.index = v ∧ labels[k]? = some l

/-- `l` is the label of the volume with index `c`. -/
def VoluLabel (m : Mesh) (labels : List Int) (c l : Int) : Prop :=
  ∃ (k : Nat) (x : Volu), m.volus[k]? = some x ∧ x.index = c ∧ labels[k]? = some l

/-- No snaxel is on the edge. -/
def NoSnaxel (snaxs : List FloodSnax) (e : Int) : Prop := ∀ x ∈ snaxs, x.edgeind ≠ e

/-- Every snaxel starts from a vertex which lists the edge of the snaxel. -/
def SnaxelsOnMesh (m : Mesh) (snaxs : List FloodSnax) : Prop :=
  ∀ x ∈ snaxs, VertEdge m x.fromvert x.edgeind

end RSVS.Spec
