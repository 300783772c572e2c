import Verif.Spec.Mesh

/-!
# What merging the cells of a mesh is
-/

namespace RSVS.Spec

/-- `φ` maps each cell to a cell that is mapped to itself, and the outside to the outside. -/
structure Merging (cell : Int → Prop) (φ : Int → Int) : Prop where
  image : ∀ c, cell c → cell (φ c)
  idem : ∀ c, cell c → φ (φ c) = φ c
  zero : φ 0 = 0

/-- `r` is the mesh `m` in space with its volumes merged by `φ`, when no surface is inside a merged
volume: a volume of `r` is an image, its surfaces are those of the volumes with this image. -/
structure SolidMerged (m r : Mesh) (φ : Int → Int) : Prop where
  verts : ∀ i, HasVert r i ↔ HasVert m i
  edges : ∀ i, HasEdge r i ↔ HasEdge m i
  surfs : ∀ i, HasSurf r i ↔ HasSurf m i
  volus : ∀ c, HasVolu r c ↔ ∃ c0, HasVolu m c0 ∧ φ c0 = c
  vertEdge : ∀ v e, VertEdge r v e ↔ VertEdge m v e
  edgeVert : ∀ e v, EdgeVert r e v ↔ EdgeVert m e v
  edgeSurf : ∀ e s, EdgeSurf r e s ↔ EdgeSurf m e s
  surfEdge : ∀ s e, SurfEdge r s e ↔ SurfEdge m s e
  surfVolu : ∀ s c, SurfVolu r s c ↔ ∃ c0, SurfVolu m s c0 ∧ φ c0 = c
  voluSurf : ∀ c s, VoluSurf r c s ↔ ∃ c0, VoluSurf m c0 s ∧ φ c0 = c

/-- An edge is on the border of a merged surface: it lies between different images.  The edges at the border
of the mesh list the outside, 0, as their second surface; an edge with one surface lies between nothing. -/
def Between (m : Mesh) (φ : Int → Int) (e : Int) : Prop :=
  ∃ s s', EdgeSurf m e s ∧ EdgeSurf m e s' ∧ φ s ≠ φ s'

/-- `r` is the mesh `m` in the plane with its surfaces merged by `φ`: the edges inside merged surfaces are
gone, and with them the vertices that are on no other edge. -/
structure PlaneMerged (m r : Mesh) (φ : Int → Int) : Prop where
  surfs : ∀ c, HasSurf r c ↔ ∃ c0, HasSurf m c0 ∧ φ c0 = c
  edges : ∀ e, HasEdge r e ↔ HasEdge m e ∧ Between m φ e
  verts : ∀ v, HasVert r v ↔ HasVert m v ∧ ∃ e, VertEdge m v e ∧ Between m φ e
  vertEdge : ∀ v e, VertEdge r v e ↔ VertEdge m v e ∧ Between m φ e
  edgeVert : ∀ e v, EdgeVert r e v ↔ EdgeVert m e v ∧ Between m φ e
  edgeSurf : ∀ e c, EdgeSurf r e c ↔ Between m φ e ∧ ∃ c0, EdgeSurf m e c0 ∧ φ c0 = c
  surfEdge : ∀ c e, SurfEdge r c e ↔ Between m φ e ∧ ∃ c0, SurfEdge m c0 e ∧ φ c0 = c
  surfVolu : ∀ c d, SurfVolu r c d ↔ HasSurf r c ∧ SurfVolu m c d

/-- Each vertex has an edge and each edge a surface. -/
def NoneLoose (m : Mesh) : Prop := (∀ v ∈ m.verts, v.edgeind ≠ []) ∧ ∀ e ∈ m.edges, e.surfind ≠ []

end RSVS.Spec
