import Verif.Spec.Flood
import Verif.Spec.Container

/-!
# Specification of the removal of parts of a snake
-/

namespace RSVS.Spec

/-- A vertex of an edge of a surface whose parent is among the cells. -/
def InVolus (m : Mesh) (surfs : List (Int × Int)) (cells : List Int) (w : Int) : Prop :=
  ∃ p ∈ surfs, p.2 ∈ cells ∧ ∃ e, SurfEdge m p.1 e ∧ EdgeVert m e w

/-- A vertex of an edge whose parent is among the cells. -/
def InSurfs (m : Mesh) (edges : List (Int × Int)) (cells : List Int) (w : Int) : Prop :=
  ∃ p ∈ edges, p.2 ∈ cells ∧ EdgeVert m p.1 w

/-- The part of the mesh around `v` has a vertex in `T`. -/
def PartMeets (m : Mesh) (T : Int → Prop) (v : Int) : Prop :=
  ∃ w, T w ∧ VertJoined m (fun _ => True) (HasVert m) w v

/-- What is to go: the parts which meet `T` for a positive border, otherwise those which do not. -/
def ToGo (m : Mesh) (border : Int) (T : Int → Prop) (v : Int) : Prop :=
  (0 < border ∧ PartMeets m T v) ∨ (border ≤ 0 ∧ ¬ PartMeets m T v)

/-- The containers beside the mesh list the elements of the mesh in the same order. -/
structure Beside (m : Mesh) (snaxs : List Int) (edges surfs : List (Int × Int)) : Prop where
  snaxs : snaxs = m.verts.map Vert.index
  edges : edges.map Prod.fst = m.edges.map Edge.index
  surfs : surfs.map Prod.fst = m.surfs.map Surf.index

/-- `r` is `m` without the vertices in `Gone` and without the edges and surfaces on them; what stays
keeps its incidence and its place.  The volumes all stay. -/
structure PartsLeft (m r : Mesh) (Gone : Int → Prop) : Prop where
  verts : ∀ v, HasVert r v ↔ HasVert m v ∧ ¬ Gone v
  edges : ∀ e, HasEdge r e ↔ HasEdge m e ∧ ∀ v, EdgeVert m e v → ¬ Gone v
  surfs : ∀ s, HasSurf r s ↔ HasSurf m s ∧ ∀ e v, SurfEdge m s e → EdgeVert m e v → ¬ Gone v
  volus : ∀ c, HasVolu r c ↔ HasVolu m c
  vertEdge : ∀ v e, VertEdge r v e ↔ VertEdge m v e ∧ HasVert r v
  edgeVert : ∀ e v, EdgeVert r e v ↔ EdgeVert m e v ∧ HasEdge r e
  edgeSurf : ∀ e s, EdgeSurf r e s ↔ EdgeSurf m e s ∧ HasEdge r e ∧ HasSurf r s
  surfEdge : ∀ s e, SurfEdge r s e ↔ SurfEdge m s e ∧ HasSurf r s
  surfVolu : ∀ s c, SurfVolu r s c ↔ SurfVolu m s c ∧ HasSurf r s
  voluSurf : ∀ c s, VoluSurf r c s ↔ VoluSurf m c s ∧ HasSurf r s
  coords : ∀ x ∈ r.verts, ∃ y ∈ m.verts, y.index = x.index ∧ y.coord = x.coord

/-- The same with the surfaces left as they are but for the edges which go. -/
structure PartsLeftFlat (m r : Mesh) (Gone : Int → Prop) : Prop where
  verts : ∀ v, HasVert r v ↔ HasVert m v ∧ ¬ Gone v
  edges : ∀ e, HasEdge r e ↔ HasEdge m e ∧ ∀ v, EdgeVert m e v → ¬ Gone v
  surfs : ∀ s, HasSurf r s ↔ HasSurf m s
  volus : ∀ c, HasVolu r c ↔ HasVolu m c
  vertEdge : ∀ v e, VertEdge r v e ↔ VertEdge m v e ∧ HasVert r v
  edgeVert : ∀ e v, EdgeVert r e v ↔ EdgeVert m e v ∧ HasEdge r e
  edgeSurf : ∀ e s, EdgeSurf r e s ↔ EdgeSurf m e s ∧ HasEdge r e
  surfEdge : ∀ s e, SurfEdge r s e ↔ SurfEdge m s e ∧ HasEdge r e
  surfVolu : ∀ s c, SurfVolu r s c ↔ SurfVolu m s c
  voluSurf : ∀ c s, VoluSurf r c s ↔ VoluSurf m c s
  coords : ∀ x ∈ r.verts, ∃ y ∈ m.verts, y.index = x.index ∧ y.coord = x.coord

/-- Every surface has an edge and every volume a surface. -/
def NoneEmpty (m : Mesh) : Prop := (∀ s, HasSurf m s → ∃ e, SurfEdge m s e) ∧ ∀ c, HasVolu m c → ∃ s, VoluSurf m c s

end RSVS.Spec
