import Verif.Spec.Mesh

/-!
# Specification of the edges cut by a box
-/

namespace RSVS.Spec

/-- The point is beyond the box on one axis or more. -/
def Beyond (lb ub : Fin 3 → ℚ) (x : List ℚ) : Prop :=
  ∃ j : Fin 3, ub j < x.getD j 0 ∨ x.getD j 0 < lb j

/-- Vertex `v` of the mesh is outside the box. -/
def VertOutside (lb ub : Fin 3 → ℚ) (m : Mesh) (v : Int) : Prop :=
  ∃ x ∈ m.verts, x.index = v ∧ Beyond lb ub x.coord

/-- Vertex `v` of the mesh is inside the box. -/
def VertInside (lb ub : Fin 3 → ℚ) (m : Mesh) (v : Int) : Prop :=
  ∃ x ∈ m.verts, x.index = v ∧ ¬ Beyond lb ub x.coord

/-- Edge `f` goes from the inside of the box to the outside. -/
def Crosses (lb ub : Fin 3 → ℚ) (m : Mesh) (f : Int) : Prop :=
  ∃ a b, EdgeVert m f a ∧ EdgeVert m f b ∧ VertInside lb ub m a ∧ VertOutside lb ub m b

/-- `m'` is `m` with edge `e` split by vertex `nv`: it ends there instead of at `o`, and the
new edge `ne`, on the same surfaces, goes on from there to `o`. -/
structure EdgeSplit (m m' : Mesh) (e o nv ne : Int) : Prop where
  verts : m'.verts.map Vert.index = m.verts.map Vert.index ++ [nv]
  edges : m'.edges.map Edge.index = m.edges.map Edge.index ++ [ne]
  surfs : m'.surfs.map Surf.index = m.surfs.map Surf.index
  volus : m'.volus = m.volus
  vertEdge : ∀ v f, VertEdge m' v f ↔
    (VertEdge m v f ∧ ¬ (v = o ∧ f = e)) ∨ (v = o ∧ f = ne) ∨ (v = nv ∧ (f = e ∨ f = ne))
  edgeVert : ∀ f v, EdgeVert m' f v ↔
    (EdgeVert m f v ∧ ¬ (f = e ∧ v = o)) ∨ (f = e ∧ v = nv) ∨ (f = ne ∧ (v = o ∨ v = nv))
  edgeSurf : ∀ f s, EdgeSurf m' f s ↔ EdgeSurf m f s ∨ (f = ne ∧ EdgeSurf m e s)
  surfEdge : ∀ s f, SurfEdge m' s f ↔ SurfEdge m s f ∨ (f = ne ∧ SurfEdge m s e)
  surfVolu : ∀ s c, SurfVolu m' s c ↔ SurfVolu m s c

/-- Edge `e` has become two: `e` from the inner end to `nv` and `ne` from there to the outer end,
on the same surfaces; no other edge reaches `nv`. -/
structure Halved (lb ub : Fin 3 → ℚ) (m m' : Mesh) (e nv ne : Int) : Prop where
  newVert : ¬ HasVert m nv ∧ HasVert m' nv
  newEdge : ¬ HasEdge m ne ∧ HasEdge m' ne
  meet : ∀ f, EdgeVert m' f nv ↔ f = e ∨ f = ne
  outer : ∀ v, EdgeVert m' ne v ↔ v = nv ∨ (EdgeVert m e v ∧ VertOutside lb ub m v)
  inner : ∀ v, EdgeVert m' e v ↔ v = nv ∨ (EdgeVert m e v ∧ VertInside lb ub m v)
  surf : ∀ s, SurfEdge m' s ne ↔ SurfEdge m s e

/-- `m'` is `m` with every edge which goes out of the box split where it does. -/
structure CutByBox (place : List ℚ → List ℚ → Res (List ℚ)) (lb ub : Fin 3 → ℚ)
    (m m' : Mesh) : Prop where
  sound : Sound m'
  two : TwoVerts m'
  /-- the elements there were are kept, in place -/
  verts : ∃ new, m'.verts.map Vert.index = m.verts.map Vert.index ++ new
  edges : ∃ new, m'.edges.map Edge.index = m.edges.map Edge.index ++ new
  /-- as many vertices as edges are new, one for each edge which crossed -/
  count : ∃ cut : List Int, cut.Nodup ∧ (∀ f, f ∈ cut ↔ Crosses lb ub m f) ∧
    m'.verts.length = m.verts.length + cut.length ∧
    m'.edges.length = m.edges.length + cut.length
  surfs : m'.surfs.map Surf.index = m.surfs.map Surf.index
  volus : m'.volus = m.volus
  surfVolu : ∀ s c, SurfVolu m' s c ↔ SurfVolu m s c
  /-- no edge goes from a vertex which was inside to one which was outside -/
  separated : ∀ f a b, EdgeVert m' f a → EdgeVert m' f b → VertInside lb ub m a →
    ¬ VertOutside lb ub m b
  /-- edges keep the ends they had inside; those which did not cross keep both -/
  inner : ∀ f v, HasEdge m f → VertInside lb ub m v → (EdgeVert m' f v ↔ EdgeVert m f v)
  kept : ∀ f v, HasEdge m f → ¬ Crosses lb ub m f → (EdgeVert m' f v ↔ EdgeVert m f v)
  /-- each edge which crossed is now two -/
  halves : ∀ e, Crosses lb ub m e → ∃ nv ne, Halved lb ub m m' e nv ne
  /-- surfaces keep their edges -/
  surfEdge : ∀ s f, HasEdge m f → (SurfEdge m' s f ↔ SurfEdge m s f)
  /-- vertices do not move, and the new ones are placed from the two ends of a crossing edge,
  which now ends there -/
  coord : ∀ x ∈ m.verts, ∃ y ∈ m'.verts, y.index = x.index ∧ y.coord = x.coord
  placed : ∀ y ∈ m'.verts, HasVert m y.index ∨ ∃ f, ∃ a ∈ m.verts, ∃ b ∈ m.verts,
    EdgeVert m f a.index ∧ EdgeVert m f b.index ∧ ¬ Beyond lb ub a.coord ∧
    Beyond lb ub b.coord ∧ place a.coord b.coord = .ok y.coord ∧ EdgeVert m' f y.index

/-- The marks say which vertices of `m'` were outside the box in `m`; new ones were not. -/
def MarksOutside (lb ub : Fin 3 → ℚ) (m m' : Mesh) (vo : List Bool) : Prop :=
  vo.length = m'.verts.length ∧ ∀ (i : Nat) (x : Vert), m'.verts[i]? = some x →
    (vo[i]? = some true ↔ VertOutside lb ub m x.index)

end RSVS.Spec
