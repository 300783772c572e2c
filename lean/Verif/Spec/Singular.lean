import Verif.Spec.Mesh

/-!
# Specification of the removal of degenerate elements
-/

namespace RSVS.Spec

/-- The edge is in the mesh and joins a vertex to itself. -/
def isLoop (m : Mesh) (e : Int) : Bool :=
  m.edges.any fun x => x.index == e && match x.vertind with
    | [a, b] => a == b
    | _ => false

/-- The entries of the list of edges of a surface which are not such edges. -/
def edgesLeft (m : Mesh) (x : Surf) : List Int := x.edgeind.filter fun e => !isLoop m e

/-- The surface is in the mesh and has at least three entries left. -/
def isFace (m : Mesh) (s : Int) : Bool := m.surfs.any fun x => x.index == s && decide (3 ≤ (edgesLeft m x).length)

/-- The entries of the list of surfaces of a volume which are such surfaces. -/
def surfsLeft (m : Mesh) (c : Volu) : List Int := c.surfind.filter fun s => isFace m s

/-- Two edges of the mesh have the same ends. -/
def SameLine (m : Mesh) (e e' : Int) : Prop :=
  ∃ x ∈ m.edges, ∃ y ∈ m.edges, x.index = e ∧ y.index = e' ∧ (y.vertind = x.vertind ∨ y.vertind = x.vertind.reverse)

/-- Surface `s'` of `r` has the outline which surface `s` of `m` has without the edges from a vertex to itself. -/
structure SameFace (m r : Mesh) (s s' : Int) : Prop where
  there : ∀ e, SurfEdge m s e → isLoop m e = false → ∃ e', SurfEdge r s' e' ∧ SameLine m e e'
  back : ∀ e', SurfEdge r s' e' → ∃ e, SurfEdge m s e ∧ isLoop m e = false ∧ SameLine m e e'

/-- What is left of a mesh when the degenerate elements are removed: the same vertices, edges with two different ends, at least one between
any two vertices which an edge joined, surfaces with at least three entries, at least one for each surface which is not degenerate, and exactly
the volumes with at least four surfaces which are not degenerate, with the same surfaces. -/
structure Reduced (m r : Mesh) : Prop where
  verts : r.verts.map Vert.index = m.verts.map Vert.index
  edges : ∀ x ∈ r.edges, (∃ a b, x.vertind = [a, b] ∧ a ≠ b) ∧ ∃ y ∈ m.edges, y.index = x.index ∧ y.vertind = x.vertind
  joined : ∀ y ∈ m.edges, ∀ a b, y.vertind = [a, b] → a ≠ b → ∃ x ∈ r.edges, x.vertind = [a, b] ∨ x.vertind = [b, a]
  surfs : ∀ x ∈ r.surfs, 3 ≤ x.edgeind.length ∧ isFace m x.index = true
  volus : ∀ x ∈ r.volus, 4 ≤ x.surfind.length
  whole : ∀ i, HasVolu r i ↔ ∃ c ∈ m.volus, c.index = i ∧ 4 ≤ (surfsLeft m c).length
  faces : ∀ s, isFace m s = true → ∃ s', HasSurf r s' ∧ SameFace m r s s'
  sides : ∀ c, HasVolu r c → (∀ s, VoluSurf m c s → isFace m s = true → ∃ s', VoluSurf r c s' ∧ SameFace m r s s') ∧
    ∀ s', VoluSurf r c s' → ∃ s, VoluSurf m c s ∧ isFace m s = true ∧ SameFace m r s s'

end RSVS.Spec
