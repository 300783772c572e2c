import Verif.Spec.Spawn

/-!
# What should happen when snaxels arrive at vertices of the mesh
-/

namespace RSVS.Spec

variable {K : Type}

/-- The vertex is off the border: all the surfaces and volumes around it are there. -/
structure OffBorder (m : Mesh) (v : Int) : Prop where
  vert : HasVert m v
  ring : Ringed m v
  cells : (m.volus ≠ [] ∧ ¬ VoluAt m v 0) ∨ (m.volus = [] ∧ ∃ c, VoluAt m v c)

/-- Vertices that are not marked are off the border. -/
def BordersMarked (m : Mesh) : Prop := ∀ x ∈ m.verts, x.isBorder = false → OffBorder m x.index

/-- A snaxel went back to its vertex `u`, which is off the border. -/
def WentBack (m : Mesh) (s : Snake K) (impacts : Impacts) (u : Int) : Prop :=
  ∃ a ∈ s.snaxs, (a.index, -1) ∈ impacts ∧ a.fromvert = u ∧ ∃ x ∈ m.verts, x.index = u ∧ x.isBorder = false

/-- A snaxel came to the vertex `u` at the end of its edge, which is off the border and which none went back to. -/
def CameTo (m : Mesh) (s : Snake K) (impacts : Impacts) (u : Int) : Prop :=
  (∃ a ∈ s.snaxs, (a.index, -2) ∈ impacts ∧ a.tovert = u ∧ ∃ x ∈ m.verts, x.index = u ∧ x.isBorder = false) ∧
  ¬ WentBack m s impacts u

/-- The snaxels `l` are one on each edge of each vertex of `P`, which is `near` them while `far` is the other end. -/
structure AroundEach (m : Mesh) (P : Int → Prop) (l : List (Snax K)) (near far : Snax K → Int) : Prop where
  once : (l.map fun x => (near x, x.edgeind)).Nodup
  edges : ∀ u e, (u, e) ∈ (l.map fun x => (near x, x.edgeind)) ↔ P u ∧ VertEdge m u e
  ends : ∀ x ∈ l, ∃ ed ∈ m.edges, ed.index = x.edgeind ∧ (ed.vertind = [near x, far x] ∨ ed.vertind = [far x, near x])

end RSVS.Spec
