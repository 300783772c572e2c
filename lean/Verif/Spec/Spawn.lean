import Verif.Spec.SnakeJoin
import Verif.Model.Spawn

/-!
# What the snake spawned around a vertex should be
-/

namespace RSVS.Spec

variable {K : Type}

/-- Surface `f` (0 for the outside) touches vertex `v`. -/
def SurfAt (m : Mesh) (v f : Int) : Prop := ∃ e, VertEdge m v e ∧ EdgeSurf m e f

/-- Volume `c` (0 for the outside) touches vertex `v`. -/
def VoluAt (m : Mesh) (v c : Int) : Prop := ∃ f, SurfAt m v f ∧ SurfVolu m f c

/-- The surfaces around the vertex are all there, and each of them has two of the edges of the vertex. -/
structure Ringed (m : Mesh) (v : Int) : Prop where
  once : ∀ y ∈ m.verts, y.index = v → y.edgeind.Nodup
  surf : ¬ SurfAt m v 0
  two : ∀ y ∈ m.verts, y.index = v → ∀ x ∈ m.surfs, SurfAt m v x.index →
    (x.edgeind.filter fun e => decide (e ∈ y.edgeind)).length = 2

/-- The snaxels are one on each edge of the vertex, at the vertex and on their way to the other end; the edges between
them are one in each surface of the vertex; and a snaxel is at an end of an edge when its edge is in the surface of that
edge. -/
structure DualRing [Field K] (m : Mesh) (v : Int) (n : Snake K) : Prop where
  onEdges : (n.snaxs.map Snax.edgeind).Nodup ∧ ∀ e, e ∈ n.snaxs.map Snax.edgeind ↔ VertEdge m v e
  start : ∀ s ∈ n.snaxs, s.fromvert = v ∧ s.d = 0 ∧ s.v = 1 / 2
  other : ∀ s ∈ n.snaxs, ∃ ed ∈ m.edges, ed.index = s.edgeind ∧
    (ed.vertind = [v, s.tovert] ∨ ed.vertind = [s.tovert, v])
  coord : ∀ x ∈ n.conn.verts, ∃ y ∈ m.verts, y.index = v ∧ x.coord = y.coord
  inSurfs : (n.snaxedges.map SnaxEdge.surfind).Nodup ∧ ∀ f, f ∈ n.snaxedges.map SnaxEdge.surfind ↔ SurfAt m v f
  edgeVert : ∀ a ∈ n.snaxs, ∀ b ∈ n.snaxedges, EdgeVert n.conn b.index a.index ↔ EdgeSurf m a.edgeind b.surfind

/-- The surfaces of the snake are one in each volume of the vertex; an edge bounds it when the surface of the edge bounds
the volume; and they enclose one volume. -/
structure DualCells (m : Mesh) (v : Int) (n : Snake K) : Prop where
  inVolus : (n.snaxsurfs.map SnaxSurf.voluind).Nodup ∧ ∀ c, c ∈ n.snaxsurfs.map SnaxSurf.voluind ↔ VoluAt m v c
  surfEdge : ∀ b ∈ n.snaxedges, ∀ c ∈ n.snaxsurfs, SurfEdge n.conn c.index b.index ↔ SurfVolu m b.surfind c.voluind
  encloses : ∃ w, (∀ i, HasVolu n.conn i ↔ i = w) ∧ ∀ c, VoluSurf n.conn w c ↔ HasSurf n.conn c

/-- In the plane there is one surface, bounded by all the edges. -/
structure DualFace (n : Snake K) : Prop where
  face : ∃ w, (∀ i, HasSurf n.conn i ↔ i = w) ∧ ∀ b, SurfEdge n.conn w b ↔ HasEdge n.conn b
  noVolu : ∀ i, ¬ HasVolu n.conn i

/-- The only vertex of the mesh inside the snake is `v`. -/
def InsideOnly (m : Mesh) (v : Int) (n : Snake K) : Prop :=
  n.vertIn.length = m.verts.length ∧ ∀ i, InsideAt n i ↔ ∃ y, m.verts[i]? = some y ∧ y.index = v

end RSVS.Spec
