import Verif.Model.SnakeJoin
import Verif.Spec.Mesh

/-!
# What joining snakes and merging snaxels should do
-/

namespace RSVS.Spec

variable {K : Type}

/-- Vertex number `i` of the mesh is inside the snake. -/
def InsideAt (s : Snake K) (i : Nat) : Prop := ∃ b, s.vertIn[i]? = some b ∧ (b ^^ s.flipped) = true

/-- The snakes share no vertex inside. -/
def Independent (a b : Snake K) : Prop := ∀ i, ¬ (InsideAt a i ∧ InsideAt b i)

/-- The snaxels, their edges and their surfaces are in the same places as the elements of the connectivity that they
belong to. -/
structure InStep (s : Snake K) : Prop where
  verts : s.snaxs.map Snax.index = s.conn.verts.map Vert.index
  edges : s.snaxedges.map SnaxEdge.index = s.conn.edges.map Edge.index
  surfs : s.snaxsurfs.map SnaxSurf.index = s.conn.surfs.map Surf.index

/-- `subs` lists the positions of the snaxels of each edge. -/
def ListsEdges (l : List (Snax K)) (subs : Int → List Nat) : Prop :=
  ∀ e, (subs e).Nodup ∧ ∀ i, i ∈ subs e ↔ ∃ a, l[i]? = some a ∧ a.edgeind = e

/-- The two ends of an edge are different. -/
def NoLoops (m : Mesh) : Prop := ∀ e ∈ m.edges, ∀ x, e.vertind ≠ [x, x]

/-- No vertex lists an edge twice. -/
def ListedOnce (m : Mesh) : Prop := ∀ v ∈ m.verts, v.edgeind.Nodup

/-- `s'` is `s` with each snaxel `a` merged into `into a`, which is kept. -/
structure MergedInto [Zero K] (impacts : Impacts) (s s' : Snake K) (into : Int → Int) : Prop where
  /-- snaxels are merged into snaxels they were reported to touch, and these are kept -/
  reported : ∀ a, into a ≠ a → (a, into a) ∈ impacts ∧ HasVert s.conn a ∧ HasVert s.conn (into a) ∧ into (into a) = into a
  /-- what is reported to touch leads to a merge -/
  progress : (∃ p ∈ impacts, 0 < p.2) → ∃ a, into a ≠ a
  snaxs : s'.snaxs.map Snax.index = (s.snaxs.map Snax.index).filter fun a => into a = a
  verts : s'.conn.verts.map Vert.index = (s.conn.verts.map Vert.index).filter fun a => into a = a
  /-- snaxels keep their values, but for their speed -/
  kept : ∀ x ∈ s'.snaxs, ∃ y ∈ s.snaxs, x = y ∨ (x = { y with v := 0 } ∧ ∃ a, (a, y.index) ∈ impacts)
  stopped : ∀ x ∈ s'.snaxs, ∀ a, into a ≠ a → x.index = into a → x.v = 0
  coord : ∀ x ∈ s'.conn.verts, ∃ y ∈ s.conn.verts, y.index = x.index ∧ y.coord = x.coord
  edges : s'.conn.edges.map Edge.index = s.conn.edges.map Edge.index
  edgeVert : ∀ e v, EdgeVert s'.conn e v ↔ ∃ u, EdgeVert s.conn e u ∧ into u = v
  edgeSurf : ∀ e i, EdgeSurf s'.conn e i ↔ EdgeSurf s.conn e i
  surfs : s'.conn.surfs = s.conn.surfs
  volus : s'.conn.volus = s.conn.volus
  layers : s'.snaxedges = s.snaxedges ∧ s'.snaxsurfs = s.snaxsurfs
  rest : s'.base = s.base ∧ s'.vertIn = s.vertIn ∧ s'.flipped = s.flipped

end RSVS.Spec
