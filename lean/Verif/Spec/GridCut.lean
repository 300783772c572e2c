import Verif.Model.GridCut
import Verif.Spec.Mesh

/-!
# Walking along the edges of a surface that the snake cuts
-/

namespace RSVS.Spec

open RSVS.Triang

/-- `t` is on the edge of `s`, between `s` and the vertex that `s` comes from.  Orders increase from the end with the
lower index. -/
def Behind (s t : CutSnax) : Prop :=
  t.edgeind = s.edgeind ∧
    ((s.fromvert < s.tovert ∧ t.orderedge < s.orderedge) ∨ (¬ s.fromvert < s.tovert ∧ s.orderedge < t.orderedge))

/-- `t` is at least as close to `s` as `u`, where both are behind `s`. -/
def NotFarther (s t u : CutSnax) : Prop :=
  (s.orderedge - t.orderedge).natAbs ≤ (s.orderedge - u.orderedge).natAbs

/-- `s` is the first snaxel of edge `e` for a walk that begins at end `v`, where `w` is the other end. -/
def FirstFrom (l : List CutSnax) (e v w : Int) (s : CutSnax) : Prop :=
  s ∈ l ∧ s.edgeind = e ∧ ∀ t ∈ l, t.edgeind = e →
    if v < w then s.orderedge ≤ t.orderedge else t.orderedge ≤ s.orderedge

/-- The edges of a surface: index and ends. -/
structure Side where
  index : Int
  a : Int
  b : Int
  deriving DecidableEq

def Side.Has (s : Side) (v : Int) : Prop := s.a = v ∨ s.b = v

/-- Vertex `v` is an end of `p` and of `q` and of no other side, and an end once. -/
structure MeetAt (sides : List Side) (v : Int) (p q : Side) : Prop where
  mem : p ∈ sides ∧ q ∈ sides
  ends : p.Has v ∧ q.Has v
  diff : p.index ≠ q.index
  only : ∀ s ∈ sides, s.Has v → s = p ∨ s = q
  once : p.a ≠ p.b ∧ q.a ≠ q.b

/-! ### Pieces -/

/-- The snaxel edge `e` is on surface `f` of the mesh. -/
def OnSurf (E : CutEnv) (e f : Int) : Prop := ∃ x ∈ E.snaxedges, x.index = e ∧ x.surfind = f

/-- Edge `e` of `m` has the ends `a` and `b`. -/
def EndsAre (m : Mesh) (e a b : Int) : Prop := ∃ x ∈ m.edges, x.index = e ∧ (x.vertind = [a, b] ∨ x.vertind = [b, a])

/-- The points are the ends of the edges, two for each edge. -/
inductive AlongEdges (m : Mesh) : List Int → List Int → Prop
  | nil : AlongEdges m [] []
  | step {e a b es l} : EndsAre m e a b → AlongEdges m es l → AlongEdges m (e :: es) (a :: b :: l)

/-- The indices of the snaxels among the points. -/
def snaxPts (l : List (Int × Int)) : List Int := (l.filter fun x => x.1 = 2).map Prod.snd

/-- A point (type and index) is on edge `e` of the mesh. -/
def PtOnEdge (E : CutEnv) (e : Int) (x : Int × Int) : Prop :=
  (x.1 = 1 ∧ EdgeVert E.mesh e x.2) ∨ (x.1 = 2 ∧ ∃ s ∈ E.snaxs, s.index = x.2 ∧ s.edgeind = e)

/-- Neighbours in a piece of surface `f`: the ends of a snaxel edge on it, or two points of an edge of the mesh. -/
def NextTo (E : CutEnv) (f : Int) (x y : Int × Int) : Prop :=
  (x.1 = 2 ∧ y.1 = 2 ∧ ∃ e, OnSurf E e f ∧ EndsAre E.conn e x.2 y.2) ∨ ∃ e, PtOnEdge E e x ∧ PtOnEdge E e y

/-- A snake on a mesh. -/
structure OnMesh (E : CutEnv) : Prop where
  conn : Sound E.conn
  connTwo : TwoVerts E.conn
  meshTwo : TwoVerts E.mesh
  layers : E.snaxedges.map CutEdge.index = E.conn.edges.map Edge.index
  snaxs : ∀ s ∈ E.snaxs, EdgeVert E.mesh s.edgeind s.fromvert

/-- A piece of a surface, with the snaxel edges it follows. -/
structure IsPiece (E : CutEnv) (p : TriSurf) (es : List Int) : Prop where
  some : es ≠ []
  parent : E.inParent p.parentsurfmesh = true
  on : ∀ e ∈ es, OnSurf E e p.parentsurfmesh
  follows : AlongEdges E.conn es (snaxPts p.pts)
  linked : p.pts.IsChain (NextTo E p.parentsurfmesh)
  types : ∀ x ∈ p.pts, x.1 = 1 ∨ x.1 = 2
  cells : ∃ s ∈ E.mesh.surfs, s.index = p.parentsurfmesh ∧
    (p.voluind = s.voluind ∨ ∃ a b r, s.voluind = a :: b :: r ∧ p.voluind = b :: a :: r)

end RSVS.Spec
