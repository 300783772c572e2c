import Verif.Model.Geometry
import Verif.Model.Mesh

/-!
# Stored lengths of edges

`edge::LengthSquared` and `edge::Length` (SRCC/src/grid/mesh.cpp:1477-1503), `mesh::SetEdgeLengths` (mesh.cpp:3009-3027), the
last part of `mesh::PrepareForUse` (mesh.cpp:3073-3085), `mesh::InvalidateEdgeLength` (mesh.cpp:3087-3096),
`snake::UpdateCoord` (SRCC/src/snake/snake.cpp:980-1028), `mesh::LinearTransform` (mesh.cpp:5207-5219) and the copies of edges
(SRCC/incl/mesh.hpp:417-423).

Simplifications: arithmetic is exact; the square root is a function `root`.  An edge has its two ends.  The new coordinates of
`UpdateCoord` are given.  An exception in `SetEdgeLengths` is not caught.
-/

namespace RSVS.Lengths

open RSVS.Mesh RSVS.Geo

variable {K : Type} [Field K] [LinearOrder K]

/-- Members of `vert` that are used here. -/
structure LVert (K : Type) where
  index : Int
  edgeind : List Int
  coord : P3 K

/-- Members of `edge` (mesh.hpp:352-362) that are used here. -/
structure LEdge (K : Type) where
  index : Int
  v0 : Int
  v1 : Int
  length : K
  isBorder : Bool
deriving DecidableEq

/-- Members of `mesh` (mesh.hpp:591-616) that are used here. -/
structure LMesh (K : Type) where
  verts : List (LVert K)
  edges : List (LEdge K)
  lengthsSet : Bool
  dim : Nat

/-- The loop of `edge::LengthSquared` (mesh.cpp:1481-1485). -/
def sumSquares (dim : Nat) (a b : P3 K) : K :=
  ((List.finRange 3).filter (fun i => decide (i.val < dim))).foldl (fun s i => s + (a i - b i) ^ 2) 0

/-- `edge::LengthSquared` (mesh.cpp:1477-1488). -/
def lengthSquared (m : LMesh K) (e : LEdge K) : Res K :=
  (isearch LVert.index m.verts e.v0).bind fun a =>
  (isearch LVert.index m.verts e.v1).map fun b => sumSquares m.dim a.coord b.coord

/-- `edge::Length` (mesh.cpp:1496-1503); `__issetlength` is `l >= -0.0` (mesh.hpp:94). -/
def length (root : K → K) (m : LMesh K) (e : LEdge K) : Res K :=
  if 0 ≤ e.length then .ok e.length else (lengthSquared m e).map root

/-- `edge::SetLength` for the edges without a length (mesh.cpp:3013-3025). -/
def setLength (root : K → K) (m : LMesh K) (e : LEdge K) : Res (LEdge K) :=
  if 0 ≤ e.length then .ok e else (length root m e).map fun l => { e with length := l }

/-- `mesh::SetEdgeLengths` (mesh.cpp:3009-3027). -/
def setEdgeLengths (root : K → K) (m : LMesh K) : Res (LMesh K) :=
  (m.edges.mapM (m := Except Fault) (setLength root m)).map fun es => { m with edges := es, lengthsSet := true }

/-- The last part of `mesh::PrepareForUse` (mesh.cpp:3073-3085). -/
def prepare (root : K → K) (m : LMesh K) : Res (LMesh K) :=
  if m.lengthsSet then .ok m else setEdgeLengths root m

/-- `mesh::InvalidateEdgeLength` (mesh.cpp:3087-3096): the position is used without test. -/
def invalidate (m : LMesh K) (e : Int) : Res (LMesh K) :=
  if posOf LEdge.index m.edges e < 0 then .error .ub
  else .ok { m with
    edges := m.edges.modify (posOf LEdge.index m.edges e).toNat (fun x => { x with length := -1 })
    lengthsSet := false }

/-- One turn of the loops of `UpdateCoord` (snake.cpp:986-1000, 1009-1025): position of the vertex and new coordinates. -/
def moveVert (m : LMesh K) (mv : Nat × P3 K) : Res (LMesh K) :=
  (vecGet m.verts mv.1).bind fun v =>
  v.edgeind.foldlM (m := Except Fault) invalidate { m with verts := m.verts.modify mv.1 (fun x => { x with coord := mv.2 }) }

/-- `snake::UpdateCoord` (snake.cpp:980-1028). -/
def updateCoord (root : K → K) (m : LMesh K) (mvs : List (Nat × P3 K)) : Res (LMesh K) :=
  (mvs.foldlM (m := Except Fault) moveVert m).bind (setEdgeLengths root)

/-- `mesh::LinearTransform` (mesh.cpp:5207-5219). -/
def transform (t : Fin 3 → Trans K) (m : LMesh K) : LMesh K :=
  { m with verts := m.verts.map fun v => { v with coord := fun i => (t i).app (v.coord i) } }

/-- The copy constructor of `edge` (mesh.hpp:417-423): the other members have their first values. -/
def copyEdge (e : LEdge K) : LEdge K := { e with length := -1, isBorder := false }

/-- The assignment of a mesh to one whose vector of edges has `size` elements and room for `cap`: elements that are there are
assigned (mesh.hpp:424), others are constructed; with too little room all are constructed. -/
def copyMesh (cap size : Nat) (m : LMesh K) : LMesh K :=
  { m with edges := if cap < m.edges.length then m.edges.map copyEdge
      else m.edges.take size ++ (m.edges.drop size).map copyEdge }

/-- The operations on a mesh. -/
inductive Op (K : Type)
  | prepare
  | setLengths
  | move (mvs : List (Nat × P3 K))
  | transform (t : Fin 3 → Trans K)
  | copy (cap size : Nat)

def step (root : K → K) (m : LMesh K) : Op K → Res (LMesh K)
  | .prepare => Lengths.prepare root m
  | .setLengths => setEdgeLengths root m
  | .move mvs => updateCoord root m mvs
  | .transform t => .ok (Lengths.transform t m)
  | .copy cap size => .ok (copyMesh cap size m)

end RSVS.Lengths
