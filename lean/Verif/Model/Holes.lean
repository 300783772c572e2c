import Verif.Model.Hash
import Verif.Model.SnakeJoin

/-!
# Points in the holes of a snake

`FindVertexHole` (SRCC/src/grid/meshprocessing.cpp:367-430) and `FindHolesInSnake` (meshprocessing.cpp:115-182).

The loop `while` of `FindVertexHole` is bounded by `fuel`; its exhaustion is reported.  The printing of the points is left
out.
-/

namespace RSVS

namespace Mesh

/-- The loop over `currVertList` (meshprocessing.cpp:391-417): the point if it is found, `vertExplored` and
`nextEdgeList`. -/
def holeScan (m : Mesh) (vertIn : List Bool) (unc : HashedVector) :
    List Int → List Bool → List Int → Res (Option Int × List Bool × List Int)
  | [], ex, next => .ok (none, ex, next)
  | v :: vs, ex, next =>
    (vecGet ex (posOf Vert.index m.verts v)).bind fun e =>
    (if e then .ok false else vecGet vertIn (posOf Vert.index m.verts v)).bind fun i =>
    if i then
      if unc.find v = -1 then .ok (some v, ex.set (posOf Vert.index m.verts v).toNat true, next)
      else
        (elemAt m.verts (posOf Vert.index m.verts v)).bind fun w =>
        holeScan m vertIn unc vs (ex.set (posOf Vert.index m.verts v).toNat true) (next ++ w.edgeind)
    else holeScan m vertIn unc vs ex next

/-- The loop `while` (meshprocessing.cpp:387-427).  The indices of edges in `nextEdgeList` are used as positions. -/
def holeSearch (m : Mesh) (vertIn : List Bool) (unc : HashedVector) : Nat → List Int → List Bool → Res (Int × List Bool)
  | 0, _, _ => .error .diverges
  | fuel + 1, cur, ex =>
    if cur = [] then .ok (-1, ex)
    else
      (holeScan m vertIn unc cur ex []).bind fun r =>
      match r.1 with
      | some v => .ok (v, r.2.1)
      | none =>
        if r.2.2 = [] then .ok (-1, r.2.1)
        else (concatField m.edges Edge.vertind r.2.2).bind fun cur => holeSearch m vertIn unc fuel cur r.2.1

/-- `FindVertexHole` (meshprocessing.cpp:367-430): the result and `vertExplored`. -/
def findVertexHole (m : Mesh) (vertIn : List Bool) (unc : HashedVector) (v : Int) (ex : List Bool) : Res (Int × List Bool) :=
  holeSearch m vertIn unc (m.verts.length + 1) [v] ex

end Mesh

open Mesh

variable {K : Type}

/-- One call of `FindVertexHole` (meshprocessing.cpp:155-157). -/
def holeEnd (s : Snake K) (m : Mesh) (unc : HashedVector) (snaxel : Int) (r : Int × List Bool) : Res (Int × List Bool) :=
  (isearch Snax.index s.snaxs snaxel).bind fun x => findVertexHole m s.vertIn unc x.fromvert r.2

/-- A loop that ends when a point is found (meshprocessing.cpp:146-172). -/
def holeFirst {α : Type} (f : α → Int × List Bool → Res (Int × List Bool)) : List α → Int × List Bool →
    Res (Int × List Bool)
  | [], r => .ok r
  | a :: l, r => (f a r).bind fun r => if r.1 ≠ -1 then .ok r else holeFirst f l r

/-- The loop over the ends of an edge (meshprocessing.cpp:153-162). -/
def holeEdge (s : Snake K) (m : Mesh) (unc : HashedVector) (p : Int) (r : Int × List Bool) : Res (Int × List Bool) :=
  holeFirst (fun ll r => (elemAt s.conn.edges p).bind fun e => (vecGet e.vertind ll).bind fun a => holeEnd s m unc a r) [0, 1] r

/-- The loop over the edges of a surface (meshprocessing.cpp:148-167). -/
def holeSurf (s : Snake K) (m : Mesh) (unc : HashedVector) (f : Int) (r : Int × List Bool) : Res (Int × List Bool) :=
  (isearch Surf.index s.conn.surfs f).bind fun sf =>
  holeFirst (holeEdge s m unc) (posList Edge.index s.conn.edges sf.edgeind) r

/-- One turn of the loop over the volumes (meshprocessing.cpp:143-178): the points, `holeInd` and `vertExplored`. -/
def holeVolu (s : Snake K) (m : Mesh) (unc : HashedVector) (r : List Int × Int × List Bool) (c : Volu) :
    Res (List Int × Int × List Bool) :=
  (holeFirst (holeSurf s m unc) c.surfind r.2).map fun q => (if q.1 ≠ -1 then r.1 ++ [q.1] else r.1, q)

/-- `FindHolesInSnake` (meshprocessing.cpp:115-182) for a snake on the mesh `m`. -/
def findHoles (s : Snake K) (m : Mesh) (unc : HashedVector) : Res (List Int) :=
  (s.conn.volus.foldlM (m := Except Fault) (holeVolu s m unc) ([], -1, List.replicate s.vertIn.length false)).map fun r => r.1

end RSVS
