import Verif.Model.Triangulate

/-!
# The pieces of surfaces of the mesh that the snake cuts

Model of SRCC/src/snake/triangulate.cpp:770-1097.  Siblings and the places in a hashed vector come from
unordered maps; here they are in the order of the list.
-/

namespace RSVS.Triang

open RSVS.Mesh RSVS.Order

/-- `snax` (SRCC/incl/snake.hpp:191-242): what is read here. -/
structure CutSnax where
  index : Int
  fromvert : Int
  tovert : Int
  edgeind : Int
  orderedge : Int
  deriving DecidableEq, Repr

/-- `snaxedge` (SRCC/incl/snake.hpp:244-281): what is read here. -/
structure CutEdge where
  index : Int
  surfind : Int
  deriving DecidableEq, Repr

/-- What is read of the snake and the mesh. -/
structure CutEnv where
  /-- `snakeDep->snaxs`. -/
  snaxs : List CutSnax
  /-- `snakeDep->snaxedges`. -/
  snaxedges : List CutEdge
  /-- `snakeDep->snakeconn`. -/
  conn : Mesh
  /-- `meshDep`. -/
  mesh : Mesh
  /-- `meshDep->SurfInParent(actSurf) >= 0`. -/
  inParent : Int → Bool

/-- The loop over the edges of a snaxel (triangulate.cpp:799-804). -/
def findSnaxEdge (E : CutEnv) (actSurf : Int) : List Int → Res Int
  | [] => .error .throws
  | e :: l => (isearch CutEdge.index E.snaxedges e).bind fun s =>
      if s.surfind = actSurf then .ok e else findSnaxEdge E actSurf l

/-- `FollowSnaxEdgeConnection` (triangulate.cpp:770-827): whether the edge was done, what is done now
and the snaxel at the other end. -/
def followSnaxEdge (E : CutEnv) (actSnax actSurf follow : Int) (done : List Bool) :
    Res (Bool × List Bool × Int) :=
  (isearch Vert.index E.conn.verts actSnax).bind fun v =>
  (if follow = 0 then findSnaxEdge E actSurf v.edgeind else .ok follow).bind fun e =>
  (vecGet done (posOf CutEdge.index E.snaxedges e)).bind fun isRepeat =>
  (elemAt E.conn.edges (posOf CutEdge.index E.snaxedges e)).bind fun ed =>
  (vecGet ed.vertind 1).bind fun v1 => (vecGet ed.vertind 0).map fun v0 =>
    (isRepeat, done.set (posOf CutEdge.index E.snaxedges e).toNat true, if v1 ≠ actSnax then v1 else v0)

/-- `testOrder > nextSnaxOrd || nextSnaxPos == -1` (triangulate.cpp:869), or the same with `<` (882). -/
def closer (dir : Bool) (s : CutSnax) : Option CutSnax → Bool
  | none => true
  | some b => if dir then s.orderedge > b.orderedge else s.orderedge < b.orderedge

/-- The loop of `FollowSnaxelDirection` (triangulate.cpp:859-888): the next snaxel with a lower
order if `dir`, with a higher one otherwise. -/
def nextOrder (dir : Bool) (curr : Int) : Option CutSnax → List CutSnax → Option CutSnax
  | best, [] => best
  | best, s :: l =>
    let beyond : Bool := if dir then s.orderedge < curr else s.orderedge > curr
    nextOrder dir curr (if beyond && closer dir s best then some s else best) l

/-- `FollowSnaxelDirection` (triangulate.cpp:829-901): index, type and `actEdge`. -/
def followDirection (E : CutEnv) (actSnax : Int) : Res (Int × Int × Int) :=
  (isearch CutSnax.index E.snaxs actSnax).map fun s =>
    let sib := E.snaxs.filter fun t => t.edgeind == s.edgeind
    if sib.length = 1 then (s.fromvert, 1, s.edgeind)
    else match nextOrder (s.fromvert < s.tovert) s.orderedge none sib with
      | none => (s.fromvert, 1, s.edgeind)
      | some t => (t.index, 2, s.edgeind)

/-- The places of a value (`HashedVector::findall`). -/
def placesOf (l : List Int) (x : Int) : List Nat :=
  (List.range l.length).filter fun i => l.getD i 0 == x

/-- `currSnax` after the loop over siblings (triangulate.cpp:941-967): it is set to the first one in
every case. -/
def chooseSnax (isDir : Bool) (first : CutSnax) : Int × Int → List CutSnax → Int × Int
  | r, [] => r
  | r, s :: l =>
    if (if isDir then s.orderedge > r.1 else s.orderedge < r.1) then
      chooseSnax isDir first (s.orderedge, first.index) l
    else chooseSnax isDir first r l

/-- `FollowVertexConnection` (triangulate.cpp:903-974): index, type and `nextEdge`. -/
def followVertex (E : CutEnv) (edgeInd vertInd : List Int) (actVert prevEdge : Int) :
    Res (Int × Int × Int) :=
  match placesOf vertInd actVert with
  | [t0, t1] =>
    (vecGet edgeInd ((t1 / 2 : Nat) : Int)).bind fun e1 =>
    let t := if e1 ≠ prevEdge then t1 else t0
    (vecGet edgeInd ((t / 2 : Nat) : Int)).bind fun nextEdge =>
    match E.snaxs.filter fun s => s.edgeind == nextEdge with
    | [] => (vecGet vertInd ((t : Int) + 1 - (t % 2 : Nat) * 2)).map fun v => (v, 1, nextEdge)
    | [s] => .ok (s.index, 2, nextEdge)
    | s :: l =>
      (isearch Edge.index E.mesh.edges nextEdge).bind fun ed =>
      (vecGet ed.vertind ((t % 2 : Nat) : Int)).map fun (v : Int) =>
        ((chooseSnax (v < actVert) s (s.orderedge, s.index) l).2, 2, nextEdge)
  | _ => .error .throws

/-- What the loop of `BuildTriSurfGridSnakeIntersect` keeps. -/
structure Walk where
  actIndex : Int
  actType : Int
  actEdge : Int
  nVert : Nat
  /-- `indvert` and `typevert`: type and index. -/
  pts : List (Int × Int)
  /-- `pseudoEdgeInd[1]` and `pseudoEdgeInd[2]`. -/
  pseudo : Int × Int
  done : List Bool
  deriving DecidableEq, Repr

/-- One turn of the loop (triangulate.cpp:1029-1076); `true` is `flagDone`. -/
def walkStep (E : CutEnv) (actSurf : Int) (edgeInd vertInd : List Int) (w : Walk) : Res (Bool × Walk) :=
  if w.actType = 1 then
    (followVertex E edgeInd vertInd w.actIndex w.actEdge).map fun r =>
      (false, { w with
        actIndex := r.1, actType := r.2.1, actEdge := if r.2.1 = (2 : Int) then 0 else r.2.2
        nVert := w.nVert + 1
        pts := w.pts ++ [(1, w.actIndex)], pseudo := (w.actEdge, r.2.2) })
  else if w.actType = 2 then
    (followSnaxEdge E w.actIndex actSurf w.actEdge w.done).bind fun f =>
    if f.1 = false then
      (followDirection E f.2.2).map fun r =>
        (false, { w with
          actIndex := r.1, actType := r.2.1, actEdge := if r.2.1 = (2 : Int) then 0 else r.2.2
          pts := w.pts ++ [(2, w.actIndex), (2, f.2.2)], done := f.2.1 })
    else if w.nVert = 0 then
      (isearch CutSnax.index E.snaxs w.actIndex).bind fun s =>
      (followVertex E edgeInd vertInd s.tovert s.edgeind).map fun r =>
        (true, { w with actEdge := 0, pseudo := (s.edgeind, r.2.2), done := f.2.1 })
    else .ok (true, { w with actEdge := 0, done := f.2.1 })
  else .ok (false, w)

/-- The loop (triangulate.cpp:1027-1082) with a bound for its turns. -/
def walkLoop (E : CutEnv) (actSurf : Int) (edgeInd vertInd : List Int) : Nat → Walk → Res Walk
  | 0, _ => .error .diverges
  | n + 1, w =>
    if w.nVert < edgeInd.length + 2 then
      (walkStep E actSurf edgeInd vertInd w).bind fun r =>
      if r.1 then .ok r.2 else walkLoop E actSurf edgeInd vertInd n r.2
    else .ok w

/-- The piece that begins with snaxel edge `ii` (triangulate.cpp:999-1095); `n` bounds the turns.  The
piece, `isSnaxEdgeDone` and `pseudoEdgeInd`. -/
def buildPiece (E : CutEnv) (n : Nat) (index : Int) (ii : Nat) (e : CutEdge) (done : List Bool)
    (pseudo : Int × Int) : Res (TriSurf × List Bool × (Int × Int)) :=
  (isearch Surf.index E.mesh.surfs e.surfind).bind fun s =>
  (concatField E.mesh.edges Edge.vertind (posList Edge.index E.mesh.edges s.edgeind)).bind fun verts =>
  (elemAt E.conn.edges (ii : Int)).bind fun ed =>
  (vecGet ed.vertind 0).bind fun v0 =>
  (walkLoop E e.surfind s.edgeind verts n ⟨v0, 2, e.index, 0, [], pseudo, done⟩).bind fun w =>
  (orderMatch2 [0, w.pseudo.1, w.pseudo.2, 0] s.edgeind w.pseudo.1 w.pseudo.2).bind fun flip =>
  (if flip = -1 then
      (vecGet s.voluind 0).bind fun a => (vecGet s.voluind 1).map fun b =>
        (s.voluind.set 0 b).set 1 a
    else .ok s.voluind).map fun volu =>
  ({ index := index, pts := w.pts, voluind := volu, parentsurfmesh := e.surfind }, w.done.set ii true,
    w.pseudo)

/-- The loop over the edges of the snake (triangulate.cpp:995-1097). -/
def cutLoop (E : CutEnv) : Int → Nat → List CutEdge → List Bool → Int × Int → Res (List TriSurf)
  | _, _, [], _, _ => .ok []
  | index, ii, e :: l, done, pseudo =>
    if done.getD ii false then cutLoop E index (ii + 1) l done pseudo
    else if E.inParent e.surfind then
      (buildPiece E (E.snaxedges.length + ((E.mesh.surfs.map fun s => s.edgeind.length).foldr max 0) + 4)
        (index + 1) ii e done pseudo).bind fun r =>
      (cutLoop E (index + 1) (ii + 1) l r.2.1 r.2.2).map (r.1 :: ·)
    else cutLoop E index (ii + 1) l (done.set ii true) pseudo

/-- `BuildTriSurfGridSnakeIntersect` (triangulate.cpp:976-1098): the `trisurf` it makes. -/
def gridCut (E : CutEnv) : Res (List TriSurf) :=
  cutLoop E 0 0 E.snaxedges (List.replicate E.snaxedges.length false) (0, 0)

end RSVS.Triang
