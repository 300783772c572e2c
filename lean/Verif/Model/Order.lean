import Mathlib.Data.List.Basic
import Verif.Model.Hash
import Verif.Model.Mesh

/-!
# Ordering of edge lists

`OrderList` and `OrderEdgeList` (SRCC/src/grid/mesh.cpp:3287-3563), `vert::OrderEdges`
(mesh.cpp:3565-3617), the list part of `surf::OrderEdges` (mesh.cpp:3663-3693),
`surf::OrderedVerts` (mesh.cpp:3808-3854), `ConnVertFromConnEdge` (mesh.cpp:6218-6253),
`OrderMatchLists` (mesh.cpp:6052-6216), `EdgeFromVerts` and `SurfFromEdges` (mesh.cpp:5842-5916).
-/

namespace RSVS.Order

open RSVS.Mesh

/-! ### The walk along the edges -/

/-- State of the loop: positions with `isDone`, `vertCurr`, `edgeCurr`, the part of `edgeind` set
so far (entries 0 to `ii - 1`) and `endsExpl`. -/
structure Walk where
  done : List Nat
  vert : Int
  edge : Int
  found : List Int
  ends : Bool
  deriving DecidableEq, Repr

/-- `vert2Edge.count(vertCurr)`. -/
def keyCount (t : Table) (v : Int) : Nat := (t.filter (fun p => p.1 == v)).length

/-- The test for a vertex with one edge (mesh.cpp:3480-3510): an error if `errout`, the first time
the other end of the first edge, the second time the exit (`none`). -/
def deadEnd (t : Table) (e2v : List Int) (errout : Bool) (s : Walk) : Res (Option Walk) :=
  if keyCount t s.vert = 1 then
    if errout then .error .throws
    else if s.ends then .ok none
    else do
      let v ← vecGet e2v 1
      let e ← vecGet s.found 0
      pure (some { s with vert := v, edge := e, ends := true })
  else .ok (some s)

/-- The iterator into the table (mesh.cpp:3511-3540): `range.first`, or the entry after it if
`range.first` is on the current edge.  The increment is not checked against the end of the range:
the next entry may belong to another key, and there may be none. -/
def nextEntry (t : Table) (orig : List Int) (s : Walk) : Res Nat :=
  match fromKey t s.vert with
  | [] => .error .throws
  | (_, p) :: rest => do
    let o ← vecGet orig ((p / 2 : Nat) : Int)
    if o = s.edge then
      match rest with
      | [] => .error .ub
      | (_, q) :: _ => .ok q
    else .ok p

/-- `jj = edge2Vert[(q/2)*2] == vertCurr; vertCurr = edge2Vert[(q/2)*2 + jj];`
(mesh.cpp:3547-3548). -/
def otherEnd (e2v : List Int) (k : Nat) (v : Int) : Res Int := do
  let a ← vecGet e2v ((2 * k : Nat) : Int)
  vecGet e2v ((2 * k + (if a = v then 1 else 0) : Nat) : Int)

/-- The loop `for (ii = 1; ii < edgeind.size(); ++ii)` (mesh.cpp:3477-3562).  `full` is `edgeind`
at the start of the loop.  The result is the final `edgeind` and the value returned: 0 for
`ordered`, 1 for `truncated`, `-ii` for `open * ii`. -/
def orderLoop (t : Table) (orig e2v full : List Int) (errout : Bool) : Nat → Walk →
    Res (List Int × Int)
  | 0, s => .ok (s.found, 0)
  | k + 1, s => do
    let r ← deadEnd t e2v errout s
    match r with
    | none => .ok (s.found ++ full.drop s.found.length, -(s.found.length : Int))
    | some s => do
      let q ← nextEntry t orig s
      let e ← vecGet orig ((q / 2 : Nat) : Int)
      if s.done.contains (q / 2) then
        if s.ends then .ok (s.found ++ full.drop s.found.length, -(s.found.length : Int))
        else .ok (s.found, 1)
      else do
        let v ← otherEnd e2v (q / 2) s.vert
        orderLoop t orig e2v full errout k
          { done := (q / 2) :: s.done, vert := v, edge := e, found := s.found ++ [e],
            ends := s.ends }

/-- `OrderList` with `edgeIndOrigPtr` given (mesh.cpp:3449-3563).  `t` is the hash table of
`edge2Vert`, in any order C++ may use. -/
def orderListPtr (t : Table) (edgeind orig e2v : List Int) (errout : Bool) :
    Res (List Int × Int) :=
  match edgeind with
  | [] => .ok ([], 0)
  | e0 :: _ => do
    let _ ← vecGet orig 0
    let v ← vecGet e2v 0
    orderLoop t orig e2v edgeind errout (edgeind.length - 1)
      { done := [0], vert := v, edge := e0, found := [e0], ends := false }

/-- `OrderList` with `edgeIndOrigPtr == NULL`: the list is sorted and made unique, `edge2Vert`
is used as it is. -/
def orderList (t : Table) (edgeind e2v : List Int) (errout : Bool) : Res (List Int × Int) :=
  orderListPtr t (sortUnique edgeind) (sortUnique edgeind) e2v errout

/-- `OrderEdgeList` with `edgeIndOrigPtr` given (mesh.cpp:3287-3429): the same loop; `edge2Vert`
is read from the mesh.  `tab l` is the hash table of `l`. -/
def orderEdgeList (tab : List Int → Table) (m : Mesh) (edgeind orig : List Int) (errout : Bool) :
    Res (List Int × Int) :=
  match edgeind with
  | [] => .ok ([], 0)
  | _ :: _ => do
    let e2v ← concatField m.edges Edge.vertind (posList Edge.index m.edges edgeind)
    orderListPtr (tab e2v) edgeind orig e2v errout

/-- The list part of `surf::OrderEdges` (mesh.cpp:3678-3697): the surface, and the list returned
by `OrderEdgeList` with its flag. -/
def surfOrderEdges (tab : List Int → Table) (m : Mesh) (s : Surf) : Res (List Int × Int) :=
  orderEdgeList tab m (sortUnique s.edgeind) (sortUnique s.edgeind) true

/-- The pairs of surfaces of the edges of a vertex (mesh.cpp:3583-3592); `none` if an edge does
not have two surfaces. -/
def surfPairs (m : Mesh) : List Int → Res (Option (List Int))
  | [] => .ok (some [])
  | e :: es => do
    let x ← isearch Edge.index m.edges e
    if x.surfind.length ≠ 2 then .ok none
    else do
      let r ← surfPairs m es
      pure (r.map (x.surfind ++ ·))

/-- The end of `vert::OrderEdges` (mesh.cpp:3594-3599). -/
def vertOrderRun (tab : List Int → Table) (l e2v : List Int) : Res (List Int × Int) := do
  let r ← orderListPtr (tab e2v) l l e2v false
  pure (if r.2 ≠ 0 then (l, r.2) else r)

/-- `vert::OrderEdges` (mesh.cpp:3565-3602): the list and the value returned (2 for `error`). -/
def vertOrderEdges (tab : List Int → Table) (m : Mesh) (v : Vert) : Res (List Int × Int) :=
  if (sortUnique v.edgeind).length < 2 then .ok (sortUnique v.edgeind, 2)
  else do
    let r ← surfPairs m (sortUnique v.edgeind)
    match r with
    | none => .ok (sortUnique v.edgeind, 2)
    | some e2v => vertOrderRun tab (sortUnique v.edgeind) e2v

/-! ### Vertices of an ordered list of edges -/

/-- `vertind[0]` and `vertind[1]` of an edge. -/
def endsOf (m : Mesh) (e : Int) : Res (Int × Int) := do
  let x ← elemAt m.edges (posOf Edge.index m.edges e)
  let a ← vecGet x.vertind 0
  let b ← vecGet x.vertind 1
  pure (a, b)

/-- The choice of the vertex (mesh.cpp:3826-3846). -/
def sharedVert (past now : Int × Int) : Res Int :=
  if now.1 = past.1 ∨ now.2 = past.1 then .ok past.1
  else if now.1 = past.2 ∨ now.2 = past.2 then .ok past.2
  else .error .throws

def orderedVertsLoop (m : Mesh) : Int × Int → List Int → Res (List Int)
  | _, [] => .ok []
  | past, e :: es => do
    let now ← endsOf m e
    let v ← sharedVert past now
    let r ← orderedVertsLoop m now es
    pure (v :: r)

/-- `surf::OrderedVerts` (mesh.cpp:3808-3854); `edgeind[n - 1]` of an empty list is undefined. -/
def orderedVerts (m : Mesh) (edgeind : List Int) : Res (List Int) := do
  let l ← vecGet edgeind ((edgeind.length : Int) - 1)
  let past ← endsOf m l
  orderedVertsLoop m past edgeind

/-- `edges.isearch(e)->vertind[ll]`. -/
def pick (ll : Bool) (p : Int × Int) : Int := if ll then p.2 else p.1

/-- The loop of `ConnVertFromConnEdge` (mesh.cpp:6239-6252). -/
def connVertLoop (m : Mesh) : Bool → List Int → Res (List Int)
  | _, [] => .ok []
  | ll, [e] => do
    let x ← endsOf m e
    pure [pick ll x]
  | ll, e :: f :: es => do
    let x ← endsOf m e
    let y ← endsOf m f
    let r ← connVertLoop m (if x.1 = pick ll y ∨ x.2 = pick ll y then !ll else ll) (f :: es)
    pure (pick ll x :: r)

/-- `ConnVertFromConnEdge` (mesh.cpp:6218-6253) with `vertind` empty: the first two edges are read
before the loop. -/
def connVert (m : Mesh) (edgeind : List Int) : Res (List Int) := do
  let e ← vecGet edgeind 0
  let f ← vecGet edgeind 1
  let x ← endsOf m e
  let y ← endsOf m f
  connVertLoop m (if x.1 = y.1 ∨ x.1 = y.2 then false else true) edgeind

/-! ### Orientation -/

/-- The loop of `OrderMatchLists` (mesh.cpp:6057-6069): `ord1` and `kk`, from position `ii`. -/
def matchLoop (p1 p2 : Int) : Int → List Int → Int × Nat
  | _, [] => (0, 0)
  | ii, x :: xs =>
    if x = p1 then ((matchLoop p1 p2 (ii + 1) xs).1 + ii, (matchLoop p1 p2 (ii + 1) xs).2 + 1)
    else if x = p2 then
      ((matchLoop p1 p2 (ii + 1) xs).1 - ii, (matchLoop p1 p2 (ii + 1) xs).2 + 1)
    else matchLoop p1 p2 (ii + 1) xs

/-- The two tests after the loop (mesh.cpp:6070-6077). -/
def wrapSign (o : Int) : Int :=
  if (if o > 1 then -1 else o) < -1 then 1 else (if o > 1 then -1 else o)

/-- `OrderMatchLists` with one list (mesh.cpp:6052-6079). -/
def orderMatch (l : List Int) (p1 p2 : Int) : Int × Nat :=
  (wrapSign (matchLoop p1 p2 0 l).1, (matchLoop p1 p2 0 l).2)

/-- `OrderMatchLists_old` (mesh.cpp:6081-6163). -/
def orderMatch2Old (l1 l2 : List Int) (p1 p2 : Int) : Res Int :=
  if (matchLoop p1 p2 0 l1).2 ≠ 2 then .error .throws
  else if (matchLoop p1 p2 0 l2).2 ≠ 2 then .error .throws
  else .ok (if wrapSign (matchLoop p1 p2 0 l1).1 = wrapSign (matchLoop p1 p2 0 l2).1 then 1 else -1)

/-- `OrderMatchLists` with two lists (mesh.cpp:6165-6216), with the `SAFE_ALGO` comparison. -/
def orderMatch2 (l1 l2 : List Int) (p1 p2 : Int) : Res Int :=
  if (orderMatch l1 p1 p2).2 ≠ 2 then .error .throws
  else if (orderMatch l2 p1 p2).2 ≠ 2 then .error .throws
  else do
    let old ← orderMatch2Old l1 l2 p1 p2
    if (if (orderMatch l1 p1 p2).1 = (orderMatch l2 p1 p2).1 then 1 else -1) ≠ old then
      .error .throws
    else .ok (if (orderMatch l1 p1 p2).1 = (orderMatch l2 p1 p2).1 then 1 else -1)

/-! ### Connecting elements -/

/-- The loop of `mesh::EdgeFromVerts` (mesh.cpp:5849-5857). -/
def edgeSearch (m : Mesh) (v1 v2 : Int) : List Int → Res Int
  | [] => .ok (-1)
  | e :: es => do
    let x ← isearch Edge.index m.edges e
    let a ← vecGet x.vertind 0
    let b ← vecGet x.vertind 1
    if (a = v1 ∧ b = v2) ∨ (b = v1 ∧ a = v2) then .ok e else edgeSearch m v1 v2 es

/-- `mesh::EdgeFromVerts` (mesh.cpp:5842-5860). -/
def edgeFromVerts (m : Mesh) (v1 v2 : Int) : Res Int := do
  let x1 ← isearch Vert.index m.verts v1
  let x2 ← isearch Vert.index m.verts v2
  edgeSearch m v1 v2 (if x1.edgeind.length < x2.edgeind.length then x1.edgeind else x2.edgeind)

/-- The loop of `mesh::SurfFromEdges` (mesh.cpp:5882-5913): `ret` is `retSurf`, -1 until a surface
is found (`prevFind`). -/
def surfSearch (m : Mesh) (eNoExp : Int) (rep : Int) : Option Int → List Int → Res Int
  | ret, [] => .ok (ret.getD (-1))
  | ret, s :: ss => do
    let x ← isearch Surf.index m.surfs s
    if x.edgeind.contains eNoExp then
      if ret.isSome then (if rep = 1 then .ok (-1) else .error .throws)
      else if rep = 0 then .ok s
      else surfSearch m eNoExp rep (some s) ss
    else surfSearch m eNoExp rep ret ss

/-- `mesh::SurfFromEdges` (mesh.cpp:5872-5916). -/
def surfFromEdges (m : Mesh) (e1 e2 rep : Int) : Res Int := do
  let x1 ← isearch Edge.index m.edges e1
  let x2 ← isearch Edge.index m.edges e2
  if x1.surfind.length < x2.surfind.length then surfSearch m e2 rep none x1.surfind
  else surfSearch m e1 rep none x2.surfind

end RSVS.Order
