import Mathlib.Data.List.Basic
import Verif.Model.Mesh

/-!
# Flood fills

`mesh::ConnectedVertex` (SRCC/src/grid/mesh.cpp:4633-4735), `mesh::ConnectedVolumes`
(mesh.cpp:4737-4870) and `snake::FindBlockSnakeMeshVerts`
(SRCC/src/snake/snake.cpp:2625-2733).  The arrays of status and labels are functions of the
position; positions come from `find` and are checked, so they are in range.
-/

namespace RSVS

/-- The variables of the loops: status, label, next queue, number explored. -/
structure FloodState where
  done : Nat → Bool
  label : Nat → Int
  next : List Nat
  count : Nat

/-- Assignment to one entry of an array. -/
def setAt {β : Type} (f : Nat → β) (i : Nat) (b : β) : Nat → β := fun j => if j = i then b else f j

/-- The body of the loop over the current queue (mesh.cpp:4702-4725 and 4826-4863), with the
function which lists the positions pushed on the next queue as a parameter. -/
def floodVisit (nbrs : Nat → Res (List Nat)) (nB : Int) (s : FloodState) (q : Nat) :
    Res FloodState :=
  if s.done q then .ok s
  else do
    let ns ← nbrs q
    pure { done := setAt s.done q true, label := setAt s.label q nB, next := s.next ++ ns,
           count := s.count + 1 }

/-- The outer loop (mesh.cpp:4676-4733 and 4804-4868).  The search of a starting point reads
the status behind the end when there is none (line 4687).  `fuel` bounds the turns and its
exhaustion is reported; `Lemmas/Flood` shows that it does not happen. -/
def floodLoop (nbrs : Nat → Res (List Nat)) (n : Nat) :
    Nat → FloodState → List Nat → Int → Res ((Nat → Int) × Int)
  | 0, _, _, _ => .error .diverges
  | fuel + 1, s, curr, nB =>
    if s.count < n then
      if curr = [] then
        match (List.range n).find? (fun i => !s.done i) with
        | none => .error .ub
        | some i => do
          let s' ← [i].foldlM (floodVisit nbrs (nB + 1)) { s with next := [] }
          floodLoop nbrs n fuel s' s'.next (nB + 1)
      else do
        let s' ← curr.foldlM (floodVisit nbrs nB) { s with next := [] }
        floodLoop nbrs n fuel s' s'.next nB
    else .ok (s.label, nB)

/-- The preparation (mesh.cpp:4638-4673 and 4746-4801): entries with a label other than 0 count
as explored. -/
def floodRun (nbrs : Nat → Res (List Nat)) (n : Nat) (block : List Int) :
    Res (List Int × Int) :=
  if block.length = 0 ∨ block.length = n then do
    let init : Nat → Int := fun i => block.getD i 0
    let s : FloodState :=
      { done := fun i => decide (init i ≠ 0), label := init, next := [],
        count := (List.range n).countP (fun i => decide (init i ≠ 0)) }
    let r ← floodLoop nbrs n (2 * n + 1) s [] 0
    pure ((List.range n).map r.1, r.2)
  else .error .throws

namespace Mesh

/-- The vertex at the other end of an edge (mesh.cpp:4708-4710): `vertind[vertind[0]==v]`, then
its position; a vertex which is not found throws (4711-4721). -/
def otherVert (m : Mesh) (v : Int) (e : Int) : Res Nat := do
  let ed ← isearch Edge.index m.edges e
  let x0 ← vecGet ed.vertind 0
  let x ← vecGet ed.vertind (if x0 = v then 1 else 0)
  let p := posOf Vert.index m.verts x
  if p = -1 then .error .throws else pure p.toNat

/-- What `ConnectedVertex` pushes for the vertex at position `q` (mesh.cpp:4705-4722). -/
def vertNbrs (m : Mesh) (q : Nat) : Res (List Nat) := do
  let v ← elemAt m.verts q
  v.edgeind.mapM (m.otherVert v.index)

/-- `mesh::ConnectedVertex` (mesh.cpp:4633-4735): the labels and the number of blocks. -/
def connectedVertex (m : Mesh) (vertBlock : List Int) : Res (List Int × Int) :=
  floodRun m.vertNbrs m.verts.length vertBlock

/-- One face of the loop of `ConnectedVolumes` (mesh.cpp:4833-4860): nothing is pushed through a
boundary face or to the outside.  An index of a face which is not found is -1; with a boundary
list `boundaryFaces[-1]` is undefined, without one the access throws. -/
def acrossFace (m : Mesh) (bound : List Bool) (c : Int) (s : Int) : Res (List Nat) := do
  let p := posOf Surf.index m.surfs s
  if bound ≠ [] ∧ p < 0 then .error .ub
  else if bound ≠ [] ∧ bound.getD p.toNat false = true then .ok []
  else do
    let f ← elemAt m.surfs p
    let x0 ← vecGet f.voluind 0
    let x ← vecGet f.voluind (if x0 = c then 1 else 0)
    if x = 0 then .ok []
    else
      let q := posOf Volu.index m.volus x
      if q = -1 then .error .throws else .ok [q.toNat]

/-- What `ConnectedVolumes` pushes for the volume at position `q`. -/
def voluNbrs (m : Mesh) (bound : List Bool) (q : Nat) : Res (List Nat) := do
  let c ← elemAt m.volus q
  let l ← c.surfind.mapM (m.acrossFace bound c.index)
  pure l.flatten

/-- `mesh::ConnectedVolumes` (mesh.cpp:4737-4870). -/
def connectedVolumes (m : Mesh) (voluBlock : List Int) (bound : List Bool) :
    Res (List Int × Int) :=
  if voluBlock.length ≠ 0 ∧ voluBlock.length ≠ m.volus.length then .error .throws
  else if bound.length ≠ 0 ∧ bound.length ≠ m.surfs.length then .error .throws
  else floodRun (m.voluNbrs bound) m.volus.length voluBlock

end Mesh

end RSVS

namespace RSVS

/-- The fields of a snaxel used by the flood fill of the snake: `fromvert` and `edgeind`
(snake.hpp:196-198). -/
structure FloodSnax where
  fromvert : Int
  edgeind : Int
  deriving DecidableEq, Repr

/-- The variables of `FindBlockSnakeMeshVerts`.  The count kept in `flood` is not used by the
function, it is only there for the proofs. -/
structure SnakeFloodState where
  flood : FloodState
  snax : Nat → Bool
  explored : Nat

namespace Mesh

/-- `snaxs.findsiblings(edge)` (snakstruct_incl.cpp:153): positions of the snaxels on
the edge. -/
def siblings (snaxs : List FloodSnax) (e : Int) : List Nat :=
  (List.range snaxs.length).filter (fun i => decide (snaxs[i]?.map FloodSnax.edgeind = some e))

/-- Whether an edge is followed: `snaxs.countparent(edge) < 1` (snake.cpp:2687). -/
def freeEdge (snaxs : List FloodSnax) (e : Int) : Bool := decide ((siblings snaxs e).length < 1)

/-- The vertices pushed from the vertex at position `q` (snake.cpp:2684-2709). -/
def snakeNbrs (m : Mesh) (snaxs : List FloodSnax) (q : Nat) : Res (List Nat) := do
  let v ← elemAt m.verts q
  (v.edgeind.filter (freeEdge snaxs)).mapM (m.otherVert v.index)

/-- The snaxels met from the vertex at position `q` (snake.cpp:2710-2722), in order. -/
def snakeMet (m : Mesh) (snaxs : List FloodSnax) (q : Nat) : Res (List Nat) := do
  let v ← elemAt m.verts q
  pure (v.edgeind.flatMap (fun e =>
    (siblings snaxs e).filter (fun i => decide (snaxs[i]?.map FloodSnax.fromvert = some v.index))))

/-- `nVertExplored += !snaxStatus[i]; snaxStatus[i] = true;` (snake.cpp:2718-2719). -/
def markSnax (s : (Nat → Bool) × Nat) (i : Nat) : (Nat → Bool) × Nat :=
  (setAt s.1 i true, s.2 + (if s.1 i then 0 else 1))

/-- The body of the loop over the queue (snake.cpp:2678-2726). -/
def snakeVisit (m : Mesh) (snaxs : List FloodSnax) (nB : Int) (s : SnakeFloodState) (q : Nat) :
    Res SnakeFloodState :=
  if s.flood.done q then .ok s
  else do
    let f ← floodVisit (m.snakeNbrs snaxs) nB s.flood q
    let met ← m.snakeMet snaxs q
    let r := met.foldl markSnax (s.snax, s.explored)
    pure { flood := f, snax := r.1, explored := r.2 }

/-- The outer loop (snake.cpp:2651-2731).  Without an unexplored snaxel `snaxStatus[nSnaxs]` is
read (2663); a vertex which is not found gives position -1 (2671), used at 2680.  The fuel suffices for
every run which ends: a turn which explores no vertex and leaves an empty queue is repeated for
ever. -/
def snakeFloodLoop (m : Mesh) (snaxs : List FloodSnax) :
    Nat → SnakeFloodState → List Nat → Int → Res ((Nat → Int) × Int)
  | 0, _, _, _ => .error .diverges
  | fuel + 1, s, curr, nB =>
    if s.explored < snaxs.length then
      if curr = [] then
        match (List.range snaxs.length).find? (fun i => !s.snax i) with
        | none => .error .ub
        | some i => do
          let x ← vecGet snaxs i
          let p := posOf Vert.index m.verts x.fromvert
          if p < 0 then .error .ub
          else do
            let s' ← [p.toNat].foldlM (m.snakeVisit snaxs (nB + 1))
              { s with flood := { s.flood with next := [] } }
            snakeFloodLoop m snaxs fuel s' s'.flood.next (nB + 1)
      else do
        let s' ← curr.foldlM (m.snakeVisit snaxs nB)
          { s with flood := { s.flood with next := [] } }
        snakeFloodLoop m snaxs fuel s' s'.flood.next nB
    else .ok (s.flood.label, nB)

/-- `snake::FindBlockSnakeMeshVerts` (snake.cpp:2625-2733): labels of the vertices of the
snaking mesh and number of blocks. -/
def findBlockSnakeMeshVerts (m : Mesh) (snaxs : List FloodSnax) : Res (List Int × Int) := do
  let s : SnakeFloodState :=
    { flood := { done := fun _ => false, label := fun _ => 0, next := [], count := 0 },
      snax := fun _ => false, explored := 0 }
  let r ← snakeFloodLoop m snaxs (2 * m.verts.length + 2) s [] 0
  pure ((List.range m.verts.length).map r.1, r.2)

/-- `snake::AssignInternalVerts` (snake.cpp:2609-2624): `isMeshVertIn`. -/
def assignInternalVerts (m : Mesh) (snaxs : List FloodSnax) : Res (List Bool) := do
  let r ← m.findBlockSnakeMeshVerts snaxs
  pure (r.1.map (fun b => decide (b > 0)))

end Mesh

end RSVS
