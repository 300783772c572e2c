import Verif.Model.Mesh

/-!
# Surfaces of a flat snake which share an edge are merged, and the check of the edges to remove

`ModifyMergSurf2DConnec` (SRCC/src/snake/snakeengine.cpp:1443-1499) and `CheckSnakeRemovalsEdge`
(1512-1593).  The printing is left out: the check gives the edges it reports.
-/

namespace RSVS.Surf2D

open RSVS.Mesh

/-- `ConnecRemv` with `typeobj` 3; `scopeind` is empty. -/
structure SurfEdit where
  keep : Int
  rmv : List Int
  deriving DecidableEq, Repr

/-- The variables of the loop at snakeengine.cpp:1473-1485. -/
structure Pick where
  nAbove : Nat := 0
  keep : Int := -1
  rmv : List Int := []

/-- One turn of the loop at snakeengine.cpp:1473-1485. -/
def pickStep (p : Pick) (s : Int) : Pick :=
  let n := p.nAbove + if s > 0 then 1 else 0
  if p.nAbove = 0 then ⟨n, s, p.rmv⟩
  else if s ≠ 0 ∧ s ≠ p.keep then ⟨n, p.keep, p.rmv ++ [s]⟩
  else ⟨n, p.keep, p.rmv⟩

/-- One turn of the loop over the edges (snakeengine.cpp:1457-1497). -/
def surfStep (a : Mesh × List SurfEdit) (ii : Nat) : Res (Mesh × List SurfEdit) :=
  (elemAt a.1.edges ii).bind fun x =>
  if x.surfind.length > 1 then
    if (x.surfind.filter fun s => decide (s > 0)).length > 1 then
      let p := x.surfind.foldl pickStep {}
      (p.rmv.foldlM (m := Except Fault) (fun (m : Mesh) (c : Int) => m.switchSurf c p.keep) a.1).map fun m => (m, a.2 ++ [⟨p.keep, p.rmv⟩])
    else .ok a
  else .ok a

/-- `ModifyMergSurf2DConnec` (snakeengine.cpp:1443-1499): the mesh and what is pushed on `connecEdit`. -/
def modifyMergSurf2D (m : Mesh) : Res (Mesh × List SurfEdit) :=
  (List.range m.edges.length).foldlM (m := Except Fault) surfStep (m, [])

/-- The search of the first entry which differs from the first one (snakeengine.cpp:1530-1539 and
1549-1558): the flag left by the loop. -/
def differs (l : List Int) : Bool :=
  match l with
  | [] => false
  | k :: l => (k :: l).any fun x => decide (k ≠ x)

/-- One turn of the loop of `CheckSnakeRemovalsEdge` (snakeengine.cpp:1521-1573). -/
def checkStep (m : Mesh) (reported : List Int) (e : Int) : Res (List Int) :=
  (elemAt m.edges (posOf Edge.index m.edges e)).map fun x =>
  let cond1vert : Bool := if x.vertind.length > 1 then differs x.vertind else true
  let cond1surf : Bool := if x.surfind.length > 1 then differs x.surfind else false
  if !(cond1surf || cond1vert) then reported ++ [e] else reported

/-- `CheckSnakeRemovalsEdge` (snakeengine.cpp:1512-1593): the edges reported as "connected to more than 1
Surface and edge". -/
def checkRemovalsEdge (m : Mesh) (rmvEdge : List Int) : Res (List Int) :=
  rmvEdge.foldlM (m := Except Fault) (checkStep m) []

end RSVS.Surf2D
