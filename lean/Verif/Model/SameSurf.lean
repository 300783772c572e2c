import Verif.Model.MergeEdge

/-!
# Edges of a snake in one surface of the parent and on one surface of the snake

`IdentifyMergEdgeSameSurfConnec` and `IndentifyEdgeSameSurf` (SRCC/src/snake/snakeengine.cpp:939-1039).
`snaxedges`, `sibs` and `find` are as in `Verif.Model.MergeEdge`; `memberIsHashParent` asks whether the
position is one of the siblings.
-/

namespace RSVS.SameSurf

open RSVS.Mesh RSVS.MergeEdge

/-- `edge2Surf.vec` (snakeengine.cpp:1006-1012). -/
def edgeOwners (m : Mesh) (sub : List Nat) : Res (List Nat) :=
  (List.range sub.length).foldlM (m := Except Fault) (fun (acc : List Nat) (ii : Nat) =>
    (vecGet sub ii).bind fun p => (elemAt m.edges p).map fun x => acc ++ List.replicate x.surfind.length ii) []

/-- `while (tempCount[stepCheck] < 2 && stepCheck <= nTemp) stepCheck++` (snakeengine.cpp:1025-1028). -/
def scan (count : List Nat) (nTemp : Nat) : Nat → Nat → Res Nat
  | 0, _ => .error .diverges
  | fuel + 1, k => (vecGet count k).bind fun c => if c < 2 ∧ k ≤ nTemp then scan count nTemp fuel (k + 1) else .ok k

/-- `IndentifyEdgeSameSurf` (snakeengine.cpp:993-1039), called with `stepCheck` 0: the step and `tempSub2`,
which keeps what it had (`prev`) when there is no shared surface. -/
def sameSurf (m : Mesh) (snaxedges : List (Int × Int)) (sibs : Int → List Nat) (find : List Int → Int → List Nat)
    (prev : List Nat) (ii : Nat) : Res (Nat × List Nat) :=
  (elemAt snaxedges ii).bind fun x =>
  (concatField m.edges Edge.surfind ((sibs x.2).map fun p : Nat => (p : Int))).bind fun vec =>
  (edgeOwners m (sibs x.2)).bind fun owner =>
  (elemAt m.edges ii).bind fun e =>
  (scan ((e.surfind.map fun s => (find vec s).length) ++ [0]) e.surfind.length (e.surfind.length + 3) 0).bind fun k =>
  if k < e.surfind.length then
    (vecGet e.surfind k).bind fun s =>
    ((find vec s).mapM (m := Except Fault) fun p : Nat => (vecGet owner p).bind fun o => vecGet (sibs x.2) o).map fun l => (k, l)
  else .ok (k, prev)

/-- `isAnyDone` (snakeengine.cpp:972-977). -/
def anyDone (done : List Bool) (l : List Nat) : Res Bool :=
  l.foldlM (m := Except Fault) (fun (b : Bool) (p : Nat) => if b then .ok true else vecGet done p) false

/-- One turn of the loop over the edges (snakeengine.cpp:960-987): `isObjDone`, `connecEdit` and `tempSub2`. -/
def sameStep (m : Mesh) (snaxedges : List (Int × Int)) (sibs : Int → List Nat) (find : List Int → Int → List Nat)
    (a : List Bool × List PathEdit × List Nat) (ii : Nat) : Res (List Bool × List PathEdit × List Nat) :=
  (vecGet a.1 ii).bind fun d =>
  if !d then
    (elemAt snaxedges ii).bind fun x =>
    (if ii ∈ sibs x.2 ∧ (sibs x.2).length > 1 then
      (elemAt m.edges ii).bind fun e =>
      (sameSurf m snaxedges sibs find a.2.2 ii).bind fun r =>
      (anyDone a.1 r.2).bind fun b =>
      if r.1 < e.surfind.length && !b then
        (mergeEdges m snaxedges find a.1 a.2.1 r.2).map fun q => (q.1, q.2, r.2)
      else .ok (a.1, a.2.1, r.2)
    else .ok a).map fun q => (q.1.set ii true, q.2)
  else .ok a

/-- `IdentifyMergEdgeSameSurfConnec` (snakeengine.cpp:939-991); `three` is `Check3D`. -/
def mergSameSurf (three : Bool) (m : Mesh) (snaxedges : List (Int × Int)) (sibs : Int → List Nat)
    (find : List Int → Int → List Nat) : Res (List PathEdit) :=
  if three then
    ((List.range snaxedges.length).foldlM (m := Except Fault) (sameStep m snaxedges sibs find)
      (List.replicate snaxedges.length false, [], [])).map fun r => r.2.1
  else .ok []

end RSVS.SameSurf
