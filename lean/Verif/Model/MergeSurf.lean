import Verif.Model.Mesh

/-!
# Surfaces of a snake in one cell which share an edge are merged

`IdentifyMergSurfConnec`, `IdentifyMergeSurfGeneral` and `IdentifyMergeSurfRecursive`
(SRCC/src/snake/snakeengine.cpp).  `snaxsurfs` is the list of pairs (index, `voluind`), in the order
of `snakeconn.surfs`; `sibs` is `findsiblings` (its length `countparent`).  `HashedVector::findall`
gives the positions of a key in the order of an `unordered_multimap`, which the standard leaves open:
`findE` and `findS` stand for any order.  The recursion has a number of nested calls allowed; when it
is passed the outcome is `diverges`.
-/

namespace RSVS.MergeSurf

open RSVS.Mesh

/-- `ConnecRemv` with `typeobj` 3; `scopeind` is empty. -/
structure Edit where
  keep : Int
  rmv : List Int
  deriving DecidableEq, Repr

/-- `tempSub`, `tempIndHash.vec` and `edge2Surf.vec`. -/
structure Group where
  sub : List Nat
  vec : List Int
  owner : List Nat
  deriving DecidableEq, Repr

/-- `isObjDone`, `tempCount` and `tempConnec.rmvind`. -/
structure Work where
  done : List Bool
  count : List Nat
  rmv : List Int
  deriving DecidableEq, Repr

/-- `tempSub[edge2Surf.vec[p]]`. -/
def slot (g : Group) (p : Nat) : Res Nat := (vecGet g.owner p).bind fun k => vecGet g.sub k

/-- `IdentifyMergeSurfRecursive` (snakeengine.cpp:1351-1390). -/
def mergeRec (m : Mesh) (findE : List Int → Int → List Nat) (findS : List Nat → Nat → List Nat) (g : Group) :
    Nat → Work → List Nat → Nat → Res Work
  | 0, _, _, _ => .error .diverges
  | fuel + 1, w, ps, ex =>
    ps.foldlM (m := Except Fault) (fun (w : Work) (p : Nat) =>
      if p ≠ ex then
        (slot g p).bind fun i => (vecGet w.done i).bind fun d =>
        if !d then
          (elemAt m.surfs i).bind fun x => (vecGet g.owner p).bind fun k =>
          (findS g.owner k).foldlM (m := Except Fault) (fun (w : Work) (q : Nat) =>
            (vecGet w.count q).bind fun c =>
            if c > 1 then
              (vecGet g.vec q).bind fun e =>
              mergeRec m findE findS g fuel { w with count := w.count.set q 0 } (findE g.vec e) q
            else .ok w)
            { done := w.done.set i true, count := w.count.set p 0, rmv := w.rmv ++ [x.index] }
        else .ok w
      else .ok w) w

/-- What `IdentifyMergeSurfGeneral` changes: `isObjDone`, `tempCount` and `connecEdit`. -/
structure Merged where
  done : List Bool
  count : List Nat
  edits : List Edit
  deriving DecidableEq, Repr

/-- One turn of the loop over `jjStart` (snakeengine.cpp:1313-1343); a place whose count is not above
1 is passed over by the loops at 1304-1307 and 1339-1342. -/
def startStep (m : Mesh) (findE : List Int → Int → List Nat) (findS : List Nat → Nat → List Nat) (g : Group)
    (a : Merged) (j : Nat) : Res Merged :=
  (vecGet a.count j).bind fun c =>
  if c ≤ 1 then .ok a
  else
    (vecGet g.vec j).bind fun e => (slot g j).bind fun i => (elemAt m.surfs i).bind fun x =>
    (mergeRec m findE findS g (a.done.length + 1) { done := a.done.set i true, count := a.count.set j 0, rmv := [] }
      (findE g.vec e) j).map fun w =>
      { done := w.done, count := w.count
        edits := if w.rmv.length > 0 then a.edits ++ [⟨x.index, sortUnique w.rmv⟩] else a.edits }

/-- `edge2Surf.vec` (snakeengine.cpp:1285-1291). -/
def ownersOf (m : Mesh) (sub : List Nat) : Res (List Nat) :=
  (List.range sub.length).foldlM (m := Except Fault) (fun (acc : List Nat) (ii : Nat) =>
    (vecGet sub ii).bind fun p => (elemAt m.surfs p).map fun x => acc ++ List.replicate x.edgeind.length ii) []

/-- `IdentifyMergeSurfGeneral` (snakeengine.cpp:1274-1349). -/
def mergeGeneral (m : Mesh) (findE : List Int → Int → List Nat) (findS : List Nat → Nat → List Nat)
    (done : List Bool) (edits : List Edit) (sub : List Nat) : Res (List Bool × List Edit) :=
  (concatField m.surfs Surf.edgeind (sub.map fun p : Nat => (p : Int))).bind fun vec => (ownersOf m sub).bind fun owner =>
  ((List.range vec.length).foldlM (m := Except Fault) (startStep m findE findS ⟨sub, vec, owner⟩)
    { done := done, count := (vec.map fun e => (findE vec e).length) ++ [0], edits := edits }).map fun r => (r.done, r.edits)

/-- `IdentifyMergSurfConnec` (snakeengine.cpp:1241-1272). -/
def identifyMergSurf (m : Mesh) (snaxsurfs : List (Int × Int)) (sibs : Int → List Nat)
    (findE : List Int → Int → List Nat) (findS : List Nat → Nat → List Nat) : Res (List Edit) :=
  ((List.range snaxsurfs.length).foldlM (m := Except Fault) (fun (a : List Bool × List Edit) (ii : Nat) =>
    (vecGet a.1 ii).bind fun d =>
    if !d then
      (elemAt snaxsurfs ii).bind fun x =>
      (if (sibs x.2).length > 1 then mergeGeneral m findE findS a.1 a.2 (sibs x.2) else .ok a).map fun r => (r.1.set ii true, r.2)
    else .ok a)
    (List.replicate snaxsurfs.length false, [])).map Prod.snd

end RSVS.MergeSurf
