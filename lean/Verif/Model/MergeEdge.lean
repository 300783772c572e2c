import Verif.Model.Mesh

/-!
# Edges of a snake in one surface of the parent which follow each other are merged

`IdentifyMergEdgeConnec`, `IdentifyMergeEdgeGeneral` and `IdentifyMergeEdgeGeneralChain`
(SRCC/src/snake/snakeengine.cpp:1041-1239).  `snaxedges` is the list of pairs (index, `surfind`) in the
order of `snakeconn.edges`; `sibs` is `findsiblings` (its length `countparent`), and `find` is
`HashedVector::findall`, in any order.  The displays of the case of more than two edges are left out.
Walks and loops have a number of turns allowed; when it is passed the outcome is `diverges`.
-/

namespace RSVS.MergeEdge

open RSVS.Mesh

/-- The two `ConnecRemv` which are pushed together: `typeobj` 2 with `keepE` and `rmvE` (its `scopeind`
is empty), and `typeobj` 5 with `keepV`, `rmvV` and `scope`. -/
structure PathEdit where
  keepE : Int
  rmvE : List Int
  keepV : Int
  rmvV : List Int
  scope : List Int
  deriving DecidableEq, Repr

/-- `tempSub` and `tempIndHash.vec`. -/
structure Ends where
  sub : List Nat
  vec : List Int
  deriving DecidableEq, Repr

/-- `isObjDone`, `tempCount`, the `rmvind` of the edges and of the vertices, and `jjNext`. -/
structure Walk where
  done : List Bool
  count : List Nat
  rmvE : List Int
  rmvV : List Int
  next : Nat
  deriving DecidableEq, Repr

/-- `jj + (1 - ((jj % 2) * 2))`: the other end of the edge (snakeengine.cpp:1149, 1231). -/
def flip (p : Nat) : Nat := if p % 2 = 0 then p + 1 else p - 1

/-- `while (jj < 4 && tempSub2[jj] == jjNext) ++jj` (snakeengine.cpp:1198-1201); the first number is 4 - jj. -/
def firstOther (ps : List Nat) (next : Nat) : Nat → Nat → Res Nat
  | 0, jj => .ok jj
  | n + 1, jj => (vecGet ps jj).bind fun p => if p = next then firstOther ps next n (jj + 1) else .ok jj

/-- `while ((tempSub2[jj] == jjNext || tempCount[tempSub2[jj]] < 3) && jj < 4) ++jj`
(snakeengine.cpp:1205-1208 and 1210-1213); the first number is 4 - jj. -/
def firstThree (count : List Nat) (ps : List Nat) (next : Nat) : Nat → Nat → Res Nat
  | n, jj => (vecGet ps jj).bind fun p =>
    (if p = next then .ok true else (vecGet count p).map fun c => decide (c < 3)).bind fun b =>
    if b then
      match n with
      | 0 => .ok jj
      | n + 1 => firstThree count ps next n (jj + 1)
    else .ok jj

/-- The choice of the next place (snakeengine.cpp:1194-1226): the counts and the place in `ps`. -/
def choose (count : List Nat) (ps : List Nat) (next : Nat) (three : Bool) : Res (List Nat × Nat) :=
  (if !three then (firstOther ps next 4 0).map fun jj => (count, jj)
   else (firstThree count ps next 4 0).bind fun jj => (vecGet ps jj).bind fun p =>
     (vecGet count p).bind fun _ =>
     (firstThree (count.set p 1) ps next (4 - jj) jj).map fun jj => (count.set p 1, jj)).bind fun r =>
  if r.2 > 2 then .error .throws
  else (vecGet ps r.2).map fun q => (r.1, q)

/-- The loop of `IdentifyMergeEdgeGeneralChain` (snakeengine.cpp:1151-1232). -/
def walk (snaxedges : List (Int × Int)) (find : List Int → Int → List Nat) (g : Ends) : Nat → Walk → Res Walk
  | 0, _ => .error .diverges
  | fuel + 1, w =>
    (vecGet w.count w.next).bind fun c =>
    if c > 1 then
      (vecGet g.vec w.next).bind fun v =>
      (choose (w.count.set w.next 0) (find g.vec v) w.next (decide (c = 3))).bind fun r =>
      (vecGet g.sub (r.2 / 2 : Nat)).bind fun i => (elemAt snaxedges i).bind fun x => (vecGet w.done i).bind fun _ =>
      (vecGet r.1 r.2).bind fun _ =>
      walk snaxedges find g fuel
        { done := w.done.set i true, count := r.1.set r.2 0, rmvE := w.rmvE ++ [x.1],
          rmvV := if c = 3 then w.rmvV else w.rmvV ++ [v], next := flip r.2 }
    else .ok w

/-- What `IdentifyMergeEdgeGeneral` changes: `isObjDone`, `tempCount` and `connecEdit`. -/
structure Joined where
  done : List Bool
  count : List Nat
  edits : List PathEdit
  deriving DecidableEq, Repr

/-- `IdentifyMergeEdgeGeneralChain` (snakeengine.cpp:1132-1239). -/
def chainFrom (snaxedges : List (Int × Int)) (find : List Int → Int → List Nat) (g : Ends) (scope : List Int)
    (a : Joined) (s : Nat) : Res Joined :=
  (vecGet g.sub (s / 2 : Nat)).bind fun i => (elemAt snaxedges i).bind fun x => (vecGet a.done i).bind fun _ =>
  (walk snaxedges find g (g.vec.length + 1)
    { done := a.done.set i true, count := a.count.set s 0, rmvE := [], rmvV := [], next := flip s }).bind fun w =>
  (vecGet g.vec w.next).map fun v =>
    { done := w.done, count := w.count
      edits := if w.rmvE.length > 0 then a.edits ++ [⟨x.1, w.rmvE, v, w.rmvV, scope⟩] else a.edits }

/-- The loops over `jjStart` (snakeengine.cpp:1093-1108 with `c` 1, 1110-1129 with `c` 2): each turn starts
at the first place whose count is `c`. -/
def phase (snaxedges : List (Int × Int)) (find : List Int → Int → List Nat) (g : Ends) (scope : List Int) (c : Nat) :
    Nat → Joined → Res Joined
  | 0, _ => .error .diverges
  | fuel + 1, a =>
    match (List.range g.vec.length).find? fun p => a.count[p]? == some c with
    | none => .ok a
    | some s => (chainFrom snaxedges find g scope a s).bind (phase snaxedges find g scope c fuel)

/-- `IdentifyMergeEdgeGeneral` (snakeengine.cpp:1073-1130). -/
def mergeEdges (m : Mesh) (snaxedges : List (Int × Int)) (find : List Int → Int → List Nat)
    (done : List Bool) (edits : List PathEdit) (sub : List Nat) : Res (List Bool × List PathEdit) :=
  (concatField m.edges Edge.vertind (sub.map fun p : Nat => (p : Int))).bind fun vec =>
  (sub.mapM (m := Except Fault) fun p : Nat => (elemAt snaxedges p).map Prod.fst).bind fun scope =>
  (phase snaxedges find ⟨sub, vec⟩ scope 1 (vec.length + 2)
    { done := done, count := (vec.map fun v => (find vec v).length) ++ [0], edits := edits }).bind fun a =>
  (phase snaxedges find ⟨sub, vec⟩ scope 2 (vec.length + 2) a).map fun a => (a.done, a.edits)

/-- `IdentifyMergEdgeConnec` (snakeengine.cpp:1041-1071). -/
def identifyMergEdge (m : Mesh) (snaxedges : List (Int × Int)) (sibs : Int → List Nat)
    (find : List Int → Int → List Nat) : Res (List PathEdit) :=
  ((List.range snaxedges.length).foldlM (m := Except Fault) (fun (a : List Bool × List PathEdit) (ii : Nat) =>
    (vecGet a.1 ii).bind fun d =>
    if !d then
      (elemAt snaxedges ii).bind fun x =>
      (if (sibs x.2).length > 1 then mergeEdges m snaxedges find a.1 a.2 (sibs x.2) else .ok a).map fun r => (r.1.set ii true, r.2)
    else .ok a)
    (List.replicate snaxedges.length false, [])).map Prod.snd

end RSVS.MergeEdge
