import Verif.Model.SnakeMotion

/-!
# The order on an edge after new snaxels came

`snaxarray::ReorderOnEdge` (SRCC/src/snake/snake.cpp:1071-1137), the only function that keeps `orderedge` while the snake moves (it is
called by `snaxarray::PrepareForUse`, snake.cpp:209-217).  New snaxels have the number -1 (snake.cpp:593).

Simplifications as for `orderOnEdge`: `double` is an element of an ordered field and `subs e` is what the multimap `hashParent` gives for the
edge `e` (property C04).  Messages are left out; a position outside of `elems` is undefined behaviour.
-/

namespace RSVS.Reorder

variable {K : Type} [Field K] [LinearOrder K]

/-- A change of the element at a position of a `std::vector`. -/
def change (l : List (Snax K)) (p : Nat) (f : Snax K → Snax K) : Res (List (Snax K)) := if p < l.length then .ok (l.modify p f) else .error .ub

/-- The number of the element at a position. -/
def ordAt (l : List (Snax K)) (p : Nat) : Res Int :=
  match l[p]? with
  | none => .error .ub
  | some s => .ok s.orderedge

/-- The largest number on the edge (snake.cpp:1091-1095). -/
def maxStep (l : List (Snax K)) (m : Int) (p : Nat) : Res Int := (ordAt l p).map fun o => if m ≤ o then o else m

/-- The number of a new snaxel (snake.cpp:1100-1110). -/
def placeNew (maxOrd : Int) (s : Snax K) : Snax K :=
  let isBwd := decide (s.fromvert > s.tovert)
  { s with orderedge := if isBwd ∧ s.d = 0 then maxOrd + 1 else if ¬ isBwd ∧ s.d = 0 then 0
      else if isBwd ∧ s.d = 1 then 0 else if ¬ isBwd ∧ s.d = 1 then maxOrd + 1 else s.orderedge }

/-- One snaxel of the edge; the second part of the state is `needIncrement` (snake.cpp:1096-1120). -/
def newStep (maxOrd : Int) (x : List (Snax K) × Bool) (p : Nat) : Res (List (Snax K) × Bool) :=
  (ordAt x.1 p).bind fun o =>
  if o = -1 then (change x.1 p (placeNew maxOrd)).bind fun l => (ordAt l p).map fun o => (l, x.2 || decide (o = 0))
  else .ok x

/-- `elems[snaxSubs[jj]].orderedge++` (snake.cpp:1123-1126). -/
def incStep (l : List (Snax K)) (p : Nat) : Res (List (Snax K)) := change l p fun s => { s with orderedge := s.orderedge + 1 }

/-- One edge (snake.cpp:1082-1133). -/
def reorderOne (subs : List Nat) (l : List (Snax K)) : Res (List (Snax K)) :=
  if subs.length > 1 then
    (subs.foldlM (m := Except Fault) (maxStep l) 0).bind fun maxOrd =>
    (subs.foldlM (m := Except Fault) (newStep maxOrd) (l, false)).bind fun x =>
    if x.2 then subs.foldlM (m := Except Fault) incStep x.1 else .ok x.1
  else
    match subs with
    | [] => .error .ub
    | p :: _ => change l p fun s => { s with orderedge := 1 }

/-- `snaxarray::ReorderOnEdge` (snake.cpp:1071-1137): the edges in increasing order, each once. -/
def reorderOnEdge (subs : Int → List Nat) (l : List (Snax K)) : Res (List (Snax K)) :=
  (((l.map Snax.edgeind).insertionSort (· ≤ ·)).dedup).foldlM (m := Except Fault) (fun l e => reorderOne (subs e) l) l

end RSVS.Reorder
