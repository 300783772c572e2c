import Verif.Model.Mesh

/-!
# `snake::CheckConnectivity`

SRCC/src/snake/snake.cpp:629-795.  Only what is printed is the result, so the model returns what is reported: for each of
the four checks the list of reported positions, and the total of the last line.  `sibs` is `findsiblings` (its length
`countparent`).  Reads which only serve to print a reported element are left out.
-/

namespace RSVS.SnakeCheck

open RSVS RSVS.Mesh

/-- A snaxel, snake edge or snake surface: its index and the edge, surface or volume it is in. -/
structure Part where
  index : Int
  parent : Int
  deriving DecidableEq, Repr

/-- What is printed. -/
structure Report where
  snaxs : List (Nat × Nat)
  counts : List Nat
  edges : List (Nat × Nat)
  surfs : List (Nat × Nat)
  total : Nat
  deriving DecidableEq, Repr

/-- The loops over the parts and their siblings, common to the three checks of pairs (snake.cpp:641-676, 707-738,
750-789): `differ` is the comparison of the indices at two positions, `joined` the loop which sets `isErr`. -/
def pairs (parts : List Part) (sibs : Int → List Nat) (differ joined : Nat → Nat → Res Bool) :
    Res (List (Nat × Nat)) :=
  (List.range parts.length).foldlM (m := Except Fault) (fun acc (ii : Nat) =>
    (elemAt parts (ii : Int)).bind fun x =>
      if 1 < (sibs x.parent).length then
        (sibs x.parent).foldlM (m := Except Fault) (fun acc (jj : Nat) =>
          (differ ii jj).bind fun d =>
            if d = true then (joined ii jj).map fun e => if e = true then acc ++ [(ii, jj)] else acc
            else .ok acc) acc
      else .ok acc) []

/-- The comparison `parts(ii)->index != parts(jj)->index`. -/
def differIn (parts : List Part) (ii jj : Nat) : Res Bool :=
  (elemAt parts (ii : Int)).bind fun a => (elemAt parts (jj : Int)).map fun b => decide (a.index ≠ b.index)

/-- One of the first two entries is `v` (snake.cpp:653-656). -/
def endIs (vertind : List Int) (v : Int) : Res Bool :=
  (vecGet vertind 0).bind fun a => if a = v then .ok true else (vecGet vertind 1).map fun b => decide (b = v)

/-- A loop which stops at the first element for which the test holds. -/
def anyM {α : Type} (f : α → Res Bool) : List α → Res Bool
  | [] => .ok false
  | x :: xs => (f x).bind fun b => if b = true then .ok true else anyM f xs

/-- The loop over the edges of a snaxel (snake.cpp:651-661). -/
def snaxJoined (conn : Mesh) (snaxs : List Part) (ii jj : Nat) : Res Bool :=
  (elemAt conn.verts (ii : Int)).bind fun v =>
    anyM (fun e => (isearch Edge.index conn.edges e).bind fun x => (elemAt snaxs (jj : Int)).bind fun s =>
      endIs x.vertind s.index) v.edgeind

/-- The loop over the ends of a snake edge (snake.cpp:717-726). -/
def edgeJoined (conn : Mesh) (ii jj : Nat) : Res Bool :=
  (elemAt conn.edges (ii : Int)).bind fun x =>
    anyM (fun v => (elemAt conn.edges (jj : Int)).bind fun y => endIs y.vertind v) x.vertind

/-- The loops over the edges of two snake surfaces (snake.cpp:760-776). -/
def surfJoined (conn : Mesh) (ii jj : Nat) : Res Bool :=
  (elemAt conn.surfs (ii : Int)).bind fun x =>
    anyM (fun e => (elemAt conn.surfs (jj : Int)).map fun y => y.edgeind.any fun f => decide (f = e)) x.edgeind

/-- The check of the number of edges of the snaxels (snake.cpp:684-696); `base` is the mesh of the snake. -/
def countCheck (conn base : Mesh) (snaxs : List Part) : Res (List Nat) :=
  (List.range snaxs.length).foldlM (m := Except Fault) (fun acc (ii : Nat) =>
    (elemAt conn.verts (ii : Int)).bind fun v => (elemAt snaxs (ii : Int)).bind fun s =>
      (isearch Edge.index base.edges s.parent).map fun e =>
        if v.edgeind.length ≠ e.surfind.length then acc ++ [ii] else acc) []

/-- `snake::CheckConnectivity` (snake.cpp:629-795).  The first check compares the indices of snake edges at the positions
of the snaxels; `errTot` is set to 0 before the third and before the fourth check (lines 702 and 744). -/
def checkConnectivity (conn base : Mesh) (snaxs snaxedges snaxsurfs : List Part) (sibsV sibsE sibsS : Int → List Nat) :
    Res Report :=
  (pairs snaxs sibsV (differIn snaxedges) (snaxJoined conn snaxs)).bind fun r1 =>
    (countCheck conn base snaxs).bind fun r2 =>
      (pairs snaxedges sibsE (differIn snaxedges) (edgeJoined conn)).bind fun r3 =>
        (pairs snaxsurfs sibsS (differIn snaxsurfs) (surfJoined conn)).map fun r4 =>
          ⟨r1, r2, r3, r4, r4.length⟩

end RSVS.SnakeCheck
