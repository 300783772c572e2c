import Verif.Model.Mesh
import Mathlib.Algebra.Order.Field.Basic

/-!
# The relative step limits of the edges

`snake::SetEdgeStepLimits` and `snake::SnaxStepLimit` (SRCC/src/snake/snake.cpp:902-978).  Lengths are in an ordered field
and `len` is `GetLength`.  `parents` are the indices of the volumes of the parent meshes and `kids i k` the positions given by
`ChildIndices` (SRCC/incl/mesh.hpp:563-566).
-/

namespace RSVS.StepLimit

open RSVS RSVS.Mesh

variable {K : Type} [Field K] [LinearOrder K]

/-- The least of the lengths, starting from `INFINITY` (`none`). -/
def minLen (a : Option K) (b : K) : K :=
  match a with
  | none => b
  | some a => min a b

/-- One edge (snake.cpp:929-933): the length is looked at when the edge is new. -/
def gatherEdge (m : Mesh) (len : Edge → K) (acc : List Int × Option K) (e : Int) : Res (List Int × Option K) :=
  if e ∈ acc.1 then .ok acc
  else (isearch Edge.index m.edges e).map fun x => (acc.1 ++ [e], some (minLen acc.2 (len x)))

/-- The edges of the volumes at the positions given and the least of their lengths (snake.cpp:921-936). -/
def gatherCell (m : Mesh) (len : Edge → K) (vols : List Nat) : Res (List Int × Option K) :=
  vols.foldlM (m := Except Fault) (fun acc (v : Nat) => (elemAt m.volus (v : Int)).bind fun c =>
    c.surfind.foldlM (m := Except Fault) (fun acc s => (isearch Surf.index m.surfs s).bind fun f =>
      f.edgeind.foldlM (m := Except Fault) (gatherEdge m len) acc) acc) ([], none)

/-- One edge of a cell (snake.cpp:940-943); `lim` holds `edgeAccess` and `edgeStepLimit`.  The least length is only used when
there is an edge. -/
def addTo (m : Mesh) (len : Edge → K) (least : Option K) (lim : List (Nat × K)) (e : Int) : Res (List (Nat × K)) :=
  (vecGet lim (posOf Edge.index m.edges e)).bind fun a => (elemAt m.edges (posOf Edge.index m.edges e)).map fun x =>
    lim.set (posOf Edge.index m.edges e).toNat (a.1 + 1, a.2 + least.getD 0 / len x)

/-- One cell of a parent mesh (snake.cpp:918-944). -/
def oneCell (m : Mesh) (len : Edge → K) (kids : Nat → Int → List Nat) (lim : List (Nat × K)) (c : Nat × Int) :
    Res (List (Nat × K)) :=
  (gatherCell m len (kids c.1 c.2)).bind fun g => g.1.foldlM (m := Except Fault) (addTo m len g.2) lim

/-- The cells in the order of the loops (snake.cpp:912-918): the number of the parent mesh and the index of the volume. -/
def cellsOf (parents : List (List Int)) : List (Nat × Int) :=
  parents.zipIdx.flatMap fun p => p.1.map fun k => (p.2, k)

/-- The average, 1 for edges of no cell (snake.cpp:949-956). -/
def finish (a : Nat × K) : K :=
  if 1 < a.1 then a.2 / (a.1 : K) else if a.1 < 1 then 1 else a.2

/-- `snake::SetEdgeStepLimits` (snake.cpp:902-962): `edgeStepLimit`. -/
def setEdgeStepLimits (m : Mesh) (len : Edge → K) (parents : List (List Int)) (kids : Nat → Int → List Nat) : Res (List K) :=
  ((cellsOf parents).foldlM (m := Except Fault) (oneCell m len kids) (List.replicate m.edges.length (0, 0))).map fun lim =>
    lim.map finish

/-- `snake::SnaxStepLimit` (snake.cpp:964-978) for a snaxel on the edge with index `e`. -/
def snaxStepLimit (m : Mesh) (limits : List K) (e : Int) : Res K :=
  if posOf Edge.index m.edges e = -1 ∨ posOf Edge.index m.edges e ≥ (limits.length : Int) then .error .throws
  else vecGet limits (posOf Edge.index m.edges e)

end RSVS.StepLimit
