import Verif.Model.Mesh

/-!
# The mesh of a tetrahedral mesher

`tetgen::output::TET2MESH` (SRCC/src/interfaces/tetgenrsvs.cpp:1043-1166).

Simplifications: the output of the mesher is given by its counts and arrays, reading outside of an array is undefined; coordinates are
rational; `rand` gives the random fill of each cell.  `PrepareForUse` at the end (tetgenrsvs.cpp:1159) and the test of connectivity, whose
result is not used, are left out, as are the messages.
-/

namespace RSVS.TetMesh

/-- The output of the mesher: `tetgenio` as far as it is used.  `tet2facelist` is none for the null pointer. -/
structure TetOut where
  firstnumber : Int
  numberofpoints : Nat
  pointlist : List ℚ
  numberofedges : Nat
  edgelist : List Int
  numberoftrifaces : Nat
  face2edgelist : List Int
  numberoftetrahedra : Nat
  tet2facelist : Option (List Int)

/-- `INCR` (tetgenrsvs.cpp:1060). -/
def incr (first : Int) : Int := if first ≠ 0 then 0 else 1

/-- `DEINCR` (tetgenrsvs.cpp:1061). -/
def deincr (first : Int) : Int := if first ≠ 0 then -1 else 0

/-- The turns of a loop over `n` elements with `c` entries each. -/
def slots (n c : Nat) : List (Nat × Nat) := (List.range n).flatMap fun i => (List.range c).map fun j => (i, j)

/-- The empty mesh with numbered elements and cleared lists (tetgenrsvs.cpp:1070-1086). -/
def start (t : TetOut) : Mesh where
  verts := (List.range t.numberofpoints).map fun (i : Nat) => ({ index := (i : Int) + 1, edgeind := [] } : Vert)
  edges := (List.range t.numberofedges).map fun (i : Nat) => ({ index := (i : Int) + 1, vertind := [], surfind := [] } : Edge)
  surfs := (List.range t.numberoftrifaces).map fun (i : Nat) => ({ index := (i : Int) + 1, edgeind := [], voluind := [] } : Surf)
  volus := (List.range t.numberoftetrahedra).map fun (i : Nat) => ({ index := (i : Int) + 1, surfind := [] } : Volu)

/-- One coordinate (tetgenrsvs.cpp:1096). -/
def coordStep (t : TetOut) (m : Mesh) (s : Nat × Nat) : Res Mesh :=
  (vecGet t.pointlist ((s.1 * 3 + s.2 : Nat) : Int)).bind fun x =>
  (modAt m.verts (s.1 : Int) fun v => { v with coord := v.coord.set s.2 x }).map fun vs => { m with verts := vs }

/-- The ends of an edge (tetgenrsvs.cpp:1107). -/
def endStep (t : TetOut) (m : Mesh) (i : Nat) : Res Mesh :=
  (vecGet t.edgelist ((i * 2 : Nat) : Int)).bind fun a => (vecGet t.edgelist ((i * 2 + 1 : Nat) : Int)).bind fun b =>
  (modAt m.edges (i : Int) fun e => { e with vertind := [a + incr t.firstnumber, b + incr t.firstnumber] }).map fun es => { m with edges := es }

/-- The edge in the list of one of its ends (tetgenrsvs.cpp:1110). -/
def vertStep (t : TetOut) (m : Mesh) (s : Nat × Nat) : Res Mesh :=
  (vecGet t.edgelist ((s.1 * 2 + s.2 : Nat) : Int)).bind fun a =>
  (modAt m.verts (a + deincr t.firstnumber) fun v => { v with edgeind := v.edgeind ++ [(s.1 : Int) + 1] }).map fun vs => { m with verts := vs }

/-- One edge (tetgenrsvs.cpp:1105-1112). -/
def edgeStep (t : TetOut) (m : Mesh) (i : Nat) : Res Mesh :=
  (endStep t m i).bind fun m => [(i, 0), (i, 1)].foldlM (m := Except Fault) (vertStep t) m

/-- One face of a tetrahedron (tetgenrsvs.cpp:1123-1124). -/
def voluStep (t : TetOut) (l : List Int) (m : Mesh) (s : Nat × Nat) : Res Mesh :=
  (vecGet l ((s.1 * 4 + s.2 : Nat) : Int)).bind fun f =>
  (modAt m.volus (s.1 : Int) fun c => { c with surfind := c.surfind ++ [f + incr t.firstnumber] }).bind fun cs =>
  (modAt m.surfs (f + deincr t.firstnumber) fun x => { x with voluind := x.voluind ++ [(s.1 : Int) + 1] }).map fun ss =>
    { m with volus := cs, surfs := ss }

/-- The outside for faces of one tetrahedron (tetgenrsvs.cpp:1127-1133). -/
def outside (m : Mesh) : Mesh :=
  { m with surfs := m.surfs.map fun x => if x.voluind.length = 1 then { x with voluind := x.voluind ++ [0] } else x }

/-- One edge of a face (tetgenrsvs.cpp:1144-1145). -/
def surfStep (t : TetOut) (m : Mesh) (s : Nat × Nat) : Res Mesh :=
  (vecGet t.face2edgelist ((s.1 * 3 + s.2 : Nat) : Int)).bind fun e =>
  (modAt m.surfs (s.1 : Int) fun x => { x with edgeind := x.edgeind ++ [e + incr t.firstnumber] }).bind fun ss =>
  (modAt m.edges (e + deincr t.firstnumber) fun y => { y with surfind := y.surfind ++ [(s.1 : Int) + 1] }).map fun es =>
    { m with surfs := ss, edges := es }

/-- The random fills (tetgenrsvs.cpp:1152-1157). -/
def fills (rand : Nat → ℚ) (m : Mesh) : Mesh :=
  { m with volus := m.volus.mapIdx fun i c => { c with target := rand i, fill := rand i, error := rand i } }

/-- The loops (tetgenrsvs.cpp:1088-1157). -/
def loops (t : TetOut) (l : List Int) (rand : Nat → ℚ) : Res Mesh :=
  ((slots t.numberofpoints 3).foldlM (m := Except Fault) (coordStep t) (start t)).bind fun m =>
  ((List.range t.numberofedges).foldlM (m := Except Fault) (edgeStep t) m).bind fun m =>
  ((slots t.numberoftetrahedra 4).foldlM (m := Except Fault) (voluStep t l) m).bind fun m =>
  ((slots t.numberoftrifaces 3).foldlM (m := Except Fault) (surfStep t) (outside m)).map fun m => fills rand m

/-- `tetgen::output::TET2MESH` (tetgenrsvs.cpp:1043-1166). -/
def tet2Mesh (rand : Nat → ℚ) (t : TetOut) : Res Mesh :=
  match t.tet2facelist with
  | none => .error .throws
  | some l => (loops t l rand).bind fun m => m.tighten

end RSVS.TetMesh
