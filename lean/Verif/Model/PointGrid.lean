import Mathlib.Algebra.Order.Floor.Ring
import Mathlib.Data.Rat.Floor
import Verif.Model.Mesh

/-!
# Points around a domain

`tetgen::input::POINTGRIDS` (SRCC/src/interfaces/tetgenrsvs.cpp:299-400), `tetgen::internal::Mesh2TetgenioPoints`
(tetgenrsvs.cpp:119-156) and `Points2Mesh` (SRCC/src/grid/mesh.cpp:6293-6314).

Doubles are rationals.  The list of points of the tetgen object is new (`numberofpoints` is 0 before).  `PrepareForUse` (line 397)
is left out: on a mesh of vertices alone it changes no coordinate and no order.
-/

namespace RSVS.PointGrid

open RSVS

/-- A coordinate at the upper or at the lower end of a side, moved out by `d` times its length (tetgenrsvs.cpp:343-345, 374-377). -/
def sidePt (lo up d : ℚ) (b : Bool) : ℚ := if b then up + (up - lo) * d else lo - (up - lo) * d

/-- Bit of the number of a corner (tetgenrsvs.cpp:342-345). -/
def bit (i k : Nat) : Bool := (i / k) % 2 != 0

/-- The points at the corners (tetgenrsvs.cpp:330-349). -/
def cornerPts (lo up : Nat → ℚ) (tol : ℚ) : List (List ℚ) :=
  (List.range 4).flatMap fun l => (List.range 8).map fun i => (List.range 3).map fun j =>
    sidePt (lo j) (up j) (if l < 3 ∧ j = l then tol else 0) (bit i (2 ^ j))

/-- The points along the edges, with `n` steps (tetgenrsvs.cpp:351-384). -/
def edgePts (lo up : Nat → ℚ) (tol : ℚ) (n : Int) : List (List ℚ) :=
  (List.range' 1 (n.toNat - 1)).flatMap fun (ll : Nat) => (List.range 3).flatMap fun l => (List.range 2).flatMap fun j =>
    (List.range 4).map fun i => (List.range 3).map fun m =>
      if m = l then 1 / (n : ℚ) * ll
      else sidePt (lo m) (up m) (if m = (l + j + 1) % 3 then tol else 0) (bit i (2 ^ ((m + 3 - (l + 1)) % 3)))

/-- All points (tetgenrsvs.cpp:313-384); an infinite number of steps does not fit an integer. -/
def gridPoints (lo up : Nat → ℚ) (tol : ℚ) : Res (List (List ℚ)) :=
  if tol = 0 then .error .ub else .ok (cornerPts lo up tol ++ edgePts lo up tol ⌈1 / (tol * 2)⌉)

/-- `Points2Mesh` (SRCC/src/grid/mesh.cpp:6293-6314); the remainder by 0 is undefined. -/
def points2Mesh (v : List ℚ) (nProp : Nat) : Res Mesh :=
  if nProp = 0 then .error .ub
  else if v.length % nProp ≠ 0 then .error .throws
  else ((List.range (v.length / nProp)).mapM (m := Except Fault) fun (i : Nat) =>
      ((List.range 3).mapM (m := Except Fault) fun (j : Nat) => vecGet v ((i * nProp + j : Nat) : Int)).map fun c =>
        ({ index := (i : Int) + 1, edgeind := [], coord := c, isBorder := false } : Vert)).map fun verts =>
    { verts := verts, edges := [], surfs := [], volus := [], meshDim := 0 }

/-- `Mesh2TetgenioPoints` (tetgenrsvs.cpp:119-156). -/
def tetPoints (g d : Mesh) : Res (List ℚ) :=
  ((g.verts ++ d.verts).mapM (m := Except Fault) fun v => (List.range 3).mapM (m := Except Fault) fun (j : Nat) =>
    vecGet v.coord (j : Int)).map List.flatten

/-- `POINTGRIDS` (tetgenrsvs.cpp:299-400). -/
def pointGrids (dom : Mesh) (lo up : Nat → ℚ) (tol : ℚ) (voro : Bool) : Res (List ℚ) :=
  (if voro then (gridPoints lo up tol).bind fun p => points2Mesh p.flatten 3
    else .ok { verts := [], edges := [], surfs := [], volus := [], meshDim := 0 }).bind fun g => tetPoints g dom

end RSVS.PointGrid
