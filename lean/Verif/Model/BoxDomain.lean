import Verif.Model.Geometry
import Verif.Model.Voxel

/-!
# Boxes around the geometry

`DomInter`, `BuildDomain` and `BuildCutCellDomain` (SRCC/src/grid/meshprocessing.cpp:432-436, 438-468 and 512-556).

Simplifications: coordinates are rational numbers and 0.1 is the fraction.  `PrepareForUse` only orders the edges of surfaces
(they are loops before, see C31) and refreshes tables and marks, and is left out; the stored maximum indices are those of the mesh.
Indices do not overflow.  The number of steps is not negative.
-/

namespace RSVS.BoxDomain

open RSVS.Mesh RSVS.Geo

/-- The coordinates of a vertex. -/
def coordOf (v : Vert) : P3 ℚ := ![v.coord.getD 0 0, v.coord.getD 1 0, v.coord.getD 2 0]

/-- The vertex with other coordinates. -/
def setCoord (v : Vert) (p : P3 ℚ) : Vert := { v with coord := [p 0, p 1, p 2] }

/-- A loop that changes the coordinates of all vertices. -/
def moveVerts (f : P3 ℚ → P3 ℚ) (m : Mesh) : Mesh := { m with verts := m.verts.map fun v => setCoord v (f (coordOf v)) }

/-- `DomInter` (meshprocessing.cpp:432-436). -/
def domInter (x y1 y2 : ℚ) : ℚ := x * (y2 - y1) + y1

/-- `BuildDomain` (meshprocessing.cpp:438-468). -/
def buildDomain (lower upper : P3 ℚ) (tol : ℚ) : Mesh :=
  moveVerts (fun p j => (p j * ((upper j + tol) - (lower j - tol))) + (lower j - tol)) (Voxel.blockGrid ![1, 1, 1])

/-- `mesh::Scale` (mesh.cpp:5168-5200) on the vertices of a mesh, see `Geo.scale`. -/
def scaleMesh (lb ub : P3 ℚ) (m : Mesh) : Mesh :=
  moveVerts (fun p i => ((scale lb ub (m.verts.map coordOf)).1 i).app (p i)) m

/-- What the loop of `BuildCutCellDomain` changes: `meshdomain`, `meshtemp` and `vertPerSubDomain`. -/
structure State where
  domain : Mesh
  temp : Mesh
  vertPer : List Nat

/-- One turn of the loop (meshprocessing.cpp:537-553); `MakeCompatible_inplace` changes `meshtemp` itself. -/
def step (outerL outerU innerL innerU : P3 ℚ) (nSteps i : Nat) (s : State) : State :=
  let x : ℚ := (i : ℚ) / ((nSteps : ℚ) - 1)
  let temp := s.domain.makeCompatible
    (scaleMesh (fun j => domInter x (innerL j) (outerL j)) (fun j => domInter x (innerU j) (outerU j)) s.temp)
  { domain := s.domain.concatenate temp, temp := temp, vertPer := s.vertPer ++ [temp.verts.length] }

/-- The state before the loop (meshprocessing.cpp:530-535). -/
def start (innerL innerU : P3 ℚ) : State :=
  let m := buildDomain innerL innerU (1 / 10)
  { domain := m, temp := m, vertPer := [m.verts.length] }

/-- The first `k` turns of the loop. -/
def turns (outerL outerU innerL innerU : P3 ℚ) (nSteps : Nat) : Nat → State
  | 0 => start innerL innerU
  | k + 1 => step outerL outerU innerL innerU nSteps (k + 1) (turns outerL outerU innerL innerU nSteps k)

/-- `BuildCutCellDomain` (meshprocessing.cpp:512-556): the mesh and `vertPerSubDomain`, which is not changed for no step. -/
def cutCellDomain (outerL outerU innerL innerU : P3 ℚ) (nSteps : Nat) (vertPer : List Nat) : Mesh × List Nat :=
  if nSteps = 0 then ({ verts := [], edges := [], surfs := [], volus := [] }, vertPer)
  else
    let s := turns outerL outerU innerL innerU nSteps (nSteps - 1)
    (s.domain, s.vertPer)

end RSVS.BoxDomain
