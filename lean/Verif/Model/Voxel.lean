import Mathlib.Data.Fin.VecNotation
import Verif.Model.Mesh

/-!
# Cartesian block grids

`BuildBlockGrid` and the four builders (SRCC/src/grid/voxel.cpp:42-463) with `cumsum` and `cumprod`
(SRCC/incl/voxel.hpp:61-123).  The grid is taken as the builders leave it, before `PrepareForUse`,
`TightenConnectivity`, `OrderEdges` and `OrientFaces` (voxel.cpp:95-98).

Simplifications: `int` does not overflow; the random fill (voxel.cpp:125, 196) is left out; the
coordinates are exact quotients.  The positions are found with a division of floating point numbers
rounded down; these divisions are modelled with their rounding (`flDiv`), to nearest with ties to
even and evaluated in the type written (no extended precision), because voxel.cpp:128 and 423 use
`float` where the other lines use `double`.
-/

namespace RSVS.Voxel

/-- `n / d` rounded to the nearest integer, ties to even. -/
def roundDiv (n d : Nat) : Nat :=
  let q := n / d
  let r := n % d
  if 2 * r < d then q
  else if d < 2 * r then q + 1
  else if q % 2 = 0 then q else q + 1

/-- The conversion of an `int` which is not negative to a floating point number with `p` bits. -/
def toFl (p n : Nat) : Nat :=
  roundDiv n (2 ^ (Nat.log2 n - (p - 1))) * 2 ^ (Nat.log2 n - (p - 1))

/-- `int(floor(fl(n) / fl(d)))` with `p` bits: with `2^L ≤ n/d < 2^(L+1)` the quotient is rounded to
a multiple of `2^(L - p + 1)`.  Below 1 the spacing of `[1/2, 1)` is used; the numbers below 1/2 are
finer, but the floor is the same. -/
def flDiv (p n d : Nat) : Nat :=
  let n' := toFl p n
  let d' := toFl p d
  if n' < d' then roundDiv (n' * 2 ^ p) d' / 2 ^ p
  else
    let L := Nat.log2 (n' / d')
    roundDiv (n' * 2 ^ (p - 1 - L)) (d' * 2 ^ (L - (p - 1))) * 2 ^ (L - (p - 1)) / 2 ^ (p - 1 - L)

/-- A position in the grid. -/
abbrev Pos := Fin 3 → Int

/-- Sizes in the three directions. -/
abbrev Dims := Fin 3 → Nat

/-- `surfProp` (voxel.cpp:54). -/
def surfProp (i j : Fin 3) : Nat := if i.val + j.val = 2 then 1 else 0

/-- `edgeProp` (voxel.cpp:55). -/
def edgeProp (i j : Fin 3) : Nat := if i = j then 0 else 1

/-- `matSurf` and `matEdge` (voxel.cpp:111, 173, 174). -/
def matSurf (d : Dims) (i : Fin 3) : Dims := fun j => d j + surfProp i j
def matEdge (d : Dims) (i : Fin 3) : Dims := fun j => d j + edgeProp i j

/-- Product of a row. -/
def prod3 (m : Dims) : Nat := m 0 * m 1 * m 2

/-- `dimGridVert` (voxel.cpp:410). -/
def vDims (d : Dims) : Dims := fun j => d j + 1

/-- `nSurfDim`, `nEdgeDim`, `nVolu`, `nVert`, `nSurf`, `nEdge` (voxel.cpp:51-61). -/
def nSurfDim (d : Dims) (i : Fin 3) : Nat := prod3 (matSurf d i)
def nEdgeDim (d : Dims) (i : Fin 3) : Nat := prod3 (matEdge d i)
def nVolu (d : Dims) : Nat := prod3 d
def nVert (d : Dims) : Nat := prod3 (vDims d)
def nSurf (d : Dims) : Nat := nSurfDim d 0 + nSurfDim d 1 + nSurfDim d 2
def nEdge (d : Dims) : Nat := nEdgeDim d 0 + nEdgeDim d 1 + nEdgeDim d 2

/-- `incrSurf`, `incrEdge`: `cumsum` of `0, n(0), n(1)` (voxel.cpp:113-114, 180-181). -/
def incr (n : Fin 3 → Nat) : Fin 3 → Nat := ![0, n 0, n 0 + n 1]

/-- `incPos`: `cumprod` of `1, m(0), m(1)` (voxel.cpp:117-118). -/
def incPos (m : Dims) : Fin 3 → Int := ![1, m 0, m 0 * m 1]

/-- `pos.cwiseProduct(incPos).sum()`. -/
def lin (m : Dims) (p : Pos) : Int := p 0 * incPos m 0 + p 1 * incPos m 1 + p 2 * incPos m 2

/-- `pos` (e.g. voxel.cpp:127-129, 202-204); `p` is the precision of the division for `pos(1)`. -/
def posAt (p : Nat) (m : Dims) (n : Nat) : Pos :=
  ![((n % m 0 : Nat) : Int), ((flDiv p n (m 0) % m 1 : Nat) : Int),
    ((flDiv 53 n (m 0 * m 1) % m 2 : Nat) : Int)]

/-- Unit vector. -/
def unit (k : Fin 3) : Pos := fun j => if j = k then 1 else 0

/-- `incPos.row(i)`, `incr(i)` and `+ 1` for a surface and an edge. -/
def surfNum (d : Dims) (i : Fin 3) (p : Pos) : Int :=
  lin (matSurf d i) p + incr (nSurfDim d) i + 1
def edgeNum (d : Dims) (i : Fin 3) (p : Pos) : Int :=
  lin (matEdge d i) p + incr (nEdgeDim d) i + 1

/-- `pos * cumProdDimGrid.transpose() + 1` for a volume (voxel.cpp:188-189) and a vertex
(voxel.cpp:298-300). -/
def voluNum (d : Dims) (p : Pos) : Int := lin d p + 1
def vertNum (d : Dims) (p : Pos) : Int := lin (vDims d) p + 1

/-- `pos + surfProp.row(i)` and `pos - surfProp.row(i)`. -/
def addProp (p : Pos) (i : Fin 3) : Pos := fun j => p j + surfProp i j
def subProp (p : Pos) (i : Fin 3) : Pos := fun j => p j - surfProp i j

/-- `BuildBlockVolu` (voxel.cpp:122-140) for one volume. -/
def blockVolu (d : Dims) (ii : Nat) : Volu :=
  let pos := posAt 24 d ii
  { index := (ii : Int) + 1
    surfind := [surfNum d 0 pos, surfNum d 1 pos, surfNum d 2 pos,
      surfNum d 0 (addProp pos 0), surfNum d 1 (addProp pos 1), surfNum d 2 (addProp pos 2)] }

/-- `jPlane = (ii >= cumSurfDim).sum()` (voxel.cpp:198). -/
def surfPlane (d : Dims) (ii : Nat) : Fin 3 :=
  Fin.ofNat 3 ((if nSurfDim d 0 ≤ ii then 1 else 0) + (if nSurfDim d 0 + nSurfDim d 1 ≤ ii then 1 else 0)
    + (if nSurf d ≤ ii then 1 else 0))

/-- `currDim` (voxel.cpp:214-224): the two directions kept by `maskVec`.  The loop overwrites an
entry until the mask is set, which leaves the first two directions with a set mask. -/
def currDim (i : Fin 3) : Fin 3 × Fin 3 :=
  match (List.finRange 3).filter (fun j => decide (2 - j.val ≠ i.val)) with
  | a :: b :: _ => (a, b)
  | _ => (0, 0)

/-- `BuildBlockSurf` (voxel.cpp:193-245) for one surface. -/
def blockSurf (d : Dims) (ii : Nat) : Surf :=
  let i := surfPlane d ii
  let pos := posAt 53 (matSurf d i) (ii - incr (nSurfDim d) i)
  let back := subProp pos i
  let c := currDim i
  { index := (ii : Int) + 1
    voluind := [
      if (pos 0 ≥ d 0 ∨ pos 1 ≥ d 1 ∨ pos 2 ≥ d 2) then 0 else voluNum d pos,
      if (back 0 < 0 ∨ back 1 < 0 ∨ back 2 < 0) then 0 else voluNum d back]
    edgeind := [edgeNum d c.1 pos, edgeNum d c.2 (fun j => pos j + unit c.1 j),
      edgeNum d c.1 (fun j => pos j + unit c.2 j), edgeNum d c.2 pos] }

/-- `jPlane = (incrEdge <= ii).sum() - 1` (voxel.cpp:307). -/
def edgePlane (d : Dims) (ii : Nat) : Fin 3 :=
  Fin.ofNat 3 ((if incr (nEdgeDim d) 0 ≤ ii then 1 else 0) + (if incr (nEdgeDim d) 1 ≤ ii then 1 else 0)
    + (if incr (nEdgeDim d) 2 ≤ ii then 1 else 0) - 1)

/-- `indTemp2` (voxel.cpp:340-350), as `currDim`. -/
def indTemp2 (i : Fin 3) : Fin 3 × Fin 3 :=
  match (List.finRange 3).filter (fun j => decide (j ≠ i)) with
  | a :: b :: _ => (a, b)
  | _ => (0, 0)

/-- A row of `mask` in its second half (voxel.cpp:351-354): `indTemp1` is `currDim`. -/
def edgeMask (k i : Fin 3) : Pos := fun j =>
  if (i = (currDim k).1 ∧ j = (indTemp2 k).1) ∨ (i = (currDim k).2 ∧ j = (indTemp2 k).2) then -1 else 0

/-- The test of `surfLog` and `edgeLog`: within the sizes of the row. -/
def inRange (m : Dims) (p : Pos) : Bool :=
  decide ((0 ≤ p 0 ∧ p 0 ≤ (m 0 : Int) - 1) ∧ (0 ≤ p 1 ∧ p 1 ≤ (m 1 : Int) - 1) ∧
    (0 ≤ p 2 ∧ p 2 ≤ (m 2 : Int) - 1))

/-- The rows of the table of surfaces around an edge (voxel.cpp:356-363). -/
def edgeSurfRows (d : Dims) (k : Fin 3) (pos : Pos) : List (Fin 3 × Pos) :=
  ([(0, pos), (1, pos), (2, pos), (0, fun j => pos j + edgeMask k 0 j),
    (1, fun j => pos j + edgeMask k 1 j), (2, fun j => pos j + edgeMask k 2 j)] :
      List (Fin 3 × Pos)).filter
    (fun r => inRange (matSurf d r.1) r.2 && decide (2 - r.1.val ≠ k.val))

/-- `BuildBlockEdge` (voxel.cpp:304-378) for one edge. -/
def blockEdge (d : Dims) (ii : Nat) : Edge :=
  let k := edgePlane d ii
  let pos := posAt 53 (matEdge d k) (ii - incr (nEdgeDim d) k)
  let l := (edgeSurfRows d k pos).map (fun r => surfNum d r.1 r.2)
  { index := (ii : Int) + 1
    vertind := [vertNum d pos, vertNum d (fun j => pos j + 1 - edgeProp k j)]
    surfind := l ++ List.replicate (2 - l.length) 0 }

/-- `BuildBlockVert` (voxel.cpp:418-453) for one vertex. -/
def blockVert (d : Dims) (ii : Nat) : Vert :=
  let pos := posAt 24 (vDims d) ii
  { index := (ii : Int) + 1
    coord := [(pos 0 : ℚ) / (max (d 0) 1 : Nat), (pos 1 : ℚ) / (max (d 1) 1 : Nat),
      (pos 2 : ℚ) / (max (d 2) 1 : Nat)]
    edgeind := (([(0, pos), (1, pos), (2, pos), (0, fun j => pos j - unit 0 j),
      (1, fun j => pos j - unit 1 j), (2, fun j => pos j - unit 2 j)] : List (Fin 3 × Pos)).filter
        (fun r => inRange (matEdge d r.1) r.2)).map (fun r => edgeNum d r.1 r.2) }

/-- `BuildBlockGrid` (voxel.cpp:42-93). -/
def blockGrid (d : Dims) : Mesh where
  verts := (List.range (nVert d)).map (blockVert d)
  edges := (List.range (nEdge d)).map (blockEdge d)
  surfs := (List.range (nSurf d)).map (blockSurf d)
  volus := (List.range (nVolu d)).map (blockVolu d)

end RSVS.Voxel
