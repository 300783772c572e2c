import Verif.Model.Mesh
import Mathlib.Algebra.Order.Floor.Ring
import Mathlib.Data.Rat.Floor
import Mathlib.Data.Fin.VecNotation

/-!
# Coarse boxes

Model of `CartesianMapping` and `CoarsenMesh` (SRCC/src/grid/meshrefinement.cpp:11-324).  Numbers are rational.  A quotient
by zero is not a number, and its conversion to `int` is undefined; everything else is exact.  `WhatDim`
is `meshDim`, and each vertex has three coordinates.
-/

namespace RSVS.Refine

open RSVS.Mesh

/-- A coordinate of a vertex. -/
def coordAt (v : Vert) (i : Fin 3) : ℚ := v.coord.getD i 0

/-- `minCoord` and `maxCoord` (meshrefinement.cpp:208-216). -/
def bounds (i : Fin 3) : List Vert → Option (ℚ × ℚ)
  | [] => none
  | v :: l => some (l.foldl (fun b w =>
      (if b.1 ≤ coordAt w i then b.1 else coordAt w i, if b.2 ≥ coordAt w i then b.2 else coordAt w i))
      (coordAt v i, coordAt v i))

/-- `dims` as it is used and left behind (meshrefinement.cpp:221-228): the conditions of the next three
lines always hold. -/
def posDims (dims : Fin 3 → Int) : Fin 3 → Int := fun i => if dims i > 0 then dims i else 1

/-- The places of the vertices of a list of edges (meshrefinement.cpp:240-243 and 285-289). -/
def vertPlaces (m : Mesh) (edges : List Int) : Res (List Int) :=
  (concatField m.edges Edge.vertind (posList Edge.index m.edges edges)).map fun vs =>
    sortUnique (posList Vert.index m.verts vs)

/-- `cellCoord` (meshrefinement.cpp:244-250 and 290-296): no vertices give `0 * (1 / 0)`. -/
def meanCoord (m : Mesh) (places : List Int) : Res (Fin 3 → ℚ) :=
  (places.mapM fun p => elemAt m.verts p).bind fun vs =>
  if vs.length = 0 then .error .ub
  else .ok fun i => (vs.map fun v => coordAt v i).sum * (1 / (vs.length : ℚ))

/-- One entry of `cellCoord` as a number of a box (meshrefinement.cpp:252-259 and 298-305). -/
def boxCoord (lo delta : ℚ) (dim : Int) (x : ℚ) : Res Int :=
  if delta = 0 then .error .ub
  else if ((⌊(x - lo) / delta * dim⌋ : Int) : ℚ) ≥ dim then .ok (dim - 1)
  else .ok ⌊(x - lo) / delta * dim⌋

/-- `sub` (meshrefinement.cpp:260 and 306). -/
def boxOf (lo delta : Fin 3 → ℚ) (dims : Fin 3 → Int) (x : Fin 3 → ℚ) : Res Int :=
  (boxCoord (lo 0) (delta 0) (dims 0) (x 0)).bind fun a =>
  (boxCoord (lo 1) (delta 1) (dims 1) (x 1)).bind fun b =>
  (boxCoord (lo 2) (delta 2) (dims 2) (x 2)).map fun c =>
    a + dims 0 * b + dims 0 * dims 1 * c

/-- The loop over cells (meshrefinement.cpp:236-276 and 283-322) with the list of edges of each cell. -/
def mapLoop (m : Mesh) (lo delta : Fin 3 → ℚ) (dims : Fin 3 → Int) (nBox : Int) :
    List (Int × Res (List Int)) → List Int → Res (List Int)
  | [], _ => .ok []
  | (index, edges) :: l, boxMap =>
    edges.bind fun edges => (vertPlaces m edges).bind fun ps => (meanCoord m ps).bind fun x =>
    (boxOf lo delta dims x).bind fun sub =>
    if sub ≥ nBox then .error .throws
    else (vecGet boxMap sub).bind fun (b : Int) =>
      if b = 0 then (mapLoop m lo delta dims nBox l (boxMap.set sub.toNat index)).map (index :: ·)
      else (mapLoop m lo delta dims nBox l boxMap).map (b :: ·)

/-- The cells of a mesh with their edges (meshrefinement.cpp:231-239 and 278-286). -/
def cells (m : Mesh) : List (Int × Res (List Int)) :=
  if m.meshDim = 3 then m.volus.map fun v =>
    (v.index, concatField m.surfs Surf.edgeind (posList Surf.index m.surfs v.surfind))
  else if m.meshDim = 2 then m.surfs.map fun s => (s.index, .ok s.edgeind)
  else []

/-- `CartesianMapping` (meshrefinement.cpp:202-324): `elmMapping`. -/
def cartesianMapping (m : Mesh) (dims : Fin 3 → Int) : Res (List Int) :=
  match bounds 0 m.verts, bounds 1 m.verts, bounds 2 m.verts with
  | some b0, some b1, some b2 =>
    let lo : Fin 3 → ℚ := ![b0.1, b1.1, b2.1]
    let delta : Fin 3 → ℚ := ![b0.2 - b0.1, b1.2 - b1.1, b2.2 - b2.1]
    let n := posDims dims
    mapLoop m lo delta n (n 0 * n 1 * n 2) (cells m) (List.replicate (n 0 * n 1 * n 2).toNat 0)
  | _, _, _ => .error .throws

/-! ### Merging cells -/

/-- The tests of the mapping (meshrefinement.cpp:20-70). -/
def checkMapping (m : Mesh) (mapping : List Int) : Res Unit :=
  match m.meshDim with
  | 3 => if m.volus.length ≠ mapping.length ∨ mapping.any (fun i => posOf Volu.index m.volus i == -1)
      then .error .throws else .ok ()
  | 2 => if m.surfs.length ≠ mapping.length ∨ mapping.any (fun i => posOf Surf.index m.surfs i == -1)
      then .error .throws else .ok ()
  | _ => .error .throws

/-- The change of indices (meshrefinement.cpp:74-100): the index of a cell does not change, so the list of
indices is read once. -/
def switchCells (m : Mesh) (mapping : List Int) : Res Mesh :=
  if m.meshDim = 3 then ((m.volus.map Volu.index).zip mapping).foldlM (fun m p => m.switchVolu p.1 p.2) m
  else ((m.surfs.map Surf.index).zip mapping).foldlM (fun m p => m.switchSurf p.1 p.2) m

/-- The loop over surfaces (meshrefinement.cpp:107-117): `voluind[0]` and `voluind[1]` are plain vector
accesses.  `RemoveIndex` changes the lists of the surface it is given only, so the lists of the others are
those from before the loop. -/
def dropSurfs : List Surf → Mesh × List Int → Res (Mesh × List Int)
  | [], st => .ok st
  | s :: l, st =>
    (vecGet s.voluind 0).bind fun (a : Int) => (vecGet s.voluind 1).bind fun (b : Int) =>
    if a = b then (st.1.removeSurf s.index).bind fun m => dropSurfs l (m, st.2 ++ [s.index])
    else dropSurfs l st

/-- The loop over edges (meshrefinement.cpp:118-142): `RemoveIndex` changes the lists of the edge it is given
only. -/
def dropEdges (n : Nat) : List Edge → Mesh × List Int → Res (Mesh × List Int)
  | [], st => .ok st
  | e :: l, st =>
    if e.surfind.length = n then (st.1.removeEdge e.index).bind fun m => dropEdges n l (m, st.2 ++ [e.index])
    else dropEdges n l st

/-- The removal of elements (meshrefinement.cpp:143-197); `cell2` and `cell3` are the cells that no cell is mapped to. -/
def removeUnused (mapping : List Int) (surfDel edgeDel : List Int) (m : Mesh) : Mesh :=
  let vertDel := (m.verts.filter fun v => v.edgeind.length == 0).map Vert.index
  let cell2 := if m.meshDim = 3 then []
    else (m.surfs.filter fun s => !mapping.contains s.index).map Surf.index
  let cell3 := if m.meshDim = 3 then (m.volus.filter fun c => !mapping.contains c.index).map Volu.index
    else []
  { m with surfs := removeIdx Surf.index m.surfs (sortUnique (surfDel ++ cell2)),
           edges := removeIdx Edge.index m.edges (sortUnique edgeDel),
           verts := removeIdx Vert.index m.verts (sortUnique vertDel),
           volus := removeIdx Volu.index m.volus (sortUnique cell3) }

/-- `CoarsenMesh` (meshrefinement.cpp:11-200) up to the call of `PrepareForUse`. -/
def coarsenMesh (m : Mesh) (mapping : List Int) : Res Mesh :=
  (checkMapping m mapping).bind fun _ =>
  (switchCells m mapping).bind fun m1 => m1.tighten.bind fun m2 =>
  (if m.meshDim = 3 then dropSurfs m2.surfs (m2, []) else .ok (m2, [])).bind fun d1 =>
  (dropEdges (if m.meshDim = 3 then 0 else 1) d1.1.edges (d1.1, [])).map fun d2 =>
  removeUnused mapping d1.2 d2.2 d2.1

end RSVS.Refine
