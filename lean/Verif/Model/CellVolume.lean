import Verif.Model.Lineage

/-!
# The volumes of the cells of a mesh

`RSVScalc::CalculateMesh` (SRCC/src/rsvs/RSVScalc.cpp:294-332) and `ReturnConstrToMesh` on a mesh
(RSVScalc.cpp:429-441), as used on the grids (RSVSintegration.cpp:368-374).
-/

namespace RSVS.CellVolume

open RSVS.Lineage

/-- A surface of the mesh: its `voluind`, and the volumes (with sign) of its triangles.  Simplification: how a surface is cut into triangles and the volume of
a triangle are given (`TriangulateSurface`, `CalcTriVertPos` and the volume in `CalcTriangle` have models of their own). -/
structure Facet where
  voluind : List Int
  tris : List ℚ
  deriving DecidableEq

/-- `RSVScalc::BuildConstrMap` of a mesh (RSVScalc.cpp:505-522): `vec` with `targ`. -/
def meshConstrMap (volus : List Cell) : List (Int × Int) := volus.zipIdx.map fun (v : Cell × Nat) => (v.1.index, (v.2 : Int))

/-- What a triangle of volume `x` adds, for each of its cells (RSVScalc_core.cpp:87-97): the cells are those of the surface, the factors -1 and 1
(triangulate.cpp:287-288); a third factor is read past the end. -/
def contributions (cells : List Int) (x : ℚ) : Res (List (Int × ℚ)) :=
  match cells with
  | [] => .ok []
  | [a] => .ok [(a, -1 * x)]
  | [a, b] => .ok [(a, -1 * x), (b, 1 * x)]
  | _ => .error .ub

/-- `RSVScalc::CalculateMesh` (RSVScalc.cpp:294-332): `constr`, from zero. -/
def calculateMesh (volus : List Cell) (facets : List Facet) : Res (List ℚ) :=
  facets.foldlM (m := Except Fault) (fun v f => f.tris.foldlM (m := Except Fault) (fun v x =>
    (contributions f.voluind x).bind fun w => accumulate (meshConstrMap volus) w v) v) (volus.map fun _ => 0)

/-- `mesh::MapVolu2Self` (mesh.cpp:1090-1102) with the member `volume`. -/
def mapVolu2Self : List Cell → List Int → List ℚ → Res (List Cell)
  | volus, [], _ => .ok volus
  | _, _ :: _, [] => .error .ub
  | volus, e :: es, x :: xs =>
    (modAt volus (posOf Cell.index volus e) fun v => { v with volume := x }).bind fun volus => mapVolu2Self volus es xs

/-- `CalculateMesh` and `ReturnConstrToMesh` (RSVScalc.cpp:429-441, RSVSintegration.cpp:368-369). -/
def setVolumes (volus : List Cell) (facets : List Facet) : Res (List Cell) :=
  (calculateMesh volus facets).bind fun constr => mapVolu2Self volus ((meshConstrMap volus).map Prod.fst) constr

end RSVS.CellVolume
