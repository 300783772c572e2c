import Verif.Model.Geometry
import Verif.Model.Mesh

/-!
# Points in cells

`CoordInVolume` (SRCC/src/grid/meshprocessing.cpp:794-827), `volu::vertind` (SRCC/src/grid/mesh.cpp:1919-1936),
`VolumeInternalLayers` (meshprocessing.cpp:869-897) and `SurfaceInternalLayers` (meshprocessing.cpp:940-971).

Simplifications: arithmetic is exact; the coordinates of the vertices are a function `co` of their indices, and the centroids
(see C65) are given.  A point with coordinates that are not finite is `none`.
-/

namespace RSVS.Inner

open RSVS.Mesh RSVS.Geo

variable {K : Type} [Field K]

/-- The vertices in the order of the loops over surfaces, edges and ends (meshprocessing.cpp:806-812, mesh.cpp:1923-1932). -/
def cornersOf (m : Mesh) (c : Volu) : Res (List Int) :=
  c.surfind.foldlM (m := Except Fault) (fun acc s => (isearch Surf.index m.surfs s).bind fun f =>
    f.edgeind.foldlM (m := Except Fault) (fun acc e => (isearch Edge.index m.edges e).map fun x => acc ++ x.vertind) acc) []

/-- The coordinates of a vertex of the mesh. -/
def coordOf (m : Mesh) (co : Int → P3 K) (v : Int) : Res (P3 K) := (isearch Vert.index m.verts v).map fun _ => co v

/-- One vertex in `CoordInVolume` (meshprocessing.cpp:812-816): the count is raised for each of the three coordinates. -/
def coordStep (s : P3 K × Nat) (p : P3 K) : P3 K × Nat := (fun j => s.1 j + p j, s.2 + 1 + 1 + 1)

/-- The point of one volume in `CoordInVolume` (meshprocessing.cpp:803-824). -/
def coordInVolume (m : Mesh) (co : Int → P3 K) (c : Volu) : Res (Option (P3 K)) :=
  (cornersOf m c).bind fun l => (l.mapM (m := Except Fault) (coordOf m co)).map fun ps =>
    let s := ps.foldl coordStep (fun _ => 0, 0)
    if s.2 = 0 then none else some fun j => s.1 j / (s.2 : K)

/-- A point between the centre and a corner (meshprocessing.cpp:878-879, 890-893). -/
def layerPoint (n j : Nat) (c p : P3 K) : P3 K := fun k =>
  c k * (((j + 1 : Nat) : K) / ((n + 1 : Nat) : K)) + p k * (((n - j : Nat) : K) / ((n + 1 : Nat) : K))

/-- The points of all corners of a cell (meshprocessing.cpp:886-895). -/
def layersOf (m : Mesh) (co : Int → P3 K) (n : Nat) (c : P3 K) (vs : List Int) : Res (List (P3 K)) :=
  (vs.mapM (m := Except Fault) (coordOf m co)).map fun ps => ps.flatMap fun p => (List.range n).map fun j => layerPoint n j c p

/-- `VolumeInternalLayers` (meshprocessing.cpp:869-897). -/
def volumeLayers (m : Mesh) (co : Int → P3 K) (cent : Volu → P3 K) (n : Int) : Res (List (P3 K)) :=
  if n < 0 then .error .throws
  else (m.volus.mapM (m := Except Fault) fun c =>
      (cornersOf m c).bind fun l => layersOf m co n.toNat (cent c) (sortUnique l)).map fun r => m.volus.map cent ++ r.flatten

/-- `SurfaceInternalLayers` (meshprocessing.cpp:940-971): the vertices are not made unique. -/
def surfaceLayers (m : Mesh) (co : Int → P3 K) (cent : Surf → P3 K) (n : Int) : Res (List (P3 K)) :=
  if n < 0 then .error .throws
  else (m.surfs.mapM (m := Except Fault) fun f =>
      (concatField m.edges Edge.vertind (posList Edge.index m.edges f.edgeind)).bind fun l =>
        layersOf m co n.toNat (cent f) l).map fun r => m.surfs.map cent ++ r.flatten

end RSVS.Inner
