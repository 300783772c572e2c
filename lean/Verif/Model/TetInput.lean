import Mathlib.Data.Fin.VecNotation
import Verif.Model.Geometry
import Verif.Model.Order

/-!
# Input of the tetrahedral mesher

`tetgen::internal::MeshData2Tetgenio` (SRCC/src/interfaces/tetgenrsvs.cpp:25-90), `tetgen::internal::Mesh2Tetgenio`
(tetgenrsvs.cpp:92-117), `tetgen::io_safe::allocate` (tetgenrsvs.cpp:1358-1436), `SpecifyTetPointMetric` (tetgenrsvs.cpp:1536-1560),
`SpecifyIndividualTetPointMetric` (tetgenrsvs.cpp:1562-1586), `SpecifyTetFacetMetric` (tetgenrsvs.cpp:1587-1606),
`tetgen::input::RSVS2CFD` from the call of `Mesh2Tetgenio` on (tetgenrsvs.cpp:208-247) and `tetgen::input::RSVSGRIDS`
(tetgenrsvs.cpp:249-288).

Simplifications: arrays are lists, with `none` where nothing was written after `new`; a write beyond the end is undefined.  The
loops that write several arrays are written once for each array.  `numberofpointmtrs` is 1, as set at tetgenrsvs.cpp:109, so the
metric of a point is one number.  The list `facetConstr` has one entry, as in both calls, and the array of facet constraints and
the holes are left out.  `numberofpoints` is 0 before.  Coordinates are a function of the indices of vertices.
-/

namespace RSVS.Tet

open RSVS.Mesh RSVS.Geo

variable {K : Type}

/-- The arrays of `tetgenio` that are used. -/
structure Io (K : Type) where
  points : List (Option (P3 K))
  mtrs : List (Option K)
  marks : List (Option Int)
  facets : List (Option (List Int))
  facetMarks : List (Option Int)

/-- A write to an array. -/
def put {α : Type} (l : List (Option α)) (i : Int) (x : α) : Res (List (Option α)) :=
  if i < 0 then .error .ub else if i.toNat < l.length then .ok (l.set i.toNat (some x)) else .error .ub

/-- The writes of a loop that starts at `off`. -/
def fill {α : Type} (l : List (Option α)) (off : Nat) (xs : List α) : Res (List (Option α)) :=
  xs.zipIdx.foldlM (m := Except Fault) (fun l p => put l ((p.2 + off : Nat) : Int) p.1) l

/-- `tetgen::io_safe::allocate` (tetgenrsvs.cpp:1361-1367, 1377-1386). -/
def allocate (nP nF : Nat) : Io K :=
  ⟨List.replicate nP none, List.replicate nP none, List.replicate nP none, List.replicate nF none, List.replicate nF none⟩

/-- The polygon of a surface (tetgenrsvs.cpp:78-84). -/
def facetOf (m : Mesh) (po : Nat) (f : Surf) : Res (List Int) :=
  (Order.orderedVerts m f.edgeind).map fun ov => ov.map fun v => posOf Vert.index m.verts v + po

/-- `MeshData2Tetgenio` (tetgenrsvs.cpp:25-90): `fo` and `po` are the offsets of facets and points and `fc` is
`facetConstrOffset`. -/
def meshData (m : Mesh) (co : Int → P3 K) (io : Io K) (fo po : Nat) (mark : Int) (mtr : K) (fc : Int) : Res (Io K) :=
  (fill io.points po (m.verts.map fun v => co v.index)).bind fun points =>
  (fill io.mtrs po (m.verts.map fun _ => mtr)).bind fun mtrs =>
  (fill io.marks po (m.verts.map fun _ => mark)).bind fun marks =>
  (m.surfs.mapM (m := Except Fault) (facetOf m po)).bind fun fs =>
  (fill io.facets fo fs).bind fun facets =>
  (fill io.facetMarks fo (m.surfs.map fun _ => fc + 0 + 1)).map fun facetMarks => ⟨points, mtrs, marks, facets, facetMarks⟩

/-- `Mesh2Tetgenio` (tetgenrsvs.cpp:92-117). -/
def mesh2Tetgenio [Field K] (g d : Mesh) (cg cd : Int → P3 K) : Res (Io K) :=
  (meshData g cg (allocate (g.verts.length + d.verts.length) (g.surfs.length + d.surfs.length)) 0 0 1 0 0).bind fun io =>
    meshData d cd io g.surfs.length g.verts.length (-1) (-1) 1

/-- `SpecifyTetPointMetric` (tetgenrsvs.cpp:1536-1560): at most one metric of the list is read. -/
def specifyMetric (io : Io K) (start num : Int) (mtrs : List K) : Res (Io K) :=
  if start + num > (io.points.length : Int) then .error .throws
  else if start < 0 then .error .throws
  else ((List.range num.toNat).foldlM (m := Except Fault) (fun l (i : Nat) => (mtrs.take 1).foldlM (m := Except Fault)
    (fun l x => put l (start + (i : Int)) x) l) io.mtrs).map fun l => { io with mtrs := l }

/-- `SpecifyIndividualTetPointMetric` (tetgenrsvs.cpp:1562-1586). -/
def specifyIndividual (io : Io K) (start num : Int) (mtrs : List K) : Res (Io K) :=
  if start + num > (io.points.length : Int) then .error .throws
  else if start < 0 then .error .throws
  else if num ≠ (mtrs.length : Int) then .error .throws
  else (fill io.mtrs start.toNat mtrs).map fun l => { io with mtrs := l }

/-- `SpecifyTetFacetMetric` (tetgenrsvs.cpp:1587-1606). -/
def specifyFacets (io : Io K) (start num : Int) (mark : Int) : Res (Io K) :=
  if start + num > (io.facets.length : Int) then .error .throws
  else if start < 0 then .error .throws
  else ((List.range num.toNat).foldlM (m := Except Fault) (fun l (i : Nat) => put l (start + (i : Int)) mark) io.facetMarks).map
    fun l => { io with facetMarks := l }

/-- The metrics of the points of the geometry (tetgenrsvs.cpp:221-233); `cm` is what `PointCurvature2Metric` gives (see C96). -/
def surfMetrics [DecidableEq K] (s0 s1 : K) (cm : List K) (nG : Nat) (io : Io K) : Res (Io K) :=
  if s0 = s1 then specifyMetric io 0 nG [s0] else specifyMetric io 0 nG cm

/-- The metrics of the points of the boxes (tetgenrsvs.cpp:234-238). -/
def boxMetrics (vertPer : List Nat) : List (K × Nat) → Nat → Io K → Res (Io K)
  | [], _, io => .ok io
  | (x, i) :: r, start, io => (vecGet vertPer (i : Int)).bind fun n => (specifyMetric io start n [x]).bind fun io =>
      boxMetrics vertPer r (start + n) io

/-- The marks of the facets of all boxes but the last (tetgenrsvs.cpp:242-246). -/
def boxFacets (n : Nat) : Nat → Nat → Io K → Res (Io K)
  | 0, _, io => .ok io
  | k + 1, start, io => (specifyFacets io start n 0).bind fun io => boxFacets n k (start + n) io

/-- `RSVS2CFD` from the call of `Mesh2Tetgenio` on (tetgenrsvs.cpp:208-247): `g` is the geometry, `d` the mesh of boxes, `vertPer`
is `vertPerSubDomain` and `lens` is `edgelengths`.  With no box the division by zero is undefined. -/
def rsvs2cfd [Field K] [DecidableEq K] (g d : Mesh) (cg cd : Int → P3 K) (vertPer : List Nat) (lens : List K) (s0 s1 : K) (cm : List K) :
    Res (Io K) :=
  (mesh2Tetgenio g d cg cd).bind fun io =>
  (surfMetrics s0 s1 cm g.verts.length io).bind fun io =>
  (boxMetrics vertPer lens.zipIdx g.verts.length io).bind fun io =>
  if vertPer.length = 0 then .error .ub
  else boxFacets (d.surfs.length / vertPer.length) (vertPer.length - 1) g.surfs.length io

/-- `RSVSGRIDS` (tetgenrsvs.cpp:249-288): `lb` and `ld` are the metrics from the lengths at the vertices (see C95) of the boundary and
of the domain. -/
def rsvsGrids [Field K] (d b : Mesh) (cd cb : Int → P3 K) (ld lb : List K) : Res (Io K) :=
  (mesh2Tetgenio b d cb cd).bind fun io =>
  (specifyMetric io 0 b.verts.length lb).bind fun io =>
  specifyMetric io b.verts.length ((b.verts.length : Int) + ld.length) ld

end RSVS.Tet
