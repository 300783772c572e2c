import Verif.Model.TetMesh

/-!
# The mesh of a Voronoi diagram and its closing

The loops of `tetgen::output::VORO2MESH` (SRCC/src/interfaces/tetgenrsvs.cpp:705-813) and `tetgen::internal::CloseVoronoiMesh`
(tetgenrsvs.cpp:514-681).  The mesh is taken before `TightenConnectivity` and the merging of close vertices.

Simplifications: reading outside of an array of the mesher is undefined; coordinates are rational and `ending` gives the coordinates of the
end of a ray from its normal and its start (see C104).  The counters of elements are the sizes of the containers.  The search of a hashed
vector gives the first position of an element (properties C01 and C02); the new edges are those behind the edges of the diagram.  Messages are left out.
-/

namespace RSVS.Voronoi

open RSVS.TetMesh (incr deincr)

/-- `tetgenio::voroedge`. -/
structure VEdge where
  v1 : Int
  v2 : Int
  vnormal : List ℚ

/-- `tetgenio::vorofacet`; `elist` without its first entry, which is its length. -/
structure VFacet where
  c1 : Int
  c2 : Int
  elist : List Int

/-- The Voronoi diagram of the output of the mesher. -/
structure VoroOut where
  firstnumber : Int
  numberofvpoints : Nat
  vpointlist : Option (List ℚ)
  vedges : List VEdge
  vfacets : List VFacet
  numberofvcells : Nat

/-- The mesh with numbered elements and cleared lists, and the coordinates (tetgenrsvs.cpp:734-754). -/
def start (t : VoroOut) (pts : List ℚ) : Res Mesh :=
  ((List.range t.numberofvpoints).mapM (m := Except Fault) fun (i : Nat) =>
    (vecGet pts ((i * 3 + 0 : Nat) : Int)).bind fun x => (vecGet pts ((i * 3 + 1 : Nat) : Int)).bind fun y =>
    (vecGet pts ((i * 3 + 2 : Nat) : Int)).map fun z => ({ index := (i : Int) + 1, edgeind := [], coord := [x, y, z] } : Vert)).map fun vs =>
  { verts := vs
    edges := (List.range t.vedges.length).map fun (i : Nat) => ({ index := (i : Int) + 1, vertind := [], surfind := [] } : Edge)
    surfs := (List.range t.vfacets.length).map fun (i : Nat) => ({ index := (i : Int) + 1, edgeind := [], voluind := [0, 0] } : Surf)
    volus := (List.range t.numberofvcells).map fun (i : Nat) => ({ index := (i : Int) + 1, surfind := [] } : Volu) }

/-- One edge; the second part of the state is the list of rays (tetgenrsvs.cpp:759-775). -/
def edgeStep (t : VoroOut) (x : Mesh × List Int) (i : Nat) : Res (Mesh × List Int) :=
  (vecGet t.vedges (i : Int)).bind fun d =>
  (modAt x.1.edges (i : Int) fun e => { e with vertind := [d.v1 + incr t.firstnumber, d.v2 + incr t.firstnumber] }).bind fun es =>
  (modAt x.1.verts (d.v1 + deincr t.firstnumber) fun v => { v with edgeind := v.edgeind ++ [(i : Int) + 1] }).bind fun vs =>
  if d.v2 > -1 then (modAt vs (d.v2 + deincr t.firstnumber) fun v => { v with edgeind := v.edgeind ++ [(i : Int) + 1] }).map fun vs =>
    ({ x.1 with edges := es, verts := vs }, x.2)
  else .ok ({ x.1 with edges := es, verts := vs }, x.2 ++ [(i : Int) + 1])

/-- One entry of the list of edges of a facet (tetgenrsvs.cpp:785-793). -/
def listStep (t : VoroOut) (i : Nat) (m : Mesh) (x : Int) : Res Mesh :=
  if x > -1 then
    (modAt m.surfs (i : Int) fun s => { s with edgeind := s.edgeind ++ [x + incr t.firstnumber] }).bind fun ss =>
    (modAt m.edges (x + deincr t.firstnumber) fun e => { e with surfind := e.surfind ++ [(i : Int) + 1] }).map fun es =>
      { m with surfs := ss, edges := es }
  else .ok m

/-- The cells of a facet (tetgenrsvs.cpp:795-809). -/
def sideStep (t : VoroOut) (i : Nat) (d : VFacet) (m : Mesh) : Res Mesh :=
  (modAt m.surfs (i : Int) fun s => { s with voluind := [d.c1 + incr t.firstnumber, d.c2 + incr t.firstnumber] }).bind fun ss =>
  if d.c1 = d.c2 then .error .throws
  else ([d.c1 + incr t.firstnumber, d.c2 + incr t.firstnumber].foldlM (m := Except Fault) (fun vs c =>
    modAt vs (c - 1) fun v => { v with surfind := v.surfind ++ [(i : Int) + 1] }) m.volus).map fun vs => { m with surfs := ss, volus := vs }

/-- One facet (tetgenrsvs.cpp:779-810). -/
def facetStep (t : VoroOut) (m : Mesh) (i : Nat) : Res Mesh :=
  (vecGet t.vfacets (i : Int)).bind fun d =>
  (d.elist.foldlM (m := Except Fault) (listStep t i) m).bind fun m => sideStep t i d m

/-- The end of a ray (tetgenrsvs.cpp:556-573). -/
def rayStep (t : VoroOut) (ending : List ℚ → List ℚ → List ℚ) (m : Mesh) (r : Int) : Res Mesh :=
  let n : Int := (m.verts.length : Int) + 1
  (modAt m.edges (r - 1) fun e => { e with vertind := e.vertind.set 1 n }).bind fun es =>
  (vecGet t.vedges (r - 1)).bind fun d =>
  (elemAt m.verts (d.v1 + deincr t.firstnumber)).map fun v =>
    { m with edges := es, verts := m.verts ++ [{ index := n, edgeind := [r], coord := ending d.vnormal v.coord }] }

/-- One end of the edge that closes a facet (tetgenrsvs.cpp:606-607). -/
def linkStep (rays : List Int) (es : List Edge) (n : Int) (x : List Vert × List Int) (p : Int) : Res (List Vert × List Int) :=
  (vecGet rays p).bind fun r => (elemAt es (r - 1)).bind fun e => (vecGet e.vertind 1).bind fun v =>
  (modAt x.1 (v - 1) fun w => { w with edgeind := w.edgeind ++ [n] }).map fun vs => (vs, x.2 ++ [v])

/-- The closing of a facet (tetgenrsvs.cpp:587-615). -/
def faceClose (rays : List Int) (m : Mesh) (f : Int) : Res Mesh :=
  (elemAt m.surfs (f - 1)).bind fun s =>
  let pair := (s.edgeind.map fun e => posOf id rays e).filter fun a => a ≠ -1
  if pair.length ≠ 2 then .error .throws
  else
    let n : Int := (m.edges.length : Int) + 1
    (pair.foldlM (m := Except Fault) (linkStep rays m.edges n) (m.verts, [])).bind fun x =>
    (modAt m.surfs (f - 1) fun s => { s with edgeind := s.edgeind ++ [n] }).map fun ss =>
      { m with verts := x.1, surfs := ss, edges := m.edges ++ [{ index := n, vertind := x.2, surfind := [f] }] }

/-- One edge of a facet that was open (tetgenrsvs.cpp:653-662). -/
def newStep (news : List Int) (n : Int) (y : (List Edge × List Int) × Nat) (e : Int) : Res ((List Edge × List Int) × Nat) :=
  if posOf id news e ≠ -1 then
    (modAt y.1.1 (e - 1) fun x => { x with surfind := x.surfind ++ [n] }).map fun es => ((es, y.1.2 ++ [e]), y.2 + 1)
  else .ok y

/-- One facet that was open (tetgenrsvs.cpp:648-673). -/
def partStep (faces news : List Int) (ss : List Surf) (n : Int) (x : List Edge × List Int) (p : Int) : Res (List Edge × List Int) :=
  (vecGet faces p).bind fun f => (elemAt ss (f - 1)).bind fun s =>
  (s.edgeind.foldlM (m := Except Fault) (newStep news n) (x, 0)).bind fun y => if y.2 = 0 then .error .throws else .ok y.1

/-- The closing of a cell (tetgenrsvs.cpp:629-680). -/
def cellClose (faces news : List Int) (m : Mesh) (c : Int) : Res Mesh :=
  (elemAt m.volus (c - 1)).bind fun w =>
  let pair := (w.surfind.map fun s => posOf id faces s).filter fun a => a ≠ -1
  if pair.length < 3 then .error .throws
  else
    let n : Int := (m.surfs.length : Int) + 1
    (pair.foldlM (m := Except Fault) (partStep faces news m.surfs n) (m.edges, [])).bind fun x =>
    (modAt m.volus (c - 1) fun v => { v with surfind := v.surfind ++ [n] }).map fun vs =>
      { m with edges := x.1, volus := vs, surfs := m.surfs ++ [{ index := n, edgeind := x.2, voluind := [c, 0] }] }

/-- `tetgen::internal::CloseVoronoiMesh` (tetgenrsvs.cpp:514-681). -/
def closeVoronoi (t : VoroOut) (ending : List ℚ → List ℚ → List ℚ) (rays : List Int) (m : Mesh) : Res Mesh :=
  (rays.foldlM (m := Except Fault) (rayStep t ending) m).bind fun m =>
  (concatField m.edges Edge.surfind (posList Edge.index m.edges rays)).bind fun l =>
  let faces := sortUnique l
  let nE := m.edges.length
  (faces.foldlM (m := Except Fault) (faceClose rays) m).bind fun m =>
  let news := (m.edges.drop nE).map Edge.index
  (concatField m.surfs Surf.voluind (posList Surf.index m.surfs faces)).bind fun l =>
  (sortUnique l).foldlM (m := Except Fault) (cellClose faces news) m

/-- The mesh of the diagram (tetgenrsvs.cpp:705-813). -/
def voroMesh (t : VoroOut) (ending : List ℚ → List ℚ → List ℚ) : Res Mesh :=
  match t.vpointlist with
  | none => .error .throws
  | some pts =>
    (start t pts).bind fun m =>
    ((List.range t.vedges.length).foldlM (m := Except Fault) (edgeStep t) (m, [])).bind fun x =>
    ((List.range t.vfacets.length).foldlM (m := Except Fault) (facetStep t) x.1).bind fun m => closeVoronoi t ending x.2 m

end RSVS.Voronoi
