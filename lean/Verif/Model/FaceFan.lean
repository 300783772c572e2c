import Verif.Model.Mesh
import Verif.Model.Triangulate

/-!
# The mesh of a triangulation

`MeshTriangulation` (SRCC/src/snake/triangulate.cpp:606-768): the surfaces of a mesh which have more than one triangle are
replaced by triangles around a new vertex.  `PrepareForUse` is taken to leave a prepared mesh as it is.  `sibs` is
`triangul.findsiblings`, `coordOf` gives the coordinates of a point of the triangulation.
-/

namespace RSVS.FaceFan

open RSVS RSVS.Mesh RSVS.Triang

/-- The variables which live through the loop (triangulate.cpp:609-637): `meshout`, `tempMesh`, `buildVert` and the numbers of
new elements. -/
structure St where
  out : Mesh
  tmp : Mesh
  build : Vert
  nV : Nat
  nE : Nat
  nS : Nat
  deriving Repr

/-- The greatest indices of the mesh (triangulate.cpp:635-637). -/
structure Tops where
  v : Int
  e : Int
  s : Int

/-- The new vertex (triangulate.cpp:674-689): from the first point of the triangle which is of the triangulation (type 3);
`corners` is the number of vertices of the surface. -/
def addPoint (top : Tops) (coordOf : Int → Res (List ℚ)) (corners : Nat) (t : Triangle) (st : St) : List Nat → Res St
  | [] => .ok st
  | jj :: js => (vecGet t.pointtype (jj : Int)).bind fun ty =>
    if ty = 3 then (vecGet t.pointind (jj : Int)).bind fun i => (coordOf i).map fun x =>
      let b : Vert := ⟨top.v + st.nV + 1, (List.range corners).map fun (kk : Nat) => top.e + st.nE + 1 + (kk : Int), x, st.build.isBorder⟩
      { st with build := b, nV := st.nV + 1, tmp := { st.tmp with verts := st.tmp.verts ++ [b] } }
    else addPoint top coordOf corners t st js

/-- What is fixed while one surface is replaced: `meshin`, the surface, its position, the number of its edges, the numbers
before the first new edge and surface, and the index of the new vertex. -/
structure Fan where
  base : Mesh
  face : Surf
  sub : Int
  n : Nat
  e0 : Int
  s0 : Int
  centre : Int

/-- The new surface in the volumes (triangulate.cpp:742-750). -/
def linkVolus (base : Mesh) (s : Int) (volus : List Volu) (cs : List Int) : Res (List Volu) :=
  cs.foldlM (m := Except Fault) (fun l c => if c ≠ 0 then
    modAt l (posOf Volu.index base.volus c) fun x => { x with surfind := x.surfind ++ [s] } else .ok l) volus

/-- Edge `kk` of the surface, at position `p`; `ll` is the end of it which the new edge goes to (triangulate.cpp:703-751). -/
def spokeStep (f : Fan) (kk : Nat) (p : Int) (ll : Nat) (st : St) : Res St :=
  (elemAt f.base.edges p).bind fun e => (vecGet e.vertind (ll : Int)).bind fun v =>
    (modAt st.out.verts (posOf Vert.index f.base.verts v) fun x =>
        { x with edgeind := x.edgeind ++ [f.e0 + 1 + (kk : Int)] }).bind fun verts =>
      let spoke : Edge := ⟨f.e0 + 1 + (kk : Int), [f.centre, v], [if kk = 0 then f.face.index else f.s0 + (kk : Int),
        if kk = f.n - 1 then f.face.index else f.s0 + (kk : Int) + 1], false⟩
      if kk = 0 then
        (modAt st.out.surfs f.sub fun x => { x with edgeind := [f.e0 + 1, f.e0 + (f.n : Int), e.index] }).map fun surfs =>
          { st with out := { st.out with verts := verts, surfs := surfs },
                    tmp := { st.tmp with edges := st.tmp.edges ++ [spoke] } }
      else
        (modAt st.out.edges p fun x => { x with surfind := replaceAll f.face.index (f.s0 + (kk : Int)) x.surfind }).bind fun edges =>
          (linkVolus f.base (f.s0 + (kk : Int)) st.out.volus f.face.voluind).map fun volus =>
            { st with out := { st.out with verts := verts, edges := edges, volus := volus },
                      tmp := { st.tmp with
                        edges := st.tmp.edges ++ [spoke],
                        surfs := st.tmp.surfs ++ [{ f.face with
                          index := f.s0 + (kk : Int), edgeind := [f.e0 + (kk : Int), f.e0 + (kk : Int) + 1, e.index] }] } }

/-- The end of the next edge (triangulate.cpp:753-758): the other one if the end `ll` of the edge at `q` is on the edge at `p`. -/
def nextEnd (base : Mesh) (p q : Int) (ll : Nat) : Res Nat :=
  (elemAt base.edges p).bind fun e => (elemAt base.edges q).bind fun e' => (vecGet e'.vertind (ll : Int)).bind fun x =>
    (vecGet e.vertind 0).bind fun a => (vecGet e.vertind 1).map fun b => if a = x ∨ b = x then (ll + 1) % 2 else ll

/-- The loop over the edges of the surface (triangulate.cpp:702-759). -/
def fanLoop (f : Fan) : Nat → Nat → List Int → St → Res St
  | _, _, [], st => .ok st
  | kk, ll, p :: ps, st => (spokeStep f kk p ll st).bind fun st =>
    match ps with
    | [] => .ok st
    | q :: _ => (nextEnd f.base p q ll).bind fun ll => fanLoop f (kk + 1) ll ps st

/-- The end of the first edge (triangulate.cpp:692-699): the one which is on the second edge. -/
def firstEnd (base : Mesh) (subs : List Int) : Res Nat :=
  (vecGet subs 0).bind fun p => (vecGet subs 1).bind fun q => (elemAt base.edges p).bind fun e =>
    (elemAt base.edges q).bind fun e' => (vecGet e.vertind 0).bind fun x => (vecGet e'.vertind 0).bind fun a =>
      (vecGet e'.vertind 1).map fun b => if x = a ∨ x = b then 0 else 1

/-- One surface (triangulate.cpp:661-761). -/
def fanFace (base : Mesh) (top : Tops) (coordOf : Int → Res (List ℚ)) (t : Triangle) (st : St) : Res St :=
  (elemAt base.surfs (posOf Surf.index base.surfs t.parentsurf)).bind fun face =>
    (concatField base.edges Edge.vertind (posList Edge.index base.edges face.edgeind)).bind fun vs =>
      (addPoint top coordOf (sortUnique vs).length t st [0, 1, 2]).bind fun st' =>
        (firstEnd base (posList Edge.index base.edges face.edgeind)).bind fun ll =>
          (fanLoop ⟨base, face, posOf Surf.index base.surfs t.parentsurf, face.edgeind.length, top.e + st.nE, top.s + st.nS,
              st'.build.index⟩ 0 ll (posList Edge.index base.edges face.edgeind) st').map fun st'' =>
            { st'' with nE := st.nE + face.edgeind.length, nS := st.nS + face.edgeind.length - 1 }

/-- One triangle (triangulate.cpp:645-764); `done` lists the positions set in `isTriDone`. -/
def oneTri (base : Mesh) (top : Tops) (coordOf : Int → Res (List ℚ)) (tris : List Triangle) (sibs : Int → List Nat)
    (acc : List Nat × St) (ii : Nat) : Res (List Nat × St) :=
  if ii ∈ acc.1 then .ok acc
  else (elemAt tris (ii : Int)).bind fun t =>
    if 1 < (sortUnique t.pointtype).length then
      (fanFace base top coordOf t acc.2).map fun st => (acc.1 ++ sibs t.parentsurf ++ [ii], st)
    else .ok (acc.1 ++ [ii], acc.2)

/-- `MeshTriangulation` (triangulate.cpp:606-768). -/
def meshTriangulation (base : Mesh) (tris : List Triangle) (sibs : Int → List Nat) (coordOf : Int → Res (List ℚ)) : Res Mesh :=
  ((List.range tris.length).foldlM (m := Except Fault)
    (oneTri base ⟨maxIdx Vert.index base.verts, maxIdx Edge.index base.edges, maxIdx Surf.index base.surfs⟩ coordOf tris sibs)
    ([], ⟨base, ⟨[], [], [], [], 0⟩, ⟨0, [], [], false⟩, 0, 0, 0⟩)).map fun acc => acc.2.out.concatenate acc.2.tmp

/-- `TriangulateAllFaces` up to `MeshTriangulation` (meshprocessing.cpp:82-108), for a triangulation which is empty before:
`place` is what `CalcTriVertPos` (triangulate.cpp:1178-1192) sets for a point of a surface; `TightenConnectivity` and `OrderEdges`
come after it. -/
def triangulateFaces (m : Mesh) (place : Int → Res (List ℚ)) (sibs : List Triangle → Int → List Nat) : Res Mesh :=
  (meshPolys m 1 []).bind fun polys => (triangulateContainer 1 polys ([], [])).bind fun T =>
    meshTriangulation m T.1 (sibs T.1) fun i => (isearch TriPoint.index T.2 i).bind fun p => place p.parentsurf

end RSVS.FaceFan
