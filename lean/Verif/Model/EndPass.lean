import Verif.Model.VertPass
import Verif.Model.Surf2D

/-!
# The end of a pass of the clean-up of a snake

`SnaxNoConnecDetection` and the part of `CleanupSnakeConnec` which removes what the edits left over
(SRCC/src/snake/snakeengine.cpp:473-492 and 782-886).
-/

namespace RSVS.EndPass

open RSVS.Mesh RSVS.VertPass RSVS.Surf2D

/-- `SnaxNoConnecDetection` (snakeengine.cpp:473-492): the vertices connected to no edge.  The edit pushed for a
vertex has the vertex as `keepind` and as the only entry of `rmvind`. -/
def noConnec (m : Mesh) : List Int := (m.verts.filter fun v => v.edgeind.length == 0).map Vert.index

/-- The surfaces without edges (snakeengine.cpp:805-814). -/
def emptySurfs (m : Mesh) : List Int := (m.surfs.filter fun s => s.edgeind.length == 0).map Surf.index

/-- The indices to be removed, of vertices, edges, surfaces and volumes: `indRmvVert`, `indRmvEdge`, `indRmvSurf`
and `indRmvVolu`. -/
structure Removals where
  verts : List Int
  edges : List Int
  surfs : List Int
  volus : List Int
  deriving DecidableEq, Repr

/-- The snake as far as this part changes it: the mesh, and the indices of the snaxels, the snake edges and the
snake surfaces. -/
structure Parts where
  conn : Mesh
  snaxs : List Int
  snaxedges : List Int
  snaxsurfs : List Int
  deriving DecidableEq, Repr

/-- The calls of `remove` on the containers of the mesh (snakeengine.cpp:877-880). -/
def without (m : Mesh) (d : Removals) : Mesh :=
  { m with verts := removeIdx Vert.index m.verts d.verts, edges := removeIdx Edge.index m.edges d.edges,
           surfs := removeIdx Surf.index m.surfs d.surfs, volus := removeIdx Volu.index m.volus d.volus }

/-- The end of a pass (snakeengine.cpp:782-886).  `keeps` are the kept edges of the edits of edges, `d` the indices
to be removed as the code before leaves them.  What `CheckSnakeRemovalsEdge` prints is dropped; the block under
`if (false)` and the hash tables, which are built again by `HashArrayNM`, are left out. -/
def endPass (s : Parts) (keeps : List Int) (d : Removals) : Res Parts :=
  (collapsedEdges s.conn keeps).bind fun delEdge =>
  (delEdge.foldlM (m := Except Fault) Mesh.removeEdge s.conn).bind fun m1 =>
  let delSurf := emptySurfs m1
  (delSurf.foldlM (m := Except Fault) Mesh.removeSurf m1).bind fun m2 =>
  let all : Removals := ⟨sortUnique (d.verts ++ noConnec m2), sortUnique (d.edges ++ delEdge), sortUnique (d.surfs ++ delSurf), d.volus⟩
  m2.tighten.bind fun m3 =>
  (checkRemovalsEdge m3 all.edges).bind fun _ =>
  (without m3 all).tighten.map fun m5 =>
    ⟨m5, removeIdx id s.snaxs all.verts, removeIdx id s.snaxedges all.edges, removeIdx id s.snaxsurfs all.surfs⟩

end RSVS.EndPass
