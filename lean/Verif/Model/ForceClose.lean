import Verif.Model.Flood

/-!
# New containers for the connected parts of a mesh

`mesh::ForceCloseContainers` (SRCC/src/grid/mesh.cpp:4331-4418).

`surfsIsDone` and the tests of lines 4357-4364 and 4370-4382 only print messages; what is left of them is that they read the lists.
The marks of the containers are left out.
-/

namespace RSVS.Mesh

open RSVS

/-- A write to `elems[p]`, which is not checked. -/
def rawMod {α : Type} (l : List α) (p : Int) (f : α → α) : Res (List α) :=
  if 0 ≤ p ∧ p.toNat < l.length then .ok (l.modify p.toNat f) else .error .ub

/-- The writes of both loops (mesh.cpp:4383-4387 and 4405-4409): element `s` is pushed to container `c`, and its containers are set to
`c` and 0. -/
def closePair {α β : Type} (ixA : α → Int) (ixB : β → Int) (setA : Int → α → α) (pushB : Int → β → β) (c : Int)
    (st : List α × List β) (s : Int) : Res (List α × List β) :=
  (rawMod st.2 (posOf ixB st.2 c) (pushB s)).bind fun bs => (rawMod st.1 (posOf ixA st.1 s) (setA c)).map fun as => (as, bs)

/-- The volumes of a surface are set. -/
def setVolu (c : Int) (f : Surf) : Surf := { f with voluind := [c, 0] }

/-- A surface is pushed to a volume. -/
def pushSurf (s : Int) (v : Volu) : Volu := { v with surfind := v.surfind ++ [s] }

/-- The surfaces of an edge are set. -/
def setSurf (c : Int) (e : Edge) : Edge := { e with surfind := [c, 0] }

/-- An edge is pushed to a surface. -/
def pushEdge (e : Int) (f : Surf) : Surf := { f with edgeind := f.edgeind ++ [e] }

/-- One edge of a vertex with label `c` in three dimensions (mesh.cpp:4355-4388). -/
def closeEdge (m : Mesh) (labels : List Int) (c : Int) (st : List Surf × List Volu) (e : Int) : Res (List Surf × List Volu) :=
  (elemAt m.edges (posOf Edge.index m.edges e)).bind fun x => (vecGet x.vertind 0).bind fun a => (vecGet x.vertind 1).bind fun b =>
    (vecGet labels (posOf Vert.index m.verts a)).bind fun _ => (vecGet labels (posOf Vert.index m.verts b)).bind fun _ =>
      x.surfind.foldlM (m := Except Fault) (closePair Surf.index Volu.index setVolu pushSurf c) st

/-- The new volumes (mesh.cpp:4346-4349). -/
def newVolus (n : Int) : List Volu := (List.range n.toNat).map fun (i : Nat) => { index := (i : Int) + 1, surfind := [] }

/-- The new surfaces (mesh.cpp:4395-4398). -/
def newSurfs (n : Int) : List Surf := (List.range n.toNat).map fun (i : Nat) => { index := (i : Int) + 1, edgeind := [], voluind := [] }

/-- `mesh::ForceCloseContainers` (mesh.cpp:4331-4418). -/
def forceClose (m : Mesh) : Res Mesh :=
  (m.connectedVertex []).bind fun r =>
    if 0 < m.volus.length then
      ((List.zip m.verts r.1).foldlM (m := Except Fault) (fun st p => p.1.edgeind.foldlM (m := Except Fault) (closeEdge m r.1 p.2) st)
        (m.surfs, newVolus r.2)).map fun st => { m with surfs := st.1, volus := st.2 }
    else
      ((List.zip m.verts r.1).foldlM (m := Except Fault) (fun st p =>
          p.1.edgeind.foldlM (m := Except Fault) (closePair Edge.index Surf.index setSurf pushEdge p.2) st)
        (m.edges, newSurfs r.2)).map fun st => { m with edges := st.1, surfs := st.2 }

end RSVS.Mesh
