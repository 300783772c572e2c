import Verif.Model.ForceClose
import Verif.Model.Order

/-!
# Ordering the edges of all surfaces

`surf::OrderEdges` (SRCC/src/grid/mesh.cpp:3663-3717), `surf::SplitSurface` (mesh.cpp:3719-3806), `mesh::SwitchIndex` with type 6
(mesh.cpp:2219-2260) and `mesh::OrderEdges` (mesh.cpp:3917-3962).

The capacity of the vector of surfaces is part of the state: a surface is split only if there is room for one more, and the vector moves
when it grows.  `reserve` gives exactly the capacity it is asked for.  The marks of the containers and the tree of parents
(`meshDepIsSet`) are left out; `find` looks at the indices of the elements (`push_back` keeps the table up to date).
-/

namespace RSVS.SplitSurf

open RSVS RSVS.Mesh

/-- One edge of `SwitchIndex` with type 6 (mesh.cpp:2226-2244). -/
def scopeStep (old new oldSub newSub : Int) (s : List Surf × List Edge) (sub : Int) : Res (List Surf × List Edge) :=
  (elemAt s.2 sub).bind fun x =>
    if x.surfind.contains old then
      (modAt s.2 sub fun x => { x with surfind := replaceAll old new x.surfind }).bind fun edges =>
        (modAt s.1 newSub fun f => { f with edgeind := f.edgeind ++ List.replicate (x.surfind.count old) x.index }).bind fun surfs =>
          (modAt surfs oldSub fun f => { f with edgeind := eraseAll x.index f.edgeind }).map fun surfs => (surfs, edges)
    else .ok s

/-- One volume of the new surface (mesh.cpp:2245-2251); the position is not checked. -/
def scopeVolu (new : Int) (volus : List Volu) (c : Int) : Res (List Volu) :=
  if 0 < c then rawMod volus (posOf Volu.index volus c) (pushSurf new) else .ok volus

/-- `mesh::SwitchIndex` with type 6, a surface on the edges `scope` (mesh.cpp:2219-2260). -/
def switchSurfScope (m : Mesh) (old new : Int) (scope : List Int) : Res Mesh :=
  ((posList Edge.index m.edges scope).foldlM (m := Except Fault)
      (scopeStep old new (posOf Surf.index m.surfs old) (posOf Surf.index m.surfs new)) (m.surfs, m.edges)).bind fun s =>
    (elemAt s.1 (posOf Surf.index s.1 new)).bind fun g =>
      (g.voluind.foldlM (m := Except Fault) (scopeVolu new) m.volus).map fun volus => { m with surfs := s.1, edges := s.2, volus := volus }

/-- `SetMaxIndex` (SRCC/incl/arraystructures_incl.cpp:555-568). -/
def maxSurf (m : Mesh) : Int := m.surfs.foldl (fun a f => if a < f.index then f.index else a) 0

/-- One volume of the surface which was split (mesh.cpp:3791-3799). -/
def lastVolu (new : Int) (volus : List Volu) (c : Int) : Res (List Volu) :=
  if posOf Volu.index volus c = -1 then .ok volus else modAt volus (posOf Volu.index volus c) (pushSurf new)

/-- `surf::OrderEdges` on the surface at position `i` (mesh.cpp:3663-3717) with `surf::SplitSurface` (mesh.cpp:3719-3806).  The result is
the mesh, the capacity and the new index (-1 if there is none).  When the capacity changes while the new surface is ordered the vector has
moved: what follows uses the old place. -/
def orderAt (tab : List Int → Table) : Nat → Mesh → Nat → Nat → Res (Mesh × Nat × Int)
  | 0, _, _, _ => .error .diverges
  | n + 1, m, cap, i =>
    (elemAt m.surfs i).bind fun f =>
      if f.edgeind = [] then .ok ({ m with surfs := m.surfs.modify i fun f => { f with isordered := true } }, cap, -1)
      else (Order.surfOrderEdges tab m f).bind fun o =>
        if o.2 ≠ 1 then .ok ({ m with surfs := m.surfs.modify i fun f => { f with edgeind := o.1, isordered := true } }, cap, -1)
        else if cap = m.surfs.length then
          .ok ({ m with surfs := m.surfs.modify i fun f => { f with edgeind := sortUnique f.edgeind, isordered := false } }, cap + cap / 2, -1)
        else
          let new := maxSurf m + 1
          let rest := (sortUnique f.edgeind).filter fun e => !o.1.contains e
          if rest.length + o.1.length ≠ (sortUnique f.edgeind).length ∨ rest = [] ∨ o.1 = [] then .error .throws
          else
            (switchSurfScope { m with surfs := (m.surfs.modify i fun f => { f with edgeind := o.1 }) ++
                [{ f with index := new, edgeind := rest }] } f.index new rest).bind fun m1 =>
              (orderAt tab n m1 cap m.surfs.length).bind fun q =>
                if q.2.1 ≠ cap then .error .ub
                else
                  (if 2 < m.meshDim then
                    if f.voluind.length < 2 then .error .throws
                    else (f.voluind.take 2).foldlM (m := Except Fault) (lastVolu new) q.1.volus
                  else .ok q.1.volus).map fun volus =>
                    ({ q.1 with surfs := q.1.surfs.modify i fun f => { f with isordered := true }, volus := volus }, cap, new)

/-- The state of `mesh::OrderEdges`: the mesh, the capacity and the list of pairs. -/
abbrev State := Mesh × Nat × List (Int × Int)

/-- The loop over the surfaces (mesh.cpp:3934-3945), from position `i` on; the number of surfaces is read again each time. -/
def orderPass (tab : List Int → Table) : Nat → Nat → State → Res State
  | 0, _, _ => .error .diverges
  | n + 1, i, s =>
    match s.1.surfs[i]? with
    | none => .ok s
    | some f =>
      if f.isordered then orderPass tab n (i + 1) s
      else (orderAt tab (f.edgeind.length + 1) s.1 s.2.1 i).bind fun q =>
        orderPass tab n (i + 1) (q.1, q.2.1, if -1 < q.2.2 then s.2.2 ++ [(f.index, q.2.2)] else s.2.2)

/-- How many positions the loop can have: at most one surface is added for each edge of a surface. -/
def passBound (m : Mesh) : Nat := m.surfs.length + (m.surfs.map fun f => f.edgeind.length).sum + 1

/-- The passes (mesh.cpp:3929-3949), repeated as long as the capacity changes. -/
def orderPasses (tab : List Int → Table) : Nat → State → Res State
  | 0, _ => .error .diverges
  | n + 1, s => (orderPass tab (passBound s.1) 0 s).bind fun q => if q.2.1 ≠ s.2.1 then orderPasses tab n q else .ok q

/-- `mesh::OrderEdges` (mesh.cpp:3917-3962) with `cap` the capacity of the vector of surfaces. -/
def orderEdges (tab : List Int → Table) (m : Mesh) (cap : Nat) : Res State :=
  if m.surfs = [] then .ok (m, cap, [])
  else (orderPasses tab (2 * passBound m) (m, cap, [])).bind fun s =>
    if s.1.surfs.all fun f => f.isordered then .ok s else .error .throws

end RSVS.SplitSurf
