import Mathlib.Algebra.Order.Field.Basic
import Verif.Model.Flood
import Verif.Model.Geometry
import Verif.Model.Order

/-!
# Orientation of the surfaces of a mesh

`mesh::OrientRelativeSurfaceVolume` (SRCC/src/grid/mesh.cpp:5031-5156) and `mesh::OrientSurfaceVolume` (mesh.cpp:4969-5029).  The
arrays `surfStatus` and `surfOrient` are functions of the position, as in `Flood`.  `voluind[0]` and `voluind[1]` are both read
where the code may stop after the first.
-/

namespace RSVS.Orient

open RSVS RSVS.Mesh

/-- `surf::FlipVolus` (mesh.cpp:3862-3868), for a list of two volumes. -/
def flipVolus (f : Surf) : Surf := { f with voluind := f.voluind.reverse }

/-- The variables of `OrientRelativeSurfaceVolume` (mesh.cpp:5031-5047): the surfaces, `surfStatus`, `surfOrient`, `nextQueue` and
`nSurfExplored`. -/
structure St where
  surfs : List Surf
  done : Nat → Bool
  orient : Nat → Int
  next : List Nat
  count : Nat

/-- The two volumes of a surface. -/
def sides (f : Surf) : Res (Int × Int) := (vecGet f.voluind 0).bind fun a => (vecGet f.voluind 1).map fun b => (a, b)

/-- Volume `x` is one of `t` and not the outside (mesh.cpp:5115-5121). -/
def shared (t : Int × Int) (x : Int) : Bool := (decide (t.1 = x) || decide (t.2 = x)) && decide (x ≠ 0)

/-- `isFlip` (mesh.cpp:5140-5143). -/
def isFlip (rel : Int) (c t : Int × Int) : Bool :=
  (decide (rel = -1) && ((shared t c.1 && !decide (t.1 = c.1)) || (shared t c.2 && !decide (t.2 = c.2)))) ||
    (decide (rel = 1) && ((shared t c.1 && decide (t.1 = c.1)) || (shared t c.2 && decide (t.2 = c.2))))

/-- One surface `s` of the edge `ed`, from the surface at position `q` (mesh.cpp:5112-5149). -/
def tryNext (ov : List (List Int)) (q : Nat) (ed : Edge) (st : St) (s : Int) : Res St :=
  (elemAt st.surfs (posOf Surf.index st.surfs s)).bind fun t => (elemAt st.surfs (q : Int)).bind fun c =>
  (sides t).bind fun tv => (sides c).bind fun cv =>
  if s ≠ c.index ∧ (shared tv cv.1 = true ∨ shared tv cv.2 = true) ∧ st.done (posOf Surf.index st.surfs s).toNat = false then
    (vecGet ov (q : Int)).bind fun l1 => (vecGet ov (posOf Surf.index st.surfs s)).bind fun l2 =>
    (vecGet ed.vertind 0).bind fun a => (vecGet ed.vertind 1).bind fun b =>
    (Order.orderMatch2 l1 l2 a b).bind fun rel =>
    (if isFlip rel cv tv then modAt st.surfs (posOf Surf.index st.surfs s) flipVolus else .ok st.surfs).map fun surfs =>
      { surfs := surfs
        done := setAt st.done (posOf Surf.index st.surfs s).toNat true
        orient := setAt st.orient (posOf Surf.index st.surfs s).toNat (-1 * rel * st.orient q)
        next := st.next ++ [(posOf Surf.index st.surfs s).toNat]
        count := st.count + 1 }
  else .ok st

/-- One surface of the queue (mesh.cpp:5106-5150). -/
def explore (m : Mesh) (ov : List (List Int)) (st : St) (q : Nat) : Res St :=
  (elemAt st.surfs (q : Int)).bind fun c => c.edgeind.foldlM (m := Except Fault) (fun st e =>
    (isearch Edge.index m.edges e).bind fun ed => ed.surfind.foldlM (m := Except Fault) (tryNext ov q ed) st) st

/-- The outer loop (mesh.cpp:5076-5154); `fuel` bounds the turns, its end is reported. -/
def relLoop (m : Mesh) (ov : List (List Int)) (n : Nat) : Nat → St → List Nat → Int → Res (St × Int)
  | 0, _, _, _ => .error .diverges
  | fuel + 1, st, curr, nB =>
    if st.count < n then
      if curr = [] then
        match (List.range n).find? (fun i => !st.done i) with
        | none => .error .throws
        | some i =>
          (explore m ov ⟨st.surfs, setAt st.done i true, setAt st.orient i (nB + 1), [], st.count + 1⟩ i).bind fun st' => relLoop m ov n fuel st' st'.next (nB + 1)
      else (curr.foldlM (m := Except Fault) (explore m ov) ⟨st.surfs, st.done, st.orient, [], st.count⟩).bind fun st' => relLoop m ov n fuel st' st'.next nB
    else .ok (st, nB)

/-- `mesh::OrientRelativeSurfaceVolume` (mesh.cpp:5031-5156): the surfaces, `surfOrient` and the number of blocks. -/
def orientRelative (m : Mesh) : Res (List Surf × List Int × Int) :=
  (m.surfs.mapM (m := Except Fault) fun f => Order.orderedVerts m f.edgeind).bind fun ov =>
    if m.meshDim < 3 then .ok (m.surfs, m.surfs.map fun _ => 0, 0)
    else (relLoop m ov m.surfs.length (2 * m.surfs.length + 1) ⟨m.surfs, fun _ => false, fun _ => 0, [], 0⟩ [] 0).map fun r =>
      (r.1.surfs, (List.range m.surfs.length).map r.1.orient, r.2)

/-- The search for a surface of block `ii` which tells the direction (mesh.cpp:4992-5019): `isFlip` for the block.  `dotProd` is the
dot product for a surface and a volume of it, of the normal of the surface and the vector from the centre of the volume to the
surface (mesh.cpp:5011-5016); `none` if it is not finite. -/
def findFlip {K : Type} [Field K] [LinearOrder K] (eps : K) (dotProd : Int → Int → Option K) (ii : Int) :
    List (Surf × Int) → Res Bool
  | [] => .ok false
  | (f, o) :: l => if ii ≠ abs o then findFlip eps dotProd ii l
    else (sides f).bind fun v => match dotProd f.index (if v.1 = 0 then v.2 else v.1) with
      | none => findFlip eps dotProd ii l
      | some d => if |d| < eps then findFlip eps dotProd ii l else .ok (decide ((d < 0 ∧ v.1 ≠ 0) ∨ (0 < d ∧ v.1 = 0)))

/-- `isFlip` for all blocks (mesh.cpp:4983-5020). -/
def allFlips {K : Type} [Field K] [LinearOrder K] (eps : K) (dotProd : Int → Int → Option K) (r : List Surf × List Int × Int) :
    Res (List Bool) :=
  (List.range r.2.2.toNat).mapM (m := Except Fault) fun (i : Nat) => findFlip eps dotProd ((i : Int) + 1) (r.1.zip r.2.1)

/-- The exchange of the volumes in the blocks (mesh.cpp:5020-5027); `isFlip` is read without check. -/
def flipBlocks (r : List Surf × List Int × Int) (fl : List Bool) : Res (List Surf) :=
  (r.1.zip r.2.1).mapM (m := Except Fault) fun p => (vecGet fl (abs p.2 - 1)).map fun b => if b then flipVolus p.1 else p.1

/-- `mesh::OrientSurfaceVolume` (mesh.cpp:4969-5029). -/
def orientSurfaceVolume {K : Type} [Field K] [LinearOrder K] (m : Mesh) (eps : K) (dotProd : Int → Int → Option K) : Res Mesh :=
  (orientRelative m).bind fun r => (allFlips eps dotProd r).bind fun fl => (flipBlocks r fl).map fun surfs => { m with surfs := surfs }

/-- The edges of the surfaces of volume `c`, as `CalcCentreVolu` goes through them (mesh.cpp:4883-4893). -/
def voluEdges {K : Type} (m : Mesh) (co : Int → Geo.P3 K) (c : Int) : List (Geo.P3 K × Geo.P3 K) :=
  ((m.volus.filter fun v => v.index = c).flatMap Volu.surfind).flatMap fun s =>
    ((m.surfs.filter fun f => f.index = s).flatMap Surf.edgeind).flatMap fun e =>
      (m.edges.filter fun x => x.index = e).map fun x => (co (x.vertind.getD 0 0), co (x.vertind.getD 1 0))

/-- `dotProd` of `mesh::OrientSurfaceVolume` (mesh.cpp:5011-5016) for surface `s` and volume `c`.  In a sound mesh the searches
succeed; a division by a length of zero gives a number which is not finite. -/
def sideProd {K : Type} [Field K] [LinearOrder K] [IsStrictOrderedRing K] (m : Mesh) (len : Geo.P3 K → K) (co : Int → Geo.P3 K)
    (s c : Int) : Option K :=
  match isearch Surf.index m.surfs s with
  | .error _ => none
  | .ok f => match Order.orderedVerts m f.edgeind, (vecGet f.edgeind 0).bind (isearch Edge.index m.edges) with
    | .ok vs, .ok e =>
      if ((voluEdges m co c).foldl (Geo.centreStep len) (fun _ => 0, 0)).2 = 0 ∨
          (Geo.normalSums len (fun k => (vs.map co).getD k fun _ => 0) (vs.map co).length).2 = 0 then none
      else some (Geo.dot (fun i => co (e.vertind.getD 0 0) i - Geo.centreVolu len (voluEdges m co c) i) (Geo.pseudoNormal len (vs.map co)))
    | _, _ => none

/-- `snake::OrientSurfaceVolume` (SRCC/src/snake/snake.cpp:2546-2608) on `snakeconn`.  `dotProd` is the dot product for a surface of
its normal and the direction from `fromvert` to `tovert` of the snaxel at the start of its first edge (snake.cpp:2585-2592). -/
def orientSnake {K : Type} [Field K] [LinearOrder K] (m : Mesh) (eps : K) (dotProd : Int → Option K) : Res Mesh :=
  (orientRelative m).bind fun r => (allFlips eps (fun s _ => dotProd s) r).bind fun fl =>
    if 0 < r.2.2 then (flipBlocks r fl).map fun surfs => { m with surfs := surfs } else .ok { m with surfs := r.1 }

end RSVS.Orient
