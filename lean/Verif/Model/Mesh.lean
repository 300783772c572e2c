import Mathlib.Data.List.Sort
import Mathlib.Data.Rat.Defs
import Verif.Model.Basic

/-!
# Mesh connectivity

Model of the connectivity operations of `class mesh` (SRCC/incl/mesh.hpp:196-739,
SRCC/src/grid/mesh.cpp).

Simplifications, common to the whole file:

* the four containers are taken to be prepared, so that `find` gives the position of the
  element with the index looked for or -1 (properties C01 and C02 of the containers); when an
  index occurs twice the first occurrence is taken, the theorems ask for unique indices
  wherever this matters;
* `meshtree` (the family tree), `edgesLengthsAreSet`, `facesAreOriented` and the modification
  marks are left out;
* real numbers are rationals.
-/

namespace RSVS

/-- `class vert` (mesh.hpp:447-507). -/
structure Vert where
  index : Int
  edgeind : List Int
  coord : List ℚ := [0, 0, 0]
  isBorder : Bool := false
  deriving DecidableEq, Repr

/-- `class edge` (mesh.hpp:352-442); the cached length is left out. -/
structure Edge where
  index : Int
  vertind : List Int
  surfind : List Int
  isBorder : Bool := false
  deriving DecidableEq, Repr

/-- `class surf` (mesh.hpp:266-347). -/
structure Surf where
  index : Int
  edgeind : List Int
  voluind : List Int
  fill : ℚ := 1
  target : ℚ := 1
  error : ℚ := 1
  isBorder : Bool := false
  isordered : Bool := false
  deriving DecidableEq, Repr

/-- `class volu` (mesh.hpp:196-261). -/
structure Volu where
  index : Int
  surfind : List Int
  fill : ℚ := 0
  target : ℚ := 1
  error : ℚ := 1
  isBorder : Bool := false
  deriving DecidableEq, Repr

/-- `class mesh` (mesh.hpp:591-739). -/
structure Mesh where
  verts : List Vert
  edges : List Edge
  surfs : List Surf
  volus : List Volu
  meshDim : Nat := 0
  deriving DecidableEq, Repr

/-- `ArrayStruct::find` on a prepared container (arraystructures_incl.cpp:405-431). -/
def posOf {α : Type} (ix : α → Int) (l : List α) (key : Int) : Int :=
  match l.findIdx? (fun a => ix a == key) with
  | some p => (p : Int)
  | none => -1

/-- `ArrayStruct::find_list` (arraystructures_incl.cpp:433-442). -/
def posList {α : Type} (ix : α → Int) (l : List α) (keys : List Int) : List Int :=
  keys.map (posOf ix l)

/-- `ArrayStruct::operator()` (arraystructures.hpp:183-201): throws out of range. -/
def elemAt {α : Type} (l : List α) (p : Int) : Res α :=
  if p < 0 then .error .throws
  else match l[p.toNat]? with
    | some a => .ok a
    | none => .error .throws

/-- A write through `ArrayStruct::operator[]` (arraystructures.hpp:224-243): throws out of
range. -/
def modAt {α : Type} (l : List α) (p : Int) (f : α → α) : Res (List α) :=
  if p < 0 then .error .throws
  else if p.toNat < l.length then .ok (l.modify p.toNat f)
  else .error .throws

/-- The loops `for ii < subList.size()` which edit the element at each listed position. -/
def visit {α : Type} (l : List α) (subs : List Int) (f : α → α) : Res (List α) :=
  subs.foldlM (fun l p => modAt l p f) l

/-- The same loops with the test `if (subList[ii] != -1)`. -/
def visitKnown {α : Type} (l : List α) (subs : List Int) (f : α → α) : Res (List α) :=
  subs.foldlM (fun l p => if p ≠ -1 then modAt l p f else .ok l) l

/-- The loop `for jj: if (list[jj]==old) { erase(begin+jj); jj--; }`
(e.g. mesh.cpp:2339-2346). -/
def eraseAll (old : Int) : List Int → List Int
  | [] => []
  | x :: xs => if x = old then eraseAll old xs else x :: eraseAll old xs

/-- The loop `for jj: if (list[jj]==old) list[jj]=new;` (e.g. mesh.cpp:2061-2067). -/
def replaceAll (old new : Int) : List Int → List Int
  | [] => []
  | x :: xs => (if x = old then new else x) :: replaceAll old new xs

/-- `std::unique` followed by `resize` (arraystructures_incl.cpp:159-163): drops an entry equal
to the one before it. -/
def uniqueAdj : List Int → List Int
  | [] => []
  | [x] => [x]
  | x :: y :: r => if x = y then uniqueAdj (y :: r) else x :: uniqueAdj (y :: r)

/-- `sort(vec); unique(vec);` (arraystructures_incl.cpp:155-163). -/
def sortUnique (l : List Int) : List Int :=
  uniqueAdj (l.insertionSort (· ≤ ·))

/-- `ArrayStruct::remove` (arraystructures_incl.cpp:642-660). -/
def removeIdx {α : Type} (ix : α → Int) (l : List α) (del : List Int) : List α :=
  l.filter (fun a => !del.contains (ix a))

/-- `ConcatenateVectorField` (arraystructures_incl.cpp:60-74): each list is inserted at the end;
the access throws when the position is not valid. -/
def concatField {α : Type} (l : List α) (field : α → List Int) (subs : List Int) :
    Res (List Int) :=
  subs.foldlM (fun acc p => do
    let a ← elemAt l p
    pure (acc ++ field a)) []

/-! ### Renumbering and concatenation -/

/-- The guarded shift `x > 0 ? x + n : x` (mesh.cpp:1963, 1972, 1991). -/
def shiftPos (n x : Int) : Int := if x > 0 then x + n else x

/-- `volu::ChangeIndices` (mesh.cpp:1957-1965). -/
def Volu.shift (_nVert _nEdge nSurf nVolu : Int) (x : Volu) : Volu :=
  { x with index := x.index + nVolu, surfind := x.surfind.map (shiftPos nSurf) }

/-- `surf::ChangeIndices` (mesh.cpp:1966-1979). -/
def Surf.shift (_nVert nEdge nSurf nVolu : Int) (x : Surf) : Surf :=
  { x with index := x.index + nSurf, voluind := x.voluind.map (shiftPos nVolu),
           edgeind := x.edgeind.map (· + nEdge) }

/-- `edge::ChangeIndices` (mesh.cpp:1980-1993). -/
def Edge.shift (nVert nEdge nSurf _nVolu : Int) (x : Edge) : Edge :=
  { x with index := x.index + nEdge, vertind := x.vertind.map (· + nVert),
           surfind := x.surfind.map (shiftPos nSurf) }

/-- `vert::ChangeIndices` (mesh.cpp:1994-2002). -/
def Vert.shift (nVert nEdge _nSurf _nVolu : Int) (x : Vert) : Vert :=
  { x with index := x.index + nVert, edgeind := x.edgeind.map (· + nEdge) }

namespace Mesh

/-- `mesh::ChangeIndices` (mesh.cpp:3235-3241). -/
def changeIndices (nVert nEdge nSurf nVolu : Int) (m : Mesh) : Mesh :=
  { m with
    volus := m.volus.map (Volu.shift nVert nEdge nSurf nVolu)
    edges := m.edges.map (Edge.shift nVert nEdge nSurf nVolu)
    surfs := m.surfs.map (Surf.shift nVert nEdge nSurf nVolu)
    verts := m.verts.map (Vert.shift nVert nEdge nSurf nVolu) }

/-- `ArrayStruct::SetMaxIndex` (arraystructures_incl.cpp:555-568). -/
def maxIdx {α : Type} (ix : α → Int) (l : List α) : Int :=
  l.foldr (fun a m => if m < ix a then ix a else m) 0

/-- `mesh::MakeCompatible_inplace` (mesh.cpp:3223-3233); the stored maximum indices are taken
to be up to date, as after `PrepareForUse`. -/
def makeCompatible (m other : Mesh) : Mesh :=
  other.changeIndices (maxIdx Vert.index m.verts) (maxIdx Edge.index m.edges)
    (maxIdx Surf.index m.surfs) (maxIdx Volu.index m.volus)

/-- `mesh::Concatenate` (mesh.cpp:3249-3255). -/
def concatenate (m other : Mesh) : Mesh :=
  { m with
    volus := m.volus ++ other.volus
    edges := m.edges ++ other.edges
    verts := m.verts ++ other.verts
    surfs := m.surfs ++ other.surfs }

/-! ### Merging elements -/

/-- One turn of the loop of `SwitchIndex` type 1 (mesh.cpp:2029-2043) on vertices and edges.
`vertind[1]` is a plain vector access. -/
def switchVertStep (old new oldSub newSub : Int) (s : List Vert × List Edge) (sub : Int) :
    Res (List Vert × List Edge) := do
  let e ← elemAt s.2 sub
  let x1 ← vecGet e.vertind 1
  let jj : Nat := if x1 = old then 1 else 0
  let edges ← modAt s.2 sub (fun e => { e with vertind := e.vertind.set jj new })
  let verts ← modAt s.1 newSub (fun v => { v with edgeind := v.edgeind ++ [e.index] })
  let verts ← modAt verts oldSub (fun v => { v with edgeind := eraseAll e.index v.edgeind })
  pure (verts, edges)

/-- `mesh::SwitchIndex` with type 1, a vertex (mesh.cpp:2024-2053). -/
def switchVert (m : Mesh) (old new : Int) : Res Mesh := do
  let newSub := posOf Vert.index m.verts new
  let oldSub := posOf Vert.index m.verts old
  let ov ← elemAt m.verts oldSub
  let subList := posList Edge.index m.edges ov.edgeind
  let (verts, edges) ← subList.foldlM (switchVertStep old new oldSub newSub) (m.verts, m.edges)
  let verts ← modAt verts newSub (fun v => { v with edgeind := sortUnique v.edgeind })
  pure { m with verts := verts, edges := edges }

/-- One turn of the second loop of `SwitchIndex` type 2 (mesh.cpp:2071-2085): each occurrence
of the old edge in the surface is replaced, and the surface appended to the new edge. -/
def switchEdgeStep (is3D : Bool) (old new newSub : Int) (s : List Edge × List Surf) (sub : Int) :
    Res (List Edge × List Surf) :=
  if sub ≠ -1 ∨ is3D = true then do
    let x ← elemAt s.2 sub
    if x.edgeind.contains old then do
      let surfs ← modAt s.2 sub
        (fun x => { x with edgeind := replaceAll old new x.edgeind, isordered := false })
      let edges ← modAt s.1 newSub
        (fun e => { e with surfind := e.surfind ++ List.replicate (x.edgeind.count old) x.index })
      pure (edges, surfs)
    else pure s
  else pure s

/-- `mesh::SwitchIndex` with type 2, an edge (mesh.cpp:2054-2098). -/
def switchEdge (m : Mesh) (old new : Int) : Res Mesh := do
  let newSub := posOf Edge.index m.edges new
  let oe ← elemAt m.edges (posOf Edge.index m.edges old)
  let verts ← visit m.verts (posList Vert.index m.verts oe.vertind)
    (fun v => { v with edgeind := replaceAll old new v.edgeind })
  let (edges, surfs) ← (posList Surf.index m.surfs oe.surfind).foldlM
    (switchEdgeStep (!m.volus.isEmpty) old new newSub) (m.edges, m.surfs)
  pure { m with verts := verts, edges := edges, surfs := surfs }

/-- One turn of the first loop of `SwitchIndex` type 3 (mesh.cpp:2104-2114). -/
def switchSurfEdgeStep (old new newSub : Int) (s : List Surf × List Edge) (sub : Int) :
    Res (List Surf × List Edge) := do
  let x ← elemAt s.2 sub
  if x.surfind.contains old then do
    let edges ← modAt s.2 sub (fun x => { x with surfind := replaceAll old new x.surfind })
    let surfs ← modAt s.1 newSub
      (fun e => { e with edgeind := e.edgeind ++ List.replicate (x.surfind.count old) x.index })
    pure (surfs, edges)
  else pure s

/-- One turn of the second loop of `SwitchIndex` type 3 (mesh.cpp:2118-2131). -/
def switchSurfVoluStep (old new newSub : Int) (s : List Surf × List Volu) (sub : Int) :
    Res (List Surf × List Volu) :=
  if sub ≠ -1 then do
    let x ← elemAt s.2 sub
    if x.surfind.contains old then do
      let volus ← modAt s.2 sub (fun x => { x with surfind := replaceAll old new x.surfind })
      let surfs ← modAt s.1 newSub
        (fun e => { e with voluind := e.voluind ++ List.replicate (x.surfind.count old) x.index })
      pure (surfs, volus)
    else pure s
  else pure s

/-- `mesh::SwitchIndex` with type 3, a surface (mesh.cpp:2099-2148).  The list of volumes is
read again from the container after the first loop, as in the source. -/
def switchSurf (m : Mesh) (old new : Int) : Res Mesh := do
  let newSub := posOf Surf.index m.surfs new
  let os ← elemAt m.surfs (posOf Surf.index m.surfs old)
  let (surfs, edges) ← (posList Edge.index m.edges os.edgeind).foldlM
    (switchSurfEdgeStep old new newSub) (m.surfs, m.edges)
  let os ← elemAt surfs (posOf Surf.index surfs old)
  let (surfs, volus) ← (posList Volu.index m.volus os.voluind).foldlM
    (switchSurfVoluStep old new newSub) (surfs, m.volus)
  let surfs ← modAt surfs newSub (fun s => { s with isordered := false })
  pure { m with surfs := surfs, edges := edges, volus := volus }

/-- One turn of the loop of `SwitchIndex` type 4 (mesh.cpp:2154-2165). -/
def switchVoluStep (old new newSub : Int) (s : List Volu × List Surf) (sub : Int) :
    Res (List Volu × List Surf) := do
  let x ← elemAt s.2 sub
  if x.voluind.contains old then do
    let surfs ← modAt s.2 sub (fun x => { x with voluind := replaceAll old new x.voluind })
    let volus ← modAt s.1 newSub
      (fun e => { e with surfind := e.surfind ++ List.replicate (x.voluind.count old) x.index })
    pure (volus, surfs)
  else pure s

/-- `mesh::SwitchIndex` with type 4, a volume (mesh.cpp:2149-2178). -/
def switchVolu (m : Mesh) (old new : Int) : Res Mesh := do
  let newSub := posOf Volu.index m.volus new
  let ov ← elemAt m.volus (posOf Volu.index m.volus old)
  let (volus, surfs) ← (posList Surf.index m.surfs ov.surfind).foldlM
    (switchVoluStep old new newSub) (m.volus, m.surfs)
  pure { m with surfs := surfs, volus := volus }

/-! ### Detaching elements -/

/-- `mesh::RemoveIndex` with type 1, a vertex (mesh.cpp:2313-2332). -/
def removeVert (m : Mesh) (old : Int) : Res Mesh := do
  let v ← elemAt m.verts (posOf Vert.index m.verts old)
  let edges ← visit m.edges (posList Edge.index m.edges v.edgeind)
    (fun e => { e with vertind := eraseAll old e.vertind })
  pure { m with edges := edges }

/-- `mesh::RemoveIndex` with type 2, an edge (mesh.cpp:2333-2374). -/
def removeEdge (m : Mesh) (old : Int) : Res Mesh := do
  let sub := posOf Edge.index m.edges old
  let e ← elemAt m.edges sub
  let verts ← visit m.verts (posList Vert.index m.verts e.vertind)
    (fun v => { v with edgeind := eraseAll old v.edgeind })
  let surfs ← visitKnown m.surfs (posList Surf.index m.surfs e.surfind)
    (fun s => { s with edgeind := eraseAll old s.edgeind,
                       isordered := s.isordered && !s.edgeind.contains old })
  let edges ← modAt m.edges sub (fun e => { e with vertind := [], surfind := [] })
  pure { m with verts := verts, edges := edges, surfs := surfs }

/-- `mesh::RemoveIndex` with type 3, a surface (mesh.cpp:2375-2416). -/
def removeSurf (m : Mesh) (old : Int) : Res Mesh := do
  let sub := posOf Surf.index m.surfs old
  let s ← elemAt m.surfs sub
  let edges ← visit m.edges (posList Edge.index m.edges s.edgeind)
    (fun e => { e with surfind := eraseAll old e.surfind })
  let volus ← visitKnown m.volus (posList Volu.index m.volus s.voluind)
    (fun c => { c with surfind := eraseAll old c.surfind })
  let surfs ← modAt m.surfs sub (fun s => { s with edgeind := [], voluind := [] })
  pure { m with edges := edges, surfs := surfs, volus := volus }

/-- The loop over `voluind` in `RemoveIndex` type 4 (mesh.cpp:2424-2435): an entry equal to
`old` is erased, and 0 appended when fewer than two entries remain; `done` is the part before
`jj`, `todo` the part from `jj` on.  The loop of the source ends when `jj` reaches the (changing)
size; `fuel` bounds the turns, and its exhaustion is reported as divergence. -/
def eraseVoluLoop (old : Int) : Nat → List Int → List Int → Res (List Int)
  | 0, _, _ => .error .diverges
  | _ + 1, done, [] => .ok done
  | fuel + 1, done, x :: rest =>
    if x = old then
      let rest' := if done.length + rest.length < 2 then rest ++ [0] else rest
      eraseVoluLoop old fuel done rest'
    else eraseVoluLoop old fuel (done ++ [x]) rest

/-- The whole inner loop; twice the length is enough when `old` is not 0
(`Lemmas/Mesh.eraseVolu_ok`). -/
def eraseVolu (old : Int) (l : List Int) : Res (List Int) :=
  eraseVoluLoop old (2 * l.length + 1) [] l

/-- One turn of the loop over surfaces in `RemoveIndex` type 4 (mesh.cpp:2422-2436). -/
def removeVoluStep (old : Int) (l : List Surf) (sub : Int) : Res (List Surf) := do
  let s ← elemAt l sub
  let v ← eraseVolu old s.voluind
  modAt l sub (fun s => { s with voluind := v })

/-- `mesh::RemoveIndex` with type 4, a volume (mesh.cpp:2417-2443). -/
def removeVolu (m : Mesh) (old : Int) : Res Mesh := do
  let sub := posOf Volu.index m.volus old
  let c ← elemAt m.volus sub
  let surfs ← (posList Surf.index m.surfs c.surfind).foldlM (removeVoluStep old) m.surfs
  let volus ← modAt m.volus sub (fun c => { c with surfind := [] })
  pure { m with surfs := surfs, volus := volus }

/-- `mesh::RemoveIndex` (mesh.cpp:2308-2455). -/
def removeIndex (m : Mesh) (typeInd : Nat) (old : Int) : Res Mesh :=
  match typeInd with
  | 1 => m.removeVert old
  | 2 => m.removeEdge old
  | 3 => m.removeSurf old
  | 4 => m.removeVolu old
  | _ => .error .throws

/-! ### Tests of the connectivity -/

/-- Number of entries of a list which are not found and not 0 (the inner loops of
`TestConnectivity`, e.g. mesh.cpp:2487-2499). -/
def unknownRefs {α : Type} (ix : α → Int) (l : List α) (refs : List Int) : Nat :=
  refs.countP (fun r => decide (posOf ix l r < 0) && decide (r ≠ 0))

/-- The loop over the edges of a surface (mesh.cpp:2557-2567), where 0 counts as unknown. -/
def unknownRefs0 {α : Type} (ix : α → Int) (l : List α) (refs : List Int) : Nat :=
  refs.countP (fun r => decide (posOf ix l r < 0))

/-- `mesh::TestConnectivity` (mesh.cpp:2457-2633); the messages are left out. -/
def testConnectivity (m : Mesh) : Nat :=
  (m.verts.map (fun v => if v.edgeind.isEmpty then 1
      else unknownRefs Edge.index m.edges v.edgeind)).sum
  + (m.edges.map (fun e => unknownRefs Vert.index m.verts e.vertind)).sum
  + (m.edges.map (fun e => unknownRefs Surf.index m.surfs e.surfind)).sum
  + (m.surfs.map (fun s => unknownRefs0 Edge.index m.edges s.edgeind
      + (if s.edgeind.isEmpty then 1 else 0))).sum
  + (m.surfs.map (fun s => unknownRefs Volu.index m.volus s.voluind)).sum
  + (m.volus.map (fun c => unknownRefs Surf.index m.surfs c.surfind)).sum

/-- The inner loop of `TestConnectivityBiDir` (e.g. mesh.cpp:2659-2688): for each reference,
unknown references are counted in the first number and one-way references in the second.
`back a r` says whether the element found refers back.  `disp jj` is the access made for the
message about a one-way reference, which throws when `jj` is out of range
(mesh.cpp:2684, 2742, 2788, 2841, 2896).  `zeroCounts` is set in the loop over the edges of a
surface, where an unknown 0 is counted too (mesh.cpp:2820). -/
def biDirLoop {β : Type} (ixB : β → Int) (bs : List β) (zeroCounts : Bool) (back : β → Bool)
    (disp : Nat → Bool) : Nat → List Int → Res (Nat × Nat)
  | _, [] => .ok (0, 0)
  | jj, r :: rest => do
    let p := posOf ixB bs r
    let here ←
      if p < 0 ∧ (r ≠ 0 ∨ zeroCounts = true) then (.ok (1, 0) : Res (Nat × Nat))
      else if r ≠ 0 then do
        let b ← elemAt bs p
        if back b then .ok (0, 0)
        else if disp jj then .ok (0, 1) else .error .throws
      else .ok (0, 0)
    let tail ← biDirLoop ixB bs zeroCounts back disp (jj + 1) rest
    pure (here.1 + tail.1, here.2 + tail.2)

/-- Sum of two-part counts over a list of elements. -/
def sumCounts {α : Type} (f : α → Res (Nat × Nat)) : List α → Res (Nat × Nat)
  | [] => .ok (0, 0)
  | a :: r => do
    let x ← f a
    let y ← sumCounts f r
    pure (x.1 + y.1, x.2 + y.2)

/-- The two totals of `mesh::TestConnectivityBiDir` (mesh.cpp:2635-2957): `errTot` and
`errTotBiDir`. -/
def biDirCounts (m : Mesh) (emptyIsErr : Bool) : Res (Nat × Nat) := do
  let c1 ← sumCounts (fun v : Vert =>
    if emptyIsErr = true ∧ v.edgeind.isEmpty = true then .ok (1, 0)
    else biDirLoop Edge.index m.edges false (fun e => e.vertind.contains v.index)
      (fun jj => decide (jj < m.edges.length)) 0 v.edgeind) m.verts
  let c2 ← sumCounts (fun e : Edge => do
    let c ← biDirLoop Vert.index m.verts false (fun v => v.edgeind.contains e.index)
      (fun jj => decide (jj < m.verts.length)) 0 e.vertind
    pure (c.1 + (if emptyIsErr = true ∧ e.vertind.length ≠ 2 then 1 else 0), c.2)) m.edges
  let c3 ← sumCounts (fun e : Edge =>
    biDirLoop Surf.index m.surfs false (fun s => s.edgeind.contains e.index)
      (fun jj => decide (jj < m.surfs.length)) 0 e.surfind) m.edges
  let c4 ← sumCounts (fun s : Surf => do
    let c ← biDirLoop Edge.index m.edges true (fun e => e.surfind.contains s.index)
      (fun jj => decide (jj < m.edges.length)) 0 s.edgeind
    pure (c.1 + (if s.edgeind.isEmpty then 1 else 0), c.2)) m.surfs
  let c5 ← sumCounts (fun s : Surf => do
    let c ← biDirLoop Volu.index m.volus false (fun c => c.surfind.contains s.index)
      (fun jj => decide (jj < m.volus.length)) 0 s.voluind
    pure (c.1 + (if m.meshDim > 2 ∧ emptyIsErr = true ∧ s.voluind.length ≠ 2 then 1 else 0), c.2))
    m.surfs
  let c6 ← sumCounts (fun c : Volu =>
    biDirLoop Surf.index m.surfs false (fun s => s.voluind.contains c.index)
      (fun _ => true) 0 c.surfind) m.volus
  pure (c1.1 + c2.1 + c3.1 + c4.1 + c5.1 + c6.1, c1.2 + c2.2 + c3.2 + c4.2 + c5.2 + c6.2)

/-- `mesh::TestConnectivityBiDir` (mesh.cpp:2635-2976): only `errTot` is returned (line 2975). -/
def testConnectivityBiDir (m : Mesh) (emptyIsErr : Bool) : Res Nat := do
  let c ← m.biDirCounts emptyIsErr
  pure c.1

/-! ### Tightening -/

/-- `vert::TightenConnectivity` (mesh.hpp:469-473). -/
def tightenVert (v : Vert) : Vert := { v with edgeind := sortUnique v.edgeind }

/-- `edge::TightenConnectivity` (mesh.hpp:379-387): throws with more than two vertices. -/
def tightenEdge (e : Edge) : Res Edge :=
  if e.vertind.length > 2 then .error .throws
  else .ok { e with surfind := sortUnique e.surfind }

/-- `surf::TightenConnectivity` (mesh.hpp:303-310). -/
def tightenSurf (s : Surf) : Surf :=
  { s with voluind := sortUnique s.voluind, edgeind := sortUnique s.edgeind, isordered := false }

/-- `volu::TightenConnectivity` (mesh.hpp:217-221). -/
def tightenVolu (c : Volu) : Volu := { c with surfind := sortUnique c.surfind }

/-- `mesh::TightenConnectivity` (mesh.cpp:2003-2010). -/
def tighten (m : Mesh) : Res Mesh := do
  let edges ← m.edges.mapM tightenEdge
  pure { m with verts := m.verts.map tightenVert, edges := edges,
                surfs := m.surfs.map tightenSurf, volus := m.volus.map tightenVolu }

/-! ### Cropping -/

/-- The `if` of the three steps of the upward part of `mesh::Crop` (mesh.cpp:5711-5747): collect,
or use the list given. -/
def cropPick (c : Prop) [Decidable c] (collected : Res (List Int)) (given : List Int) :
    Res (List Int) := if c then collected else .ok given

/-- The upward part of `mesh::Crop` (mesh.cpp:5711-5747): the four lists of elements to delete. -/
def cropLists (m : Mesh) (indList : List Int) (indType : Nat) :
    Res (List Int × List Int × List Int × List Int) := do
  let vertDel := if indType = 1 then indList else []
  let edgeDel ← cropPick (indType = 1)
    (concatField m.verts Vert.edgeind (posList Vert.index m.verts vertDel))
    (if indType = 2 then indList else [])
  let surfDel ← cropPick (indType ≤ 2)
    (concatField m.edges Edge.surfind (posList Edge.index m.edges edgeDel))
    (if indType = 3 then indList else [])
  let voluDel ← cropPick (indType ≤ 3)
    (concatField m.surfs Surf.voluind (posList Surf.index m.surfs surfDel))
    indList
  pure (vertDel, edgeDel, surfDel, voluDel)

/-- The lists of volumes as used by the rest of `Crop` (mesh.cpp:5751-5765): sorted, without the
first entry if it is 0; the second component is the part which is detached with `RemoveIndex`.
`count` is decreased whether or not a 0 was erased (line 5760). -/
def cropVolus (voluDel : List Int) : List Int × List Int :=
  match sortUnique voluDel with
  | [] => ([], [])
  | x :: r =>
    let kept := if x = 0 then r else x :: r
    (kept, kept.take ((x :: r).length - 1))

/-- Lines 5704-5823 of `mesh::Crop`: everything before the final clean-up. -/
def cropCore (m : Mesh) (indList : List Int) (indType : Nat) : Res Mesh :=
  if indType > 4 ∨ indType < 1 then .error .throws
  else do
    let (vertDel, edgeDel, surfDel, voluDel) ← m.cropLists indList indType
    let (voluDel, detach) := cropVolus voluDel
    let m ← detach.foldlM removeVolu m
    let surfDel := sortUnique (surfDel ++
      ((m.surfs.filter (fun s => s.voluind.length == 0)).map Surf.index))
    let m := { m with surfs := m.surfs.map (fun s =>
      if s.voluind.length = 1 then { s with voluind := s.voluind ++ [0] } else s) }
    let m ← surfDel.foldlM removeSurf m
    let edgeDel := sortUnique (edgeDel ++
      ((m.edges.filter (fun e => e.surfind.length == 0)).map Edge.index))
    let m ← edgeDel.foldlM removeEdge m
    let vertDel := sortUnique (vertDel ++
      ((m.verts.filter (fun v => v.edgeind.length == 0)).map Vert.index))
    let m ← vertDel.foldlM removeVert m
    pure { m with verts := removeIdx Vert.index m.verts vertDel,
                  edges := removeIdx Edge.index m.edges edgeDel,
                  surfs := removeIdx Surf.index m.surfs surfDel,
                  volus := removeIdx Volu.index m.volus voluDel }

/-! ### Removal of degenerate elements -/

/-- `edge::vertconneq` (mesh.cpp:3870-3874). -/
def vertConnEq (a b : Edge) : Res Bool := do
  let a0 ← vecGet a.vertind 0
  let a1 ← vecGet a.vertind 1
  let b0 ← vecGet b.vertind 0
  let b1 ← vecGet b.vertind 1
  pure ((a0 == b0 && a1 == b1) || (a1 == b0 && a0 == b1))

/-- `surf::edgeconneq` (mesh.cpp:3876-3915). -/
def edgeConnEq (a b : Surf) : Bool :=
  a.edgeind.all (fun e => b.edgeind.contains e) && b.edgeind.all (fun e => a.edgeind.contains e)

/-- `ArrayStruct::isearch` (arraystructures.hpp:202-222). -/
def isearch {α : Type} (ix : α → Int) (l : List α) (key : Int) : Res α :=
  elemAt l (posOf ix l key)

/-- The loop over edges of `RemoveSingularConnectors` (mesh.cpp:4507-4523). -/
def singularEdges (m : Mesh) : Nat → List Int → Nat → Res (Mesh × List Int)
  | 0, rmv, _ => .ok (m, rmv)
  | n + 1, rmv, i => do
    let e ← elemAt m.edges i
    let v0 ← vecGet e.vertind 0
    let v1 ← vecGet e.vertind 1
    if v0 = v1 then do
      let m' ← m.removeIndex 2 e.index
      singularEdges m' n (rmv ++ [e.index]) (i + 1)
    else singularEdges m n rmv (i + 1)

/-- The loop over surfaces of `RemoveSingularConnectors` (mesh.cpp:4528-4550); gives the mesh,
the surfaces and the edges to remove. -/
def singularSurfs (m : Mesh) : Nat → List Int → List Int → Nat → Res (Mesh × List Int × List Int)
  | 0, rmv, rmv2, _ => .ok (m, rmv, rmv2)
  | n + 1, rmv, rmv2, i => do
    let s ← elemAt m.surfs i
    let nEdgeSurf := s.edgeind.length
    let (m1, rmv2') ← match s.edgeind with
      | [a, b] => do
        let ea ← isearch Edge.index m.edges a
        let eb ← isearch Edge.index m.edges b
        let eq ← vertConnEq ea eb
        if eq = true ∧ b ≠ a then do
          let m' ← m.switchEdge b a
          pure (m', rmv2 ++ [b])
        else pure (m, rmv2)
      | _ => pure (m, rmv2)
    if nEdgeSurf < 3 then do
      let m2 ← m1.removeIndex 3 s.index
      singularSurfs m2 n (rmv ++ [s.index]) rmv2' (i + 1)
    else singularSurfs m1 n rmv rmv2' (i + 1)

/-- The loop over volumes of `RemoveSingularConnectors` (mesh.cpp:4569-4601). -/
def singularVolus (m : Mesh) (voidError : Bool) :
    Nat → List Int → List Int → Nat → Res (Mesh × List Int × List Int)
  | 0, rmv, rmv2, _ => .ok (m, rmv, rmv2)
  | n + 1, rmv, rmv2, i => do
    let c ← elemAt m.volus i
    let nSurf := c.surfind.length
    let (m1, rmv2') ← match c.surfind with
      | [a, b] => do
        let sa ← isearch Surf.index m.surfs a
        let sb ← isearch Surf.index m.surfs b
        if a ≠ b ∧ edgeConnEq sa sb = true then do
          let m' ← m.switchSurf b a
          pure (m', rmv2 ++ [b])
        else pure (m, rmv2)
      | _ => if nSurf = 3 ∧ voidError = true then .error .throws else pure (m, rmv2)
    if nSurf < 4 then do
      let m2 ← m1.removeIndex 4 c.index
      singularVolus m2 voidError n (rmv ++ [c.index]) rmv2' (i + 1)
    else singularVolus m1 voidError n rmv rmv2' (i + 1)

/-- `mesh::RemoveSingularConnectors` (mesh.cpp:4473-4618). -/
def removeSingular (m : Mesh) (rmvVerts : List Int) (voidError : Bool) : Res Mesh := do
  let m := { m with verts := removeIdx Vert.index m.verts rmvVerts }
  let (m, rmv) ← singularEdges m m.edges.length [] 0
  let m := { m with edges := removeIdx Edge.index m.edges rmv }
  let (m, rmv, rmv2) ← singularSurfs m m.surfs.length [] [] 0
  let m := { m with surfs := removeIdx Surf.index m.surfs rmv,
                    edges := removeIdx Edge.index m.edges rmv2 }
  let (m, rmv, rmv2) ← singularVolus m voidError m.volus.length [] [] 0
  pure { m with volus := removeIdx Volu.index m.volus rmv,
                surfs := removeIdx Surf.index m.surfs rmv2 }

/-- `mesh::Crop` (mesh.cpp:5681-5828).  Simplification: the two calls of `PrepareForUse`, which
set borders, order the edges of the surfaces and compute lengths, are left out. -/
def crop (m : Mesh) (indList : List Int) (indType : Nat) : Res Mesh := do
  let m ← m.cropCore indList indType
  m.removeSingular [] true

/-! ### Reordering -/

/-- The renumbering part of `mesh::ReOrder` (mesh.cpp:5967-6043).  The sorted lists are the
arguments: `std::sort` gives some permutation of each container, the theorems hold for all of
them.  The calls of `PrepareForUse` and of the connectivity test at the end are left out. -/
def renumber (verts : List Vert) (edges : List Edge) (surfs : List Surf) (volus : List Volu)
    (dim : Nat) : Mesh :=
  let ve (r : Int) := posOf Vert.index verts r + 1
  let ed (r : Int) := posOf Edge.index edges r + 1
  let su (r : Int) := posOf Surf.index surfs r + 1
  let vo (r : Int) := posOf Volu.index volus r + 1
  { verts := verts.mapIdx (fun i v => { v with index := i + 1, edgeind := v.edgeind.map ed })
    edges := edges.mapIdx (fun i e => { e with index := i + 1, surfind := e.surfind.map su,
                                               vertind := e.vertind.map ve })
    surfs := surfs.mapIdx (fun i s => { s with index := i + 1, voluind := s.voluind.map vo,
                                               edgeind := s.edgeind.map ed })
    volus := volus.mapIdx (fun i c => { c with index := i + 1, surfind := c.surfind.map su })
    meshDim := dim }

/-- `mesh::ReOrder` (mesh.cpp:5949-6050) as a relation: the containers are permuted (sorted by
`value`), then renumbered.  Simplification: the order itself is not modelled; any permutation
is allowed.  The copy constructor of `edge` (mesh.hpp:417-422), which `std::sort` may use, does
not copy the border mark; the mark of the edges in the result is therefore arbitrary. -/
inductive ReOrders (m : Mesh) : Mesh → Prop
  | mk (verts : List Vert) (edges : List Edge) (surfs : List Surf) (volus : List Volu)
      (hv : verts.Perm m.verts)
      (he : (edges.map (fun e => { e with isBorder := false })).Perm
              (m.edges.map (fun e => { e with isBorder := false })))
      (hs : surfs.Perm m.surfs) (hc : volus.Perm m.volus) :
      ReOrders m (renumber verts edges surfs volus m.meshDim)

end Mesh

end RSVS
