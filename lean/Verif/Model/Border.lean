import Mathlib.Data.List.Basic
import Mathlib.Algebra.Order.Ring.Rat
import Verif.Model.Mesh

/-!
# Border marks

`mesh::SetBorders` (SRCC/src/grid/mesh.cpp:4175-4329) and `mesh::GetOffBorderVert`
(mesh.cpp:3964-4173).
-/

namespace RSVS.Mesh

/-- The loops `while (jj < nT && !isBorder) { isBorder = ...; jj++; }` and the loops left by
`break`: the first hit ends them, so what follows is not looked up. -/
def anyHit (f : Int → Res Bool) : List Int → Res Bool
  | [] => .ok false
  | x :: xs => do
    let b ← f x
    if b then .ok true else anyHit f xs

/-- The loops over all elements of a container. -/
def markAll {α : Type} (f : α → Res Bool) (set : α → Bool → α) (l : List α) : Res (List α) :=
  l.mapM (fun x => do
    let b ← f x
    pure (set x b))

/-- `surfs(surfs.find(s))->isBorder` and the like: throws when `s` is not found. -/
def surfBorder (surfs : List Surf) (s : Int) : Res Bool := do
  let x ← elemAt surfs (posOf Surf.index surfs s)
  pure x.isBorder

def edgeBorder (edges : List Edge) (e : Int) : Res Bool := do
  let x ← elemAt edges (posOf Edge.index edges e)
  pure x.isBorder

def vertBorder (verts : List Vert) (v : Int) : Res Bool := do
  let x ← isearch Vert.index verts v
  pure x.isBorder

/-- The vertices of an edge (mesh.cpp:4288-4295). -/
def edgeTouches (m : Mesh) (e : Int) : Res Bool := do
  let x ← isearch Edge.index m.edges e
  anyHit (vertBorder m.verts) x.vertind

/-- The edges of a surface (mesh.cpp:4286-4300). -/
def surfTouches (m : Mesh) (s : Int) : Res Bool := do
  let x ← isearch Surf.index m.surfs s
  anyHit m.edgeTouches x.edgeind

/-- First part of `SetBorders` when there are volumes (mesh.cpp:4178-4221). -/
def setBorders3 (m : Mesh) : Res Mesh := do
  let surfs ← markAll (fun s => anyHit (fun c => .ok (c == 0)) s.voluind)
    (fun s b => { s with isBorder := b }) m.surfs
  let volus ← markAll (fun c => anyHit (surfBorder surfs) c.surfind)
    (fun c b => { c with isBorder := b }) m.volus
  let edges ← markAll (fun e => anyHit (surfBorder surfs) e.surfind)
    (fun e b => { e with isBorder := b }) m.edges
  pure { m with surfs := surfs, volus := volus, edges := edges }

/-- First part of `SetBorders` without volumes (mesh.cpp:4222-4251). -/
def setBorders2 (m : Mesh) : Res Mesh := do
  let edges ← markAll (fun e => anyHit (fun s => .ok (s == 0)) e.surfind)
    (fun e b => { e with isBorder := b }) m.edges
  let surfs ← markAll (fun s => anyHit (edgeBorder edges) s.edgeind)
    (fun s b => { s with isBorder := b }) m.surfs
  pure { m with surfs := surfs, edges := edges }

/-- The vertices (mesh.cpp:4253-4265). -/
def setBordersVert (m : Mesh) : Res Mesh := do
  let verts ← markAll (fun v => anyHit (edgeBorder m.edges) v.edgeind)
    (fun v b => { v with isBorder := b }) m.verts
  pure { m with verts := verts }

/-- The last part with volumes (mesh.cpp:4267-4305): only unmarked volumes are looked at. -/
def spreadVolu (m : Mesh) : Res Mesh := do
  let volus ← markAll (fun c => if c.isBorder then .ok true else anyHit m.surfTouches c.surfind)
    (fun c b => { c with isBorder := b }) m.volus
  pure { m with volus := volus }

/-- The last part without volumes (mesh.cpp:4306-4327). -/
def spreadSurf (m : Mesh) : Res Mesh := do
  let surfs ← markAll (fun s => if s.isBorder then .ok true else anyHit m.edgeTouches s.edgeind)
    (fun s b => { s with isBorder := b }) m.surfs
  pure { m with surfs := surfs }

/-- `mesh::SetBorders` (mesh.cpp:4175-4329); the flag `borderIsSet` is left out. -/
def setBorders (m : Mesh) : Res Mesh :=
  if m.volus.length > 0 then do
    let m ← setBorders3 m
    let m ← setBordersVert m
    spreadVolu m
  else do
    let m ← setBorders2 m
    let m ← setBordersVert m
    spreadSurf m

/-! ### Vertices off the border -/

/-- The test on a border volume (mesh.cpp:4024-4053).  `vals` is what `VoluValuesofParents`
returns for the volume, one value for each parent. -/
def outerTest (outer : Int) (eps : ℚ) (vals : List ℚ) : Res Bool :=
  if outer = 0 then .ok (vals.any (fun v => decide (|v - 1| < eps)))
  else if outer = 1 then .ok (vals.any (fun v => decide (|v| > eps)))
  else if outer ≠ -1 then .error .throws
  else .ok true

/-- `if (voluOnBoundary) { ... }` (mesh.cpp:4022-4024). -/
def outerSel (outer : Int) (eps : ℚ) (vals : Int → List ℚ) (c : Volu) : Res Bool :=
  if c.isBorder then outerTest outer eps (vals c.index) else .ok false

/-- The vertices of an edge which are not on the border (mesh.cpp:4064-4070). -/
def offBorderEdge (m : Mesh) (e : Int) : Res (List Int) := do
  let x ← isearch Edge.index m.edges e
  let l ← x.vertind.mapM (fun v => do
    let b ← vertBorder m.verts v
    pure (if b then [] else [v]))
  pure l.flatten

def offBorderSurf (m : Mesh) (s : Int) : Res (List Int) := do
  let x ← isearch Surf.index m.surfs s
  let l ← x.edgeind.mapM m.offBorderEdge
  pure l.flatten

/-- One volume: vertices and volume pushed. -/
def offBorderVolu (m : Mesh) (outer : Int) (eps : ℚ) (vals : Int → List ℚ) (c : Volu) :
    Res (List Int × List Int) := do
  let b ← outerSel outer eps vals c
  if b then do
    let l ← c.surfind.mapM m.offBorderSurf
    pure (l.flatten, [c.index])
  else pure ([], [])

/-- `mesh::GetOffBorderVert3D` (mesh.cpp:3996-4072): `vertInd` and `voluInd`. -/
def getOffBorderVert3D (m : Mesh) (outer : Int) (eps : ℚ) (vals : Int → List ℚ) :
    Res (List Int × List Int) := do
  let l ← m.volus.mapM (m.offBorderVolu outer eps vals)
  pure ((l.map Prod.fst).flatten, (l.map Prod.snd).flatten)

/-- The overload of `mesh::GetOffBorderVert` which is not `const` (mesh.cpp:3964-3982), with the
number of nested calls allowed as a parameter: after setting the borders it calls, on `this` which
is not `const`, the same overload again. -/
def getOffBorderVertNonConst : Nat → Mesh → Bool → Res (List Int × List Int)
  | 0, _, _ => .error .diverges
  | depth + 1, m, borderIsSet =>
    if borderIsSet then getOffBorderVertNonConst depth m true
    else do
      let m' ← setBorders m
      getOffBorderVertNonConst depth m' true

end RSVS.Mesh
