import Verif.Model.Mesh

/-!
# Volumes of a snake which meet at a removed vertex are merged

`ModifyMergVoluConnec` (SRCC/src/snake/snakeengine.cpp:1392-1441).
-/

namespace RSVS.MergeVolu

open RSVS.Mesh

/-- `ConnecRemv` with `typeobj` 4; `scopeind` is empty. -/
structure VoluEdit where
  keep : Int
  rmv : List Int
  deriving DecidableEq, Repr

/-- The volumes around a vertex, sorted and without repetitions (snakeengine.cpp:1400-1409). -/
def volusAround (m : Mesh) (v : Int) : Res (List Int) :=
  (isearch Vert.index m.verts v).bind fun x =>
  (concatField m.edges Edge.surfind (posList Edge.index m.edges x.edgeind)).bind fun ss =>
  (concatField m.surfs Surf.voluind (posList Surf.index m.surfs ss)).map sortUnique

/-- One turn of the loop (snakeengine.cpp:1398-1440). -/
def voluStep (a : Mesh × List VoluEdit) (v : Int) : Res (Mesh × List VoluEdit) :=
  (volusAround a.1 v).bind fun t =>
  if t.length > 1 then
    (vecGet t 0).bind fun t0 =>
    let kk : Nat := if t0 = 0 then 1 else 0
    if t.length > kk + 1 then
      (vecGet t kk).bind fun keep =>
      let rmv := (t.drop (kk + 1)).filter fun c => decide (c > 0)
      if rmv.length > 0 then
        (rmv.foldlM (m := Except Fault) (fun (m : Mesh) (c : Int) => m.switchVolu c keep) a.1).map fun m => (m, a.2 ++ [⟨keep, rmv⟩])
      else .ok a
    else .ok a
  else .ok a

/-- `ModifyMergVoluConnec` (snakeengine.cpp:1392-1441): the mesh and what is pushed on `connecEdit`. -/
def modifyMergVolu (m : Mesh) (rmvVert : List Int) : Res (Mesh × List VoluEdit) :=
  rmvVert.foldlM (m := Except Fault) voluStep (m, [])

end RSVS.MergeVolu
