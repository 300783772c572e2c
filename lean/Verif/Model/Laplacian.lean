import Verif.Model.VertNormal

/-!
# The Laplacian at a vertex

`CotanLaplacianWeight`, `VertexLaplacianVector` (SRCC/src/grid/meshprocessing.cpp:973-1046), `MeshUnitNormals` and `MeshLaplacians`
(meshprocessing.cpp:1101-1141).

Simplifications as in `Model/VertNormal`.  The cotangent is a parameter `cot`, with `none` for a value which is not finite.  The three
coordinates of a vertex are one entry of the lists of the last two functions.  The points around a vertex are read before the loop; in
a sound mesh the searches succeed.
-/

namespace RSVS.Laplacian

open RSVS RSVS.Mesh RSVS.Geo RSVS.VertNormal

variable {K : Type} [Field K] [LinearOrder K] [IsStrictOrderedRing K]

/-- `Angle3Points` (SRCC/src/grid/mesh.cpp:373-379). -/
def angleAt (ang : P3 K → P3 K → K) (c v2 v3 : P3 K) : K := ang (diffPoints c v2 v3).2 (diffPoints c v2 v3).1

/-- `CotanLaplacianWeight` (meshprocessing.cpp:973-985). -/
def cotWeight (cot : K → Option K) (ang : P3 K → P3 K → K) (c prev p next : P3 K) : Option K :=
  match cot (angleAt ang prev c p), cot (angleAt ang next c p) with
  | some x, some y => some (1 / 2 * (x + y))
  | _, _ => none

/-- The loop of `VertexLaplacianVector` (meshprocessing.cpp:1018-1037) over the positions: `lapVec`, `totalCotan`, and whether it came
to the end. -/
def lapLoop (cot : K → Option K) (ang : P3 K → P3 K → K) (c : P3 K) (pts : List (P3 K)) : List Nat → P3 K × K → (P3 K × K) × Bool
  | [], s => (s, true)
  | i :: l, s =>
    match cotWeight cot ang c (pts.getD ((i + pts.length - 1) % pts.length) fun _ => 0) (pts.getD i fun _ => 0)
        (pts.getD ((i + 1) % pts.length) fun _ => 0) with
    | none => (s, false)
    | some x => lapLoop cot ang c pts l (fun k => s.1 k + (pts.getD i fun _ => 0) k * x, s.2 + x)

/-- The edges of the vertex in order (meshprocessing.cpp:995-1009): `none` if they have none. -/
def edgesAround (tab : List Int → Table) (m : Mesh) (v : Vert) (isOrdered : Bool) : Res (Option (List Int)) :=
  if isOrdered then .ok (some v.edgeind)
  else (Order.vertOrderEdges tab m v).map fun r => if r.2 = 0 then some r.1 else none

/-- The points around the vertex (meshprocessing.cpp:1020-1027). -/
def pointsAround (m : Mesh) (co : Int → P3 K) (v : Vert) (es : List Int) : Res (List (P3 K)) :=
  es.mapM (m := Except Fault) fun e => (otherEnd m v.index e).bind fun a => (isearch Vert.index m.verts a).map fun x => co x.index

/-- The end of `VertexLaplacianVector` (meshprocessing.cpp:1039-1045). -/
def lapEnd (len : P3 K → K) (eps : K) (c : P3 K) (s : P3 K × K) : P3 K :=
  if nearZero eps (len fun k => s.1 k * (1 / s.2) - c k) then fun _ => 0 else fun k => s.1 k * (1 / s.2) - c k

/-- `VertexLaplacianVector` (meshprocessing.cpp:987-1046): `lapVec`, which is `old` before, and whether it succeeds. -/
def vertexLaplacian (len : P3 K → K) (ang : P3 K → P3 K → K) (cot : K → Option K) (eps : K) (tab : List Int → Table) (m : Mesh)
    (co : Int → P3 K) (v : Vert) (isOrdered : Bool) (old : P3 K) : Res (P3 K × Bool) :=
  (edgesAround tab m v isOrdered).bind fun o => match o with
  | none => .ok (old, false)
  | some es =>
    if es.length < 3 then .ok (fun _ => 0, false)
    else (pointsAround m co v es).map fun pts =>
      let r := lapLoop cot ang (co v.index) pts (List.range pts.length) (fun _ => 0, 0)
      if r.2 then (lapEnd len eps (co v.index) r.1, true) else (r.1.1, false)

/-- The loop of `MeshLaplacians` (meshprocessing.cpp:1131-1139): `lapVec` is used again for the next vertex. -/
def lapAll (len : P3 K → K) (ang : P3 K → P3 K → K) (cot : K → Option K) (eps : K) (tab : List Int → Table) (m : Mesh)
    (co : Int → P3 K) : List Vert → P3 K → Res (List (P3 K))
  | [], _ => .ok []
  | v :: l, old => (vertexLaplacian len ang cot eps tab m co v false old).bind fun r =>
    (lapAll len ang cot eps tab m co l r.1).map fun rest => r.1 :: rest

/-- `MeshLaplacians` (meshprocessing.cpp:1122-1141). -/
def meshLaplacians (len : P3 K → K) (ang : P3 K → P3 K → K) (cot : K → Option K) (eps : K) (tab : List Int → Table) (m : Mesh)
    (co : Int → P3 K) : Res (List (P3 K)) := lapAll len ang cot eps tab m co m.verts fun _ => 0

/-- `MeshUnitNormals` (meshprocessing.cpp:1101-1120): `none` is a vector which is not finite. -/
def meshUnitNormals (len : P3 K → K) (ang : P3 K → P3 K → K) (eps : K) (tab : List Int → Table) (m : Mesh) (co : Int → P3 K) :
    Res (List (Option (P3 K))) :=
  m.verts.mapM (m := Except Fault) fun v => (vertNormal len ang eps tab m co v false).map fun r =>
    if len r.1 = 0 then none else some (unit len r.1)

end RSVS.Laplacian
