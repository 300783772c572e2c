import Verif.Model.Geometry
import Verif.Model.Order

/-!
# The normal at a vertex

`VertexNormal` (SRCC/src/grid/mesh.cpp:650-735), `meshhelp::NormalShouldFlip` (mesh.cpp:777-818), `vert::SurroundingCoords`
(mesh.cpp:3619-3661) and `vert::Normal` (mesh.cpp:820-861).

Simplifications as in `Model/Geometry`; the length of a vector is the parameter `len`, the angle between two vectors
(`coordvec::angle`, mesh.cpp:266-281) the parameter `ang`.  Nothing overflows, so only the test for a small norm is left of the tests
of lines 681-682 and 708-709.  A division by zero gives 0 where the code gives a value which is not finite; the theorems ask for
divisors which are not zero.
-/

namespace RSVS.VertNormal

open RSVS RSVS.Mesh RSVS.Geo

variable {K : Type} [Field K] [LinearOrder K] [IsStrictOrderedRing K]

/-- `PlaneNormalAndAngle` (mesh.cpp:352-360): the normal and the angle. -/
def planeAndAngle (ang : P3 K → P3 K → K) (c v2 v3 : P3 K) : P3 K × K :=
  (cross (diffPoints c v2 v3).2 (diffPoints c v2 v3).1, ang (diffPoints c v2 v3).2 (diffPoints c v2 v3).1)

/-- `coordvec::Normalize` (mesh.cpp:83-95). -/
def unit (len : P3 K → K) (v : P3 K) : P3 K := fun i => v i / len v

/-- The variables of `VertexNormal` in the loop: `normal`, `totalNormalAngle`, `totalTangentAngle` and `planePrev`. -/
structure Sums (K : Type) where
  normal : P3 K
  total : K
  turn : K
  prev : P3 K

/-- The search for the start (mesh.cpp:678-690): `iStart` and `planePrev`. -/
def findStart (len : P3 K → K) (ang : P3 K → P3 K → K) (eps : K) (c last : P3 K) : Nat → List (P3 K) → Option (Nat × P3 K)
  | _, [] => none
  | i, p :: l =>
    if nearZero eps (len (planeAndAngle ang c last p).1) then findStart len ang eps c last (i + 1) l
    else some (i, (planeAndAngle ang c last p).1)

/-- The body of the loop (mesh.cpp:704-721), with the two points.  `coordvec::mult` multiplies the kept norm
(mesh.cpp:234-242), which is 1, by the angle; the second `Normalize` divides by this. -/
def addFace (len : P3 K → K) (ang : P3 K → P3 K → K) (eps : K) (c : P3 K) (s : Sums K) (q : P3 K × P3 K) : Sums K :=
  if nearZero eps (len (planeAndAngle ang c q.1 q.2).1) then s
  else
    let a := (planeAndAngle ang c q.1 q.2).2
    let u := unit len (planeAndAngle ang c q.1 q.2).1
    let cur : P3 K := fun i => u i * a / (a * 1)
    { normal := fun i => s.normal i + u i * a, total := s.total + a, turn := s.turn + ang cur s.prev, prev := cur }

/-- `VertexNormal` (mesh.cpp:650-735): the normal and `totalTangentAngle`. -/
def vertexNormal (len : P3 K → K) (ang : P3 K → P3 K → K) (eps : K) (c : P3 K) (pts : List (P3 K)) : Res (P3 K × K) :=
  match pts.getLast? with
  | none => .error .throws
  | some last => match findStart len ang eps c last 0 pts with
    | none => .error .throws
    | some (i, plane) =>
      let s := ((List.range pts.length).drop i).foldl (fun s k =>
          addFace len ang eps c s (pts.getD k fun _ => 0, pts.getD ((k + 1) % pts.length) fun _ => 0))
        ⟨fun _ => 0, 0, 0, unit len plane⟩
      .ok (fun i => s.normal i * (1 / s.total), s.turn)

/-- `meshhelp::NormalShouldFlip` (mesh.cpp:777-818).  The exclusive or of line 781 is zero only for equal numbers. -/
def normalShouldFlip (l : List Int) (elm1 elm2 : Int) (voluind : List Int) (inner : Bool) : Res Int :=
  match voluind with
  | [a, b] =>
    if a = b then .error .throws
    else
      let same := -(Order.orderMatch l elm1 elm2).1
      let flip : Int :=
        if b = 0 ∧ same = -1 then 1
        else if a = 0 ∧ same = 1 then 1
        else if b = 0 ∧ same = 1 then -1
        else if a = 0 ∧ same = -1 then -1
        else 0
      if flip = 0 then .error .throws
      else .ok (if inner then -flip else flip)
  | _ => .error .throws

/-- `mesh::VertFromVertEdge` (mesh.cpp:5926-5931). -/
def otherEnd (m : Mesh) (v e : Int) : Res Int :=
  (isearch Edge.index m.edges e).bind fun x => (vecGet x.vertind 0).bind fun a => vecGet x.vertind (if a = v then 1 else 0)

/-- `vert::SurroundingCoords` (mesh.cpp:3619-3661): the edges and the points, `none` for a failure. -/
def surrounding (tab : List Int → Table) (m : Mesh) (co : Int → P3 K) (v : Vert) (isOrdered : Bool) :
    Res (Option (List Int × List (P3 K))) :=
  (if isOrdered then .ok (some v.edgeind)
    else (Order.vertOrderEdges tab m v).map fun r => if r.2 = 0 then some r.1 else none).bind fun o =>
  match o with
  | none => .ok none
  | some es => (es.mapM (m := Except Fault) fun e => (otherEnd m v.index e).bind fun a =>
      (isearch Vert.index m.verts a).map fun x => co x.index).map fun pts => some (es, pts)

/-- The sign of the normal (mesh.cpp:841-858): whether it is changed. -/
def signOf (m : Mesh) (es : List Int) : Res Bool :=
  match es with
  | e0 :: e1 :: _ :: _ => (Order.surfFromEdges m e0 e1 (-1)).bind fun s =>
    if s = -1 then .ok false
    else (isearch Surf.index m.surfs s).bind fun f =>
      if f.isordered then (normalShouldFlip f.edgeind e0 e1 f.voluind true).map fun r => decide (r = -1) else .ok false
  | _ => .ok false

/-- `vert::Normal` (mesh.cpp:820-861): the normal, and whether it was found.  A normal of length zero is divided by zero. -/
def vertNormal (len : P3 K → K) (ang : P3 K → P3 K → K) (eps : K) (tab : List Int → Table) (m : Mesh) (co : Int → P3 K)
    (v : Vert) (isOrdered : Bool) : Res (P3 K × Bool) :=
  (surrounding tab m co v isOrdered).bind fun o => match o with
  | none => .ok (fun _ => 0, false)
  | some (es, pts) => match vertexNormal len ang eps (co v.index) pts with
    | .error _ => .ok (fun _ => 0, false)
    | .ok n => (signOf m es).map fun b => (fun i => if b then -(unit len n.1 i) else unit len n.1 i, true)

end RSVS.VertNormal
