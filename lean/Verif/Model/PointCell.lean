import Verif.Model.Curvature

/-!
# The volume in which a point lies

`meshhelp::VertexInVolume` (SRCC/src/grid/mesh.cpp:6613-6711) and `mesh::VertexInVolume` (mesh.cpp:492-528).  The simplifications
are those of `Curv`; `eps` is `__DBL_EPSILON__`.
-/

namespace RSVS.PointCell

open RSVS.Mesh RSVS.Geo

variable {K : Type} [Field K] [LinearOrder K]

/-- What one surface tells about the point: there are no three points on it (with the volume for `alternateVolume`), the point is
on its plane, or the point is on the side of a volume. -/
inductive Look where
  | flat (alt : Int)
  | on
  | side (c : Int)
  deriving DecidableEq, Repr

/-- The body of the loop over the surfaces up to `pointInVolu` (mesh.cpp:6646-6684). -/
def lookAt (m : Mesh) (near : Int → Int → Bool) (co : Int → P3 K) (eps : K) (flip : Bool) (x : List K) (c s : Int) : Res Look :=
  (isearch Surf.index m.surfs s).bind fun f =>
  if f.isordered = false then .error .throws
  else if f.edgeind.length < 3 then .error .throws
  else (Curv.threePoints m near s).bind fun p =>
    if p.length ≠ 3 then
      (vecGet f.voluind 0).bind fun a => (vecGet f.voluind (if a = c then 1 else 0)).map Look.flat
    else (vertexDistance (co (p.getD 0 0)) (co (p.getD 1 0)) (co (p.getD 2 0)) x).bind fun d =>
      if |d| < eps then .ok .on
      else (vecGet f.voluind (if 0 < d * (if flip then -1 else 1) then 1 else 0)).map Look.side

/-- How the loop over the surfaces of the candidate ends (mesh.cpp:6643-6702): the candidate is the volume, the point is outside,
or the next candidate, with `alternateVolume`. -/
inductive Out where
  | inside
  | outside
  | next (c : Int) (alt : Option Int)
  deriving DecidableEq, Repr

/-- The loop over the surfaces (mesh.cpp:6643-6702) with `candidateIsValid` and `alternateVolume`, which is not set at first: to
use it then is undefined. -/
def faceLoop (look : Int → Res Look) (c : Int) : List Int → Bool → Option Int → Res Out
  | [], true, _ => .ok .inside
  | [], false, some a => .ok (.next a (some a))
  | [], false, none => .error .ub
  | s :: ss, valid, alt => (look s).bind fun
    | .flat a => faceLoop look c ss valid (some a)
    | .on => faceLoop look c ss true alt
    | .side d => if d = 0 then .ok .outside else if d ≠ c then .ok (.next d alt) else faceLoop look c ss true alt

/-- The loop over the candidates (mesh.cpp:6637-6709); the first argument is the number of volumes which may still be explored. -/
def walk (m : Mesh) (look : Int → Int → Res Look) : Nat → Int → Option Int → Res Int
  | 0, _, _ => .error .throws
  | n + 1, c, alt => (isearch Volu.index m.volus c).bind fun v =>
    (faceLoop (look c) c v.surfind false alt).bind fun
      | .inside => .ok c
      | .outside => .ok 0
      | .next d alt => walk m look n d alt

/-- `meshhelp::VertexInVolume` (mesh.cpp:6613-6711). -/
def pointInVolume (m : Mesh) (near : Int → Int → Bool) (co : Int → P3 K) (eps : K) (flip : Bool) (x : List K) : Res Int :=
  match m.volus with
  | [] => .ok 0
  | v :: _ => walk m (lookAt m near co eps flip x) m.volus.length v.index none

/-- `tempCoord.assign` for point `i` (mesh.cpp:517, 521): three entries, which are read without check. -/
def readPoint (l : List K) (size i : Nat) : Res (List K) :=
  if i * size + 3 ≤ l.length then .ok ((l.drop (i * size)).take 3) else .error .ub

/-- `mesh::VertexInVolume` (mesh.cpp:492-528). -/
def pointsInVolumes (m : Mesh) (near : Int → Int → Bool) (co : Int → P3 K) (eps : K) (l : List K) (size : Nat) : Res (List Int) :=
  if size < 3 then .error .throws
  else if l.length % size ≠ 0 then .error .throws
  else (readPoint l size 0).bind fun x => (pointInVolume m near co eps false x).bind fun r =>
    (List.range (l.length / size)).mapM (m := Except Fault) fun i =>
      (readPoint l size i).bind (pointInVolume m near co eps (decide (r = 0)))

end RSVS.PointCell
