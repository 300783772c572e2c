import Verif.Model.Geometry

/-!
# Rays that are ended on a box

`ProjectRay` (SRCC/incl/tetgenrsvs.hpp:251-269, and the same code in SRCC/incl/mesh.hpp:814-833), `GetBoundBox`
(SRCC/src/interfaces/tetgenrsvs.cpp:683-703), the ends of the rays of a Voronoi diagram (tetgenrsvs.cpp:561-569) and `PlaceBorderVertex`
(SRCC/src/grid/mesh.cpp:6321-6350).

Simplifications: finite values are elements of an ordered field and arithmetic on them is exact; a zero is never negative zero.
-/

namespace RSVS.Ray

open RSVS.Geo

variable {K : Type} [Field K] [LinearOrder K]

/-- A floating-point value. -/
inductive Val (K : Type) where
  | nan
  | ninf
  | pinf
  | fin (x : K)
  deriving DecidableEq

/-- The comparison `a < b`, false for values that are not numbers. -/
def Val.lt : Val K → Val K → Bool
  | .nan, _ => false
  | _, .nan => false
  | _, .ninf => false
  | .ninf, _ => true
  | .pinf, _ => false
  | _, .pinf => true
  | .fin x, .fin y => x < y

/-- The division of finite values. -/
def quot (x d : K) : Val K := if d = 0 then (if x = 0 then .nan else if x < 0 then .ninf else .pinf) else .fin (x / d)

/-- `std::min`: the first unless the second is smaller. -/
def vmin (a b : Val K) : Val K := if Val.lt b a then b else a

/-- `std::max`: the first unless it is smaller than the second. -/
def vmax (a b : Val K) : Val K := if Val.lt a b then b else a

/-- One turn of the loop (tetgenrsvs.hpp:266). -/
def slab (lo hi dir orig : P3 K) (i : Fin 3) (l : Val K) : Val K :=
  vmax l (vmin (quot (lo i - orig i) (dir i)) (quot (hi i - orig i) (dir i)))

/-- `ProjectRay` (tetgenrsvs.hpp:251-269). -/
def projectRay (lo hi dir orig : P3 K) (minDist : K) : Val K :=
  vmin (slab lo hi dir orig 2 (slab lo hi dir orig 1 (slab lo hi dir orig 0 .ninf))) (.fin minDist)

/-- The end of a ray (tetgenrsvs.cpp:561-569); none when it is not finite. -/
def rayEnd (lo hi dir orig : P3 K) : Option (P3 K) :=
  match projectRay lo hi dir orig 0 with
  | .fin l => some fun j => l * dir j + orig j
  | _ => none

/-- One coordinate in the loop of `GetBoundBox` (tetgenrsvs.cpp:695-696). -/
def lowStep (a : WithTop K) (x : K) : WithTop K := if a ≤ (x : WithTop K) then a else x

/-- One coordinate in the loop of `GetBoundBox` (tetgenrsvs.cpp:697-698). -/
def highStep (a : WithBot K) (x : K) : WithBot K := if (x : WithBot K) ≤ a then a else x

/-- `GetBoundBox` (tetgenrsvs.cpp:683-703). -/
def boundBox (points : List (P3 K)) : (Fin 3 → WithTop K) × (Fin 3 → WithBot K) :=
  (fun j => points.foldl (fun a p => lowStep a (p j)) ⊤, fun j => points.foldl (fun a p => highStep a (p j)) ⊥)

/-- `PlaceBorderVertex` (mesh.cpp:6321-6350): a value that is not a number passes the test and the vertex is then not a number either. -/
def placeBorder (cin cout lo hi : P3 K) : Res (Option (P3 K)) :=
  let dir : P3 K := fun i => cin i - cout i
  match projectRay lo hi dir cin 0 with
  | .fin l => if 0 < l ∨ l < -(1001 / 1000) then .error .throws else .ok (some fun i => dir i * l + cin i)
  | .nan => .ok none
  | _ => .error .throws

end RSVS.Ray
