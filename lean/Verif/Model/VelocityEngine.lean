import Mathlib.Algebra.Order.Field.Rat
import Verif.Model.Basic

/-!
# Velocities of a snake without the RSVS

`RSVSclass::setVelocityEngine` (SRCC/src/rsvs/RSVSclass.cpp:10-29), the functions it chooses from
(SRCC/src/snake/triangulate.cpp:19-102) and `CalculateNoNanSnakeVel` (triangulate.cpp:104-126).

Doubles are rationals; in `noNan` a velocity that is not finite is `none`.
-/

namespace RSVS.VelEng

open RSVS

/-- The choices of RSVSclass.cpp:10-29. -/
inductive Engine | rsvs | slow | random | unit | reflect | fast
  deriving DecidableEq

/-- `setVelocityEngine` (RSVSclass.cpp:10-29). -/
def engineOf (s : String) : Res Engine :=
  if s = "rsvs" then .ok .rsvs
  else if s = "random-slow" then .ok .slow
  else if s = "random" then .ok .random
  else if s = "unit" then .ok .unit
  else if s = "unit-reflect" then .ok .reflect
  else if s = "fast" then .ok .fast
  else .error .throws

/-- The fields of a snax used here (SRCC/incl/snake.hpp:190-200). -/
structure Snax where
  index : Int
  d : ℚ
  v : ℚ
  isfreeze : Int
  deriving DecidableEq

/-- A frozen snax is sent to the middle of its edge (triangulate.cpp:25-29, 41-45). -/
def toMiddle (s : Snax) : Snax := if s.isfreeze = 1 then { s with v := (1 / 2 - s.d) * (3 / 10), isfreeze := 0 } else s

/-- One pass of the loop of each function, with the value `r` of `rand()` (triangulate.cpp:19-102).
The RSVS gives its velocities elsewhere. -/
def stepOf (e : Engine) (r : Nat) (s : Snax) : Snax :=
  match e with
  | .rsvs => s
  | .slow => let t := toMiddle s; { t with v := (2 / 5 * (((r % 1001 : Nat) : ℚ) / 1000) + 4 / 5) * t.v }
  | .random => let t := toMiddle s; { t with v := (((r % 1001 : Nat) : ℚ) / 1000 + 1 / 2) * t.v }
  | .unit => if s.isfreeze = 1 then { s with v := 0, isfreeze := 0 } else { s with v := 1 }
  | .reflect => if s.isfreeze = 1 then { s with v := -(1 / 5) * s.v, isfreeze := 0 } else { s with v := 1 * s.v }
  | .fast => let t := if s.isfreeze = 1 then { s with v := 0, isfreeze := 0 } else s; { t with v := 4 }

/-- The loop over the snaxels; `rand` gives one value for each (triangulate.cpp:23, 39, 55, 73, 91). -/
def velocities (e : Engine) (rand : Nat → Nat) (l : List Snax) : List Snax := l.mapIdx fun i s => stepOf e (rand i) s

/-- A snax whose velocity may not be finite. -/
structure SnaxF where
  index : Int
  d : ℚ
  v : Option ℚ
  deriving DecidableEq

/-- `CalculateNoNanSnakeVel` (triangulate.cpp:104-126): the snaxels and the number that is printed. -/
def noNan (delta : ℚ) (l : List SnaxF) : List SnaxF × Nat :=
  (l.map fun s => match s.v with
    | some _ => s
    | none => { s with v := some ((1 / 2 - s.d) * delta) }, l.countP fun s => s.v.isNone)

end RSVS.VelEng
