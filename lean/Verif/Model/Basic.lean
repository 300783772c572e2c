/-!
# Outcomes shared by the whole model

`/repo` is C++.  A call can return, throw, run into undefined behaviour, or not
return at all.  These cases are kept apart so that a theorem cannot hold only
because the model gave a default value to a failing call.
-/

namespace RSVS

/-- The ways in which a modelled call can fail to return normally.

* `throws`: a C++ exception (`RSVS3D_ERROR_*`, SRCC/incl/warning.hpp; `std::` exceptions).
* `ub`: undefined behaviour, e.g. `std::vector::operator[]` out of range.
* `diverges`: the loop or recursion does not end. -/
inductive Fault
  | throws
  | ub
  | diverges
  deriving DecidableEq, Repr

/-- Result of a modelled call. -/
abbrev Res (α : Type) := Except Fault α

instance {α : Type} [DecidableEq α] : DecidableEq (Res α) := fun a b =>
  match a, b with
  | .ok x, .ok y => if h : x = y then isTrue (h ▸ rfl) else isFalse (fun e => by cases e; exact h rfl)
  | .error x, .error y => if h : x = y then isTrue (h ▸ rfl) else isFalse (fun e => by cases e; exact h rfl)
  | .ok _, .error _ => isFalse (fun e => by cases e)
  | .error _, .ok _ => isFalse (fun e => by cases e)

/-- `std::vector::operator[]` on a valid or invalid position: out of range is
undefined behaviour. -/
def vecGet {α : Type} (v : List α) (i : Int) : Res α :=
  if i < 0 then .error .ub
  else match v[i.toNat]? with
    | some a => .ok a
    | none => .error .ub

end RSVS
