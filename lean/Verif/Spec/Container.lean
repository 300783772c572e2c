/-!
# Specification of lookups, independent of the container model
-/

namespace RSVS.Spec

variable {α κ : Type}

/-- `r` answers "where in `l` is an element with key `k`": `-1` when there is none,
otherwise a position holding such an element. -/
def GoodPos (key : α → κ) (l : List α) (k : κ) (r : Int) : Prop :=
  (r = -1 ∧ ∀ e ∈ l, key e ≠ k) ∨
  (∃ p : Nat, r = (p : Int) ∧ ∃ e, l[p]? = some e ∧ key e = k)

/-- `ps` lists every position of `l` holding key `k`, each once, and no other position. -/
def AllPos (key : α → κ) (l : List α) (k : κ) (ps : List Nat) : Prop :=
  ps.Nodup ∧ ∀ p : Nat, p ∈ ps ↔ ∃ e, l[p]? = some e ∧ key e = k

/-- `m` is the greatest key, or 0 when no key is positive. -/
def IsMaxKey (key : α → Int) (l : List α) (m : Int) : Prop :=
  (∀ e ∈ l, key e ≤ m) ∧ (m = 0 ∨ ∃ e ∈ l, key e = m)

end RSVS.Spec

namespace RSVS.Spec

/-- Pairs with equal keys are adjacent, as C++ guarantees for `unordered_multimap`. -/
def Grouped : List (Int × Nat) → Prop
  | [] => True
  | a :: r => Grouped r ∧ (a.1 ∈ r.map Prod.fst → (r.head?.map Prod.fst) = some a.1)

end RSVS.Spec
