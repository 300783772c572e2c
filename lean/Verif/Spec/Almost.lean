import Mathlib.Algebra.Order.Field.Basic
import Verif.Model.SnakeMotion

/-!
# Specification of snaxels about to reach a vertex
-/

namespace RSVS.Spec

variable {K : Type} [Field K] [LinearOrder K]

/-- The snaxel does not move away from vertex `v`, is not there, and is nearer to it than `lim`, at distance `r` (in lengths of its edge). -/
def ClosesOn (eps lim : K) (s : Snax K) (v : Int) (r : K) : Prop :=
  r < lim ∧ ((s.fromvert = v ∧ r = s.d ∧ s.v ≤ 0 ∧ eps ≤ |s.d|) ∨ (s.tovert = v ∧ r = 1 - s.d ∧ 0 ≤ s.v ∧ eps ≤ |s.d - 1|))

/-- The snaxel moved to vertex `v`, which is one end of its edge, and what is reported of it. -/
def PutOn (s s' : Snax K) (v : Int) (report : Int × Int) : Prop :=
  (s.fromvert = v ∧ s' = { s with d := 0 } ∧ report = (s.index, -1)) ∨ (s.tovert = v ∧ s' = { s with d := 1 } ∧ report = (s.index, -2))

/-- Of the snaxels which close on a vertex, if there are at least two, one of the nearest is put on the vertex and reported, and the other snaxels stay.  `pick` is
the position in the list of the snaxel put on a vertex. -/
structure NearestPut (eps lim : K) (vs : List Int) (l l' : List (Snax K)) (new : List (Int × Int)) (pick : Int → Option Nat) : Prop where
  two : ∀ v ∈ vs, (pick v).isSome ↔ ∃ (i j : Nat) (s t : Snax K) (r q : K), i ≠ j ∧ l[i]? = some s ∧ l[j]? = some t ∧ ClosesOn eps lim s v r ∧ ClosesOn eps lim t v q
  nearest : ∀ v ∈ vs, ∀ i, pick v = some i → ∃ s r, l[i]? = some s ∧ ClosesOn eps lim s v r ∧ ∀ t ∈ l, ∀ q, ClosesOn eps lim t v q → r ≤ q
  put : ∀ v ∈ vs, ∀ i, pick v = some i → ∃ s s' report, l[i]? = some s ∧ l'[i]? = some s' ∧ PutOn s s' v report ∧ report ∈ new
  stay : ∀ i : Nat, (∀ v ∈ vs, pick v ≠ some i) → l'[i]? = l[i]?
  reports : new.map Prod.fst = (vs.filterMap pick).filterMap fun i => l[i]?.map Snax.index

end RSVS.Spec
