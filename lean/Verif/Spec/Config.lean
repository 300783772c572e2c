import Verif.Model.Config

/-!
# Specification of the command line, the outputs and the templates
-/

namespace RSVS.Spec

open RSVS.Config

/-- The program runs the optimisation, alone or with the viewer. -/
def Executes (a : Action) : Prop := a = .optimise ∨ a = .interact

/-- The program runs tests. -/
def RunsTests (a : Action) : Prop := ∃ t, a = .tests t

/-- The outputs of a step documented for the levels 0 to 3 (README.md:345): "0-minimal,
1-Logs only, 2-Snake history, 3-All data". -/
def documented : Nat → List Out
  | 0 => []
  | 1 => [.log]
  | 2 => [.log, .snake]
  | _ => [.log, .full]

/-- The outputs `l` cover the outputs `k`; the full data contain the snake. -/
def Covers (l k : List Out) : Prop :=
  ∀ x ∈ k, x ∈ l ∨ (x = .snake ∧ Out.full ∈ l)

/-- `m` stands in `s` after `a`. -/
def Occurs (m s a : List Char) : Prop := ∃ b, s = a ++ m ++ b

/-- The first occurrence of `m` in `s` is after `a`. -/
def FirstAt (m s a : List Char) : Prop :=
  Occurs m s a ∧ ∀ a', Occurs m s a' → a.length ≤ a'.length

end RSVS.Spec
