import Verif.Spec.Triangle
import Mathlib.Data.List.Rotate
import Mathlib.Algebra.BigOperators.Group.List.Basic

/-! # Loops of points and what triangles make of them -/

namespace RSVS.Spec

variable {α : Type}

/-- The directed edges of a closed loop of points. -/
def loopEdges (l : List α) : List (α × α) := l.zip (l.rotate 1)

/-- Sum of a function of directed edges around a loop. -/
def circulation (φ : α → α → ℝ) (l : List α) : ℝ := ((loopEdges l).map fun e => φ e.1 e.2).sum

/-- `φ` changes its sign with the direction of an edge. -/
def Alternating (φ : α → α → ℝ) : Prop := ∀ a b, φ b a = -φ a b

/-- How often the loops with their weights run along an edge. -/
def flow [DecidableEq α] (loops : List (ℝ × List α)) (a b : α) : ℝ :=
  (loops.map fun p => p.1 * ((loopEdges p.2).count (a, b) : ℝ)).sum

/-- Every edge is passed in both directions alike: the loops with their weights close. -/
def Closed [DecidableEq α] (loops : List (ℝ × List α)) : Prop :=
  ∀ a b, flow loops a b = flow loops b a

/-- Signed volume between the origin and a triangle given as a list of three points. -/
noncomputable def listVolume : List (Fin 3 → ℝ) → ℝ
  | [p, q, r] => coneVolume p q r
  | _ => 0

/-- The triangles, given by their corners, that a polygon is divided into: itself if it has three
corners, otherwise one for each edge with the point `c`. -/
def FanOf (pts : List α) (tris : List (List α)) (c : α) : Prop :=
  (pts.length = 3 ∧ tris = [pts]) ∨
    (3 < pts.length ∧ tris = (loopEdges pts).map fun e => [e.1, e.2, c])

end RSVS.Spec
