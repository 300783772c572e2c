import Verif.Spec.Mesh
import Verif.Model.SnakeMotion

/-!
# Specification of the first step of spawned snaxels
-/

namespace RSVS.Spec

open RSVS

variable {K : Type} [Field K] [LinearOrder K]

/-- `s` is the length of the shortest edge at the vertex. -/
def ShortestAt (m : Mesh) (len : Int → K) (v : Int) (s : K) : Prop :=
  (∃ e, VertEdge m v e ∧ len e = s) ∧ ∀ e, VertEdge m v e → s ≤ len e

/-- The vertex at the nearer end of the edge of a snaxel. -/
def NearEnd (a : Snax K) (v : Int) : Prop := (a.d ≤ 1 / 2 ∧ v = a.fromvert) ∨ (1 / 2 < a.d ∧ v = a.tovert)

/-- The snaxel that was `a` and is `b` went `x` away from the nearer end. -/
def WentAway (len : Int → K) (a b : Snax K) (x : K) : Prop :=
  b = { a with d := b.d } ∧ 0 ≤ b.d ∧ b.d ≤ 1 ∧ (a.d ≤ 1 / 2 → b.d * len a.edgeind = a.d * len a.edgeind + x) ∧
    (1 / 2 < a.d → (1 - b.d) * len a.edgeind = (1 - a.d) * len a.edgeind + x)

/-- The snaxel may take its step: it is on its edge, which is at the nearer end, and the edges there have lengths. -/
structure MayStep (m : Mesh) (len : Int → K) (a : Snax K) : Prop where
  low : 0 ≤ a.d
  high : a.d ≤ 1
  edge : ∀ v, NearEnd a v → VertEdge m v a.edgeind
  pos : ∀ v, NearEnd a v → ∀ e, VertEdge m v e → 0 < len e

/-- The place along the edge, from the end of lower index. -/
def Along (a : Snax K) (d : K) : K := if a.fromvert < a.tovert then d else 1 - d

end RSVS.Spec
