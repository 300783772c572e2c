import Mathlib.Logic.Relation
import Verif.Spec.SnakeJoin

/-!
# Specification of points in holes

What a point in a hole of a snake should be, from the data of the mesh and of the snake alone.
-/

namespace RSVS.Spec

variable {K : Type}

/-- The vertex `v` is inside according to `vertIn`. -/
def VertIn (m : Mesh) (vertIn : List Bool) (v : Int) : Prop :=
  ∃ (i : Nat) (x : Vert), m.verts[i]? = some x ∧ x.index = v ∧ vertIn[i]? = some true

/-- The vertex `v` is inside and not one of the uncertain ones. -/
def SureIn (m : Mesh) (vertIn : List Bool) (unc : List Int) (v : Int) : Prop := VertIn m vertIn v ∧ v ∉ unc

/-- An edge joins two vertices inside. -/
def StepIn (m : Mesh) (vertIn : List Bool) (a b : Int) : Prop :=
  VertIn m vertIn a ∧ VertIn m vertIn b ∧ ∃ e ∈ m.edges, e.vertind = [a, b] ∨ e.vertind = [b, a]

/-- What the search for a point from `v` should do: it ends at a sure vertex that is joined to `v` inside, or there is
none. -/
def GoodHole (m : Mesh) (vertIn : List Bool) (unc : List Int) (v r : Int) : Prop :=
  (SureIn m vertIn unc r ∧ Relation.ReflTransGen (StepIn m vertIn) v r) ∨
  (r = -1 ∧ ∀ w, SureIn m vertIn unc w → ¬ Relation.ReflTransGen (StepIn m vertIn) v w)

/-- The snaxel `x` is on the volume `c` of the snake. -/
def OnVolume (s : Snake K) (c : Volu) (x : Snax K) : Prop :=
  x ∈ s.snaxs ∧ ∃ f ∈ c.surfind, ∃ e, SurfEdge s.conn f e ∧ EdgeVert s.conn e x.index

/-- A snaxel on the volume comes from the vertex `v`. -/
def ComesFrom (s : Snake K) (c : Volu) (v : Int) : Prop := ∃ x, OnVolume s c x ∧ x.fromvert = v

end RSVS.Spec
