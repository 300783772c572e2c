import Verif.Spec.MergeEdge
import Verif.Model.SameSurf

/-!
# Specification of the merge of edges on one surface of the snake
-/

namespace RSVS.Spec

open RSVS.MergeEdge

/-- Edge `e` and another edge of the same surface of the parent are on surface `s` of the snake. -/
def SharesSurf (m : Mesh) (cells : List (Int × Int)) (e s : Int) : Prop :=
  ∃ f c, f ≠ e ∧ (e, c) ∈ cells ∧ (f, c) ∈ cells ∧ EdgeSurf m e s ∧ EdgeSurf m f s

/-- The edges in surface `c` of the parent and on surface `s` of the snake. -/
def onSurf (m : Mesh) (cells : List (Int × Int)) (c s : Int) : List (Int × Int) :=
  (cells.filter fun x => decide (x.2 = c) && m.edges.any fun y => decide (y.index = x.1) && decide (s ∈ y.surfind)).map fun x => (x.1, s)

/-- No edge is in two edits. -/
def ApartEdits (l : List PathEdit) : Prop :=
  l.Pairwise fun d d' => ∀ e, e ∈ d.keepE :: d.rmvE → e ∉ d'.keepE :: d'.rmvE

end RSVS.Spec
