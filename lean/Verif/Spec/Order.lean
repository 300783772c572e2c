import Mathlib.Data.List.Basic
import Mathlib.Logic.Relation
import Mathlib.Data.List.Duplicate
import Verif.Spec.Container
import Verif.Spec.Mesh

/-!
# Specification of ordered edge lists
-/

namespace RSVS.Spec

/-- A hash table of the list: each entry with its position, in any order in which equal keys are
adjacent. -/
def IsTable (l : List Int) (t : List (Int × Nat)) : Prop := t.Perm l.zipIdx ∧ Grouped t

/-- Element number `k` of `es` has the ends `e2v[2k]` and `e2v[2k+1]`. -/
def Joins (es e2v : List Int) (e a b : Int) : Prop :=
  ∃ k : Nat, es[k]? = some e ∧
    ((e2v[2 * k]? = some a ∧ e2v[2 * k + 1]? = some b) ∨
      (e2v[2 * k]? = some b ∧ e2v[2 * k + 1]? = some a))

/-- Every end is the end of exactly two elements (or twice of one). -/
def TwoRegular (e2v : List Int) : Prop := ∀ v ∈ e2v, e2v.count v = 2

/-- Two elements have an end in common. -/
def Touch (J : Int → Int → Int → Prop) (e f : Int) : Prop := ∃ v a b, J e v a ∧ J f v b

/-- Two elements are joined by a sequence of elements each touching the next. -/
def Linked (J : Int → Int → Int → Prop) : Int → Int → Prop := Relation.ReflTransGen (Touch J)

/-- The elements, in this order, make a walk: each starts where the one before ends. -/
def IsChain (J : Int → Int → Int → Prop) (es : List Int) : Prop :=
  ∃ w : Nat → Int, ∀ (k : Nat) (e : Int), es[k]? = some e → J e (w k) (w (k + 1))

/-- The elements, in this order, make a simple closed loop: a walk which ends where it starts and
does not meet a vertex twice. -/
def IsLoop (J : Int → Int → Int → Prop) (es : List Int) : Prop :=
  ∃ w : Nat → Int, (∀ (k : Nat) (e : Int), es[k]? = some e → J e (w k) (w (k + 1))) ∧
    w es.length = w 0 ∧ ∀ i j, i < es.length → j < es.length → w i = w j → i = j

/-- Edge `e` of the mesh joins the vertices `a` and `b`. -/
def EdgeJoins (m : Mesh) (e a b : Int) : Prop :=
  ∃ x ∈ m.edges, x.index = e ∧ (x.vertind = [a, b] ∨ x.vertind = [b, a])

end RSVS.Spec

namespace RSVS.Spec

/-- Edge `e` of the mesh lies between the surfaces `a` and `b` and no other. -/
def EdgeParts (m : Mesh) (e a b : Int) : Prop :=
  ∃ x ∈ m.edges, x.index = e ∧ (x.surfind = [a, b] ∨ x.surfind = [b, a])

/-- Surface `s` has both edges. -/
def BothEdges (m : Mesh) (e1 e2 s : Int) : Prop := SurfEdge m s e1 ∧ SurfEdge m s e2

/-- `w` goes once around the loop of the elements: element `k` is from `w k` to `w (k + 1)`. -/
def GoesRound (J : Int → Int → Int → Prop) (es : List Int) (w : Nat → Int) : Prop :=
  (∀ (k : Nat) (e : Int), es[k]? = some e → J e (w k) (w (k + 1))) ∧
    w es.length = w 0 ∧ ∀ i j, i < es.length → j < es.length → w i = w j → i = j

/-- In the list seen as a cycle, `b` comes directly after `a`. -/
def Follows (l : List Int) (a b : Int) : Prop :=
  ∃ i : Nat, l[i]? = some a ∧ l[(i + 1) % l.length]? = some b

end RSVS.Spec
