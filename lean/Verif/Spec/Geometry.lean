import Mathlib.Algebra.Order.Field.Basic
import Mathlib.Algebra.BigOperators.Fin
import Mathlib.Data.Fin.VecNotation
import Mathlib.Logic.Relation

/-!
# What the geometry of meshes should satisfy

Written with sums over the three directions, without the functions of the model.
-/

namespace RSVS.Spec

variable {K : Type} [Field K] [LinearOrder K] [IsStrictOrderedRing K]

/-- `lo` and `hi` are the extreme coordinates in direction `i`, and both are attained. -/
def IsBox (vs : List (Fin 3 → K)) (i : Fin 3) (lo hi : K) : Prop :=
  (∃ v ∈ vs, v i = lo) ∧ (∃ v ∈ vs, v i = hi) ∧ ∀ v ∈ vs, lo ≤ v i ∧ v i ≤ hi

/-- Scalar product. -/
def inner (a b : Fin 3 → K) : K := ∑ i, a i * b i

/-- The Euclidean length. -/
def IsLen (len : (Fin 3 → K) → K) : Prop := ∀ v, 0 ≤ len v ∧ len v * len v = inner v v

/-- Three points are on a line. -/
def Collinear (p q r : Fin 3 → K) : Prop :=
  ∃ a b : K, (a ≠ 0 ∨ b ≠ 0) ∧ ∀ i, a * (q i - p i) + b * (r i - p i) = 0

/-- Four points are on a plane. -/
def Coplanar (p q r s : Fin 3 → K) : Prop :=
  ∃ n : Fin 3 → K, n ≠ 0 ∧ ∃ d : K, inner n p = d ∧ inner n q = d ∧ inner n r = d ∧ inner n s = d

/-- The mean of points with weights. -/
def mean (l : List ((Fin 3 → K) × K)) : Fin 3 → K := fun i =>
  (l.map (fun x => x.1 i * x.2)).sum / (l.map (·.2)).sum

/-- The middle of an edge, weighted with its length. -/
def midWeight (len : (Fin 3 → K) → K) (e : (Fin 3 → K) × (Fin 3 → K)) : (Fin 3 → K) × K :=
  (fun i => (e.1 i + e.2 i) / 2, len (fun i => e.1 i - e.2 i))

/-- A point is within the bounds of the ends of the edges. -/
def InBounds (es : List ((Fin 3 → K) × (Fin 3 → K))) (p : Fin 3 → K) : Prop :=
  ∀ (i : Fin 3) (lo hi : K),
    (∀ e ∈ es, lo ≤ e.1 i ∧ e.1 i ≤ hi ∧ lo ≤ e.2 i ∧ e.2 i ≤ hi) → lo ≤ p i ∧ p i ≤ hi

/-- Translation of edges. -/
def shiftEdges (t : Fin 3 → K) (es : List ((Fin 3 → K) × (Fin 3 → K))) :
    List ((Fin 3 → K) × (Fin 3 → K)) :=
  es.map (fun e => (fun i => e.1 i + t i, fun i => e.2 i + t i))

/-- A generation relation without cycles in which no mesh is reached in two ways. -/
structure Forest (gen : Nat → List Nat) : Prop where
  rank : ∃ r : Nat → Nat, ∀ a, ∀ f ∈ gen a, r f < r a
  once : ∀ a, (gen a).Nodup
  one : ∀ a b f, f ∈ gen a → f ∈ gen b → a = b

/-- `j` is a relative of `a`, after one generation or more. -/
def Relative (gen : Nat → List Nat) : Nat → Nat → Prop := Relation.TransGen (fun a f => f ∈ gen a)

end RSVS.Spec
