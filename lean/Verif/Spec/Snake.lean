import Verif.Spec.Centroid

/-! # Positions of snaxels and of the points that depend on them -/

namespace RSVS.Spec

/-- A grid of points, and the two ends of the edge each snaxel is on. -/
structure Rails where
  node : ℤ → Fin 3 → ℝ
  start : ℤ → ℤ
  stop : ℤ → ℤ

/-- Position of a snaxel; `d s` is the fraction of the edge that snaxel `s` has gone. -/
def Rails.snaxel (R : Rails) (d : ℤ → ℝ) (s : ℤ) : Fin 3 → ℝ :=
  along (R.node (R.start s)) (R.node (R.stop s)) (d s)

/-- A point of the grid or a snaxel. -/
inductive Corner
  | node (i : ℤ)
  | snaxel (s : ℤ)

/-- Position of a corner. -/
def Corner.pos (R : Rails) (d : ℤ → ℝ) : Corner → Fin 3 → ℝ
  | .node i => R.node i
  | .snaxel s => R.snaxel d s

/-- A point of a triangle: a corner, the centroid of a polygon, or a point that stays. -/
inductive Pt
  | corner (c : Corner)
  | centre (n : ℕ) (c : Fin (n + 1) → Corner)
  | fixed (p : Fin 3 → ℝ)

/-- Position of a point. -/
noncomputable def Pt.pos (R : Rails) (d : ℤ → ℝ) : Pt → Fin 3 → ℝ
  | .corner c => c.pos R d
  | .centre _ c => edgeCentroid fun k => (c k).pos R d
  | .fixed p => p

/-- The snaxels a point depends on. -/
def Pt.Uses : Pt → ℤ → Prop
  | .corner c, s => c = .snaxel s
  | .centre _ c, s => ∃ k, c k = .snaxel s
  | .fixed _, _ => False

/-- The fractions `d`, except for the snaxels listed in `vars`, which have the fractions `y`. -/
def move (d : ℤ → ℝ) (vars : List ℤ) (y : Fin vars.length → ℝ) (s : ℤ) : ℝ :=
  if h : s ∈ vars then y ⟨vars.idxOf s, List.idxOf_lt_length_of_mem h⟩ else d s

/-- The fractions of the listed snaxels. -/
def here (d : ℤ → ℝ) (vars : List ℤ) : Fin vars.length → ℝ := fun k => d (vars.get k)

/-- Area of a triangle with `eps` added to the square of its double. -/
noncomputable def triAreaReg (eps : ℝ) (p q r : Fin 3 → ℝ) : ℝ :=
  Real.sqrt (normSq (crossProduct (q - p) (r - p)) + eps) / 2

/-- Signed volume between the origin and a triangle as the snaxels move. -/
noncomputable def volumeOf (R : Rails) (P : Fin 3 → Pt) (d : ℤ → ℝ) : ℝ :=
  coneVolume ((P 0).pos R d) ((P 1).pos R d) ((P 2).pos R d)

/-- Area of a triangle as the snaxels move. -/
noncomputable def areaOf (R : Rails) (eps : ℝ) (P : Fin 3 → Pt) (d : ℤ → ℝ) : ℝ :=
  triAreaReg eps ((P 0).pos R d) ((P 1).pos R d) ((P 2).pos R d)

/-- How much a triangle counts for constraint `q`: its factors for the cells that `constrMap` leads from
to `q`. -/
def share (constrMap : List (ℤ × ℤ)) (cells : List ℤ) (w : List ℝ) (q : ℤ) : ℝ :=
  ((cells.zip w).map fun p => p.2 * (constrMap.count (p.1, q) : ℝ)).sum

end RSVS.Spec
