import Verif.Spec.Geometry
import Verif.Spec.Order
import Verif.Spec.VertNormal

/-!
# Specification of the Laplacian at a vertex
-/

namespace RSVS.Spec

open RSVS.Mesh RSVS.Geo

variable {K : Type} [Field K] [LinearOrder K] [IsStrictOrderedRing K]

/-- `cot` is the cotangent of the angles: the dot product over the length of the cross product, where this is not zero. -/
def IsCot (len : P3 K → K) (ang : P3 K → P3 K → K) (cot : K → Option K) : Prop :=
  ∀ a b, cornerNormal 0 b a ≠ 0 → cot (ang a b) = some (inner a b / len (cornerNormal 0 b a))

/-- The direction in which the area of a triangle shrinks fastest when `c` is moved: the unit normal times the opposite side. -/
def areaPull (len : P3 K → K) (c : P3 K) (q : P3 K × P3 K) : P3 K := fun i =>
  cornerNormal 0 (fun j => q.2 j - q.1 j) (cornerNormal c q.1 q.2) i / len (cornerNormal c q.1 q.2)

/-- The square of the opposite side over twice the area. -/
def sideWeight (len : P3 K → K) (c : P3 K) (q : P3 K × P3 K) : K :=
  inner (fun j => q.2 j - q.1 j) (fun j => q.2 j - q.1 j) / len (cornerNormal c q.1 q.2)

/-- The Laplacian at `c` in a ring of points: the sum of the directions in which the areas of the triangles shrink, divided by the
weights. -/
def cotLaplacian (len : P3 K → K) (c : P3 K) (pts : List (P3 K)) : P3 K := fun i =>
  ((fanPairs pts).map fun q => areaPull len c q i).sum / ((fanPairs pts).map (sideWeight len c)).sum

/-- The triangles around `c` are in one plane with normal `n`, and go round it in one direction. -/
def FlatAround (c n : P3 K) (pts : List (P3 K)) : Prop :=
  ∀ q ∈ fanPairs pts, ∃ a, 0 < a ∧ ∀ i, cornerNormal c q.1 q.2 i = a * n i

/-- The edges `r` of the vertex, in a ring with one surface between following edges, and the points at their other ends. -/
structure RingAround (m : Mesh) (co : Int → P3 K) (v : Vert) (r : List Int) (pts : List (P3 K)) : Prop where
  loop : IsLoop (EdgeParts m) r
  once : r.Nodup
  edges : ∀ e, e ∈ r ↔ e ∈ v.edgeind
  ends : List.Forall₂ (fun e x => ∃ a, EdgeJoins m e v.index a ∧ a ≠ v.index ∧ x = co a) r pts

/-- The edges of the vertex, three or more, can be put in a ring, and no corner between two edges of one surface is flat. -/
structure OpenVert (m : Mesh) (co : Int → P3 K) (v : Vert) : Prop where
  ring : ∃ r, 3 ≤ r.length ∧ r.Nodup ∧ (∀ e, e ∈ r ↔ e ∈ v.edgeind) ∧ IsLoop (EdgeParts m) r
  corners : ∀ e e' a b s, e ≠ e' → EdgeJoins m e v.index a → EdgeJoins m e' v.index b → EdgeSurf m e s → EdgeSurf m e' s →
    cornerNormal (co v.index) (co a) (co b) ≠ 0

/-- Each edge has two different ends. -/
def TwoEnds (m : Mesh) : Prop := ∀ x ∈ m.edges, ∃ a b, x.vertind = [a, b] ∧ a ≠ b

/-- A vector, or zero if it is shorter than `eps`. -/
def cutShort (len : P3 K → K) (eps : K) (x : P3 K) : P3 K := if |len x| < eps then 0 else x

end RSVS.Spec
