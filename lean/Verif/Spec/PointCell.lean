import Verif.Spec.FaceFan
import Verif.Spec.Mesh
import Verif.Model.Geometry

/-!
# Specification of the volume in which a point lies
-/

namespace RSVS.Spec

open RSVS.Geo

variable {K : Type} [Field K] [LinearOrder K]

/-- Six times the signed volume of the tetrahedron on the points. -/
def sixVol (a b c x : P3 K) : K :=
  (b 0 - a 0) * ((c 1 - a 1) * (x 2 - a 2) - (c 2 - a 2) * (x 1 - a 1)) -
    (b 1 - a 1) * ((c 0 - a 0) * (x 2 - a 2) - (c 2 - a 2) * (x 0 - a 0)) +
    (b 2 - a 2) * ((c 0 - a 0) * (x 1 - a 1) - (c 1 - a 1) * (x 0 - a 0))

/-- How far the point is outside of volume `c` at the surface: from the plane of the first three corners `w`.  The corners go round
the surface so that its normal is from its first to its second volume. -/
def beyond (co : Int → P3 K) (w : Nat → Int) (f : Surf) (c : Int) (x : P3 K) : K :=
  (if f.voluind.head? = some c then 1 else -1) * sixVol (co (w 0)) (co (w 1)) (co (w 2)) x

/-- The surfaces have each a ring of corners, in order, no two of them near each other, and two volumes; they are flat, the first
three corners are not on one line and the others are on the same side of the first edge.  The first edge of each is stored in the
direction of the ring (`fw`), or all are stored against it. -/
structure FacesAlong (m : Mesh) (near : Int → Int → Bool) (co : Int → P3 K) (fw : Bool) (w : Int → Nat → Int) : Prop where
  ring : ∀ f ∈ m.surfs, RingFace m f (w f.index)
  ordered : ∀ f ∈ m.surfs, f.isordered = true
  two : ∀ f ∈ m.surfs, ∃ a b, f.voluind = [a, b] ∧ a ≠ b
  apart : ∀ f ∈ m.surfs, ∀ i j, i < f.edgeind.length → j < f.edgeind.length → i ≠ j →
    near (w f.index i) (w f.index j) = false
  convex : ∀ f ∈ m.surfs, ∀ k, 2 ≤ k → k < f.edgeind.length → ∃ t : K, 0 < t ∧ ∀ x,
    sixVol (co (w f.index 0)) (co (w f.index 1)) (co (w f.index k)) x =
      t * sixVol (co (w f.index 0)) (co (w f.index 1)) (co (w f.index 2)) x
  plane : ∀ f ∈ m.surfs, ∃ x, sixVol (co (w f.index 0)) (co (w f.index 1)) (co (w f.index 2)) x ≠ 0
  first : ∀ f ∈ m.surfs, ∀ e ∈ m.edges, f.edgeind.head? = some e.index →
    e.vertind = if fw then [w f.index 0, w f.index 1] else [w f.index 1, w f.index 0]

/-- The point is inside volume `c` at each of its surfaces, up to `eps`. -/
def InCell (m : Mesh) (co : Int → P3 K) (w : Int → Nat → Int) (eps : K) (c : Int) (x : P3 K) : Prop :=
  HasVolu m c ∧ ∀ f ∈ m.surfs, c ∈ f.voluind → beyond co (w f.index) f c x ≤ eps

/-- The volumes are bounded and not too small: every point is on the inside of a surface of a volume, `eps` or more. -/
def Bounded (m : Mesh) (co : Int → P3 K) (w : Int → Nat → Int) (eps : K) : Prop :=
  ∀ c, HasVolu m c → ∀ x : P3 K, ∃ f ∈ m.surfs, c ∈ f.voluind ∧ beyond co (w f.index) f c x ≤ -eps

/-- The mesh is convex: no point of a volume is outside a surface which is between a volume and the outside. -/
def ConvexMesh (m : Mesh) (co : Int → P3 K) (w : Int → Nat → Int) : Prop :=
  ∀ c x, InCell m co w 0 c x → ∀ f ∈ m.surfs, 0 ∈ f.voluind → ∀ d ∈ f.voluind, d ≠ 0 → beyond co (w f.index) f d x ≤ 0

/-- `r` is right for the point: a volume in which it is, up to `eps`, or 0 and the point is in no volume. -/
def RightCell (m : Mesh) (co : Int → P3 K) (w : Int → Nat → Int) (eps : K) (x : P3 K) (r : Int) : Prop :=
  (r ≠ 0 ∧ InCell m co w eps r x) ∨ (r = 0 ∧ ∀ c, ¬ InCell m co w 0 c x)

/-- Point `i` of the list with `size` numbers for each point. -/
def ptAt (l : List K) (size i : Nat) : P3 K := fun j => l.getD (i * size + j.val) 0

end RSVS.Spec
