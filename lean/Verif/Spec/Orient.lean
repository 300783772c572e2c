import Mathlib.Algebra.Order.Field.Basic
import Mathlib.Logic.Relation
import Verif.Spec.FaceFan
import Verif.Spec.Mesh

/-!
# Specification of the orientation of surfaces
-/

namespace RSVS.Spec

/-- The ring of `n` corners `w` goes from `a` to the next corner `b`. -/
def RunsAlong (w : Nat → Int) (n : Nat) (a b : Int) : Prop := ∃ k < n, w k = a ∧ w (k + 1) = b

/-- The two surfaces are different, have an edge in common, and a volume (which is not the outside). -/
def SharesEdge (f g : Surf) (e : Edge) (c : Int) : Prop :=
  f.index ≠ g.index ∧ e.index ∈ f.edgeind ∧ e.index ∈ g.edgeind ∧ c ≠ 0 ∧ c ∈ f.voluind ∧ c ∈ g.voluind

/-- Coherent orientation: where two surfaces of a volume meet in an edge, the volume is at the same place of their lists of volumes
exactly if their rings go along the edge in opposite directions.  The normals are then all out of the volumes at the first place,
or all into them. -/
def Coherent (edges : List Edge) (surfs : List Surf) (w : Int → Nat → Int) : Prop :=
  ∀ f ∈ surfs, ∀ g ∈ surfs, ∀ e ∈ edges, ∀ a b c, e.vertind = [a, b] → SharesEdge f g e c →
    ((f.voluind.head? = some c ↔ g.voluind.head? = some c) ↔
      (RunsAlong (w f.index) f.edgeind.length a b ↔ RunsAlong (w g.index) g.edgeind.length b a))

/-- The surface with its two volumes exchanged where `b` is true. -/
def swapIf (b : Bool) (f : Surf) : Surf := if b then { f with voluind := f.voluind.reverse } else f

/-- The mesh can be oriented. -/
def Orientable (m : Mesh) (w : Int → Nat → Int) (σ : Int → Bool) : Prop :=
  Coherent m.edges (m.surfs.map fun f => swapIf (σ f.index) f) w

/-- A mesh of volumes: surfaces are rings of edges in order with two different volumes, and no edge lists the outside. -/
structure SolidMesh (m : Mesh) (w : Int → Nat → Int) : Prop where
  sound : Sound m
  ring : ∀ f ∈ m.surfs, RingFace m f (w f.index)
  two : ∀ f ∈ m.surfs, ∃ a b, f.voluind = [a, b] ∧ a ≠ b
  noZero : ∀ e ∈ m.edges, 0 ∉ e.surfind
  dim : 3 ≤ m.meshDim

/-- Two surfaces are next to each other in one volume. -/
def SideNext (m : Mesh) (s t : Int) : Prop :=
  ∃ f ∈ m.surfs, ∃ g ∈ m.surfs, f.index = s ∧ g.index = t ∧ ∃ e ∈ m.edges, ∃ c, SharesEdge f g e c

/-- Two surfaces are joined by a sequence of surfaces next to each other. -/
def Joined (m : Mesh) : Int → Int → Prop := Relation.ReflTransGen (SideNext m)

variable {K : Type} [Field K] [LinearOrder K]

/-- The numbers tell the orientation `σ`: positive where the volume is at the first place of the surface. -/
def TellsSide (m : Mesh) (σ : Int → Bool) (eps : K) (dotProd : Int → Int → Option K) : Prop :=
  ∀ f ∈ m.surfs, ∀ c ∈ f.voluind, c ≠ 0 → ∀ d, dotProd f.index c = some d → eps ≤ |d| →
    (0 < d ↔ (swapIf (σ f.index) f).voluind.head? = some c)

/-- A surface joined to `s` has numbers which are not too small. -/
def Decided (m : Mesh) (eps : K) (dotProd : Int → Int → Option K) (s : Int) : Prop :=
  ∃ g ∈ m.surfs, Joined m s g.index ∧ ∀ c ∈ g.voluind, c ≠ 0 → ∃ d, dotProd g.index c = some d ∧ eps ≤ |d|

end RSVS.Spec
