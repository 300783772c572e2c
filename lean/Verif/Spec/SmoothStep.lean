import Mathlib.Data.List.Forall2
import Verif.Model.SmoothStep
import Verif.Spec.SnakeCheck

/-!
# Specification of the smoothing of the spawn step
-/

namespace RSVS.Spec

variable {K : Type} [Field K] [LinearOrder K]

/-- `v` is the end of the edge the snaxel is near to (the far end from the middle on). -/
def NearVertex (s : Snax K) (v : Int) : Prop := (s.d < 1 / 2 ∧ s.fromvert = v) ∨ (1 / 2 ≤ s.d ∧ s.tovert = v)

/-- The part of its edge between the snaxel and the end it is near to. -/
def partAway (s : Snax K) : K := min s.d (1 - s.d)

/-- The value of the determinant of three vectors. -/
def det3 (a b c : Fin 3 → K) : K :=
  a 0 * (b 1 * c 2 - b 2 * c 1) - a 1 * (b 0 * c 2 - b 2 * c 0) + a 2 * (b 0 * c 1 - b 1 * c 0)

/-- Four points are in a plane. -/
def InOnePlane (p q r s : Fin 3 → K) : Prop := det3 (fun i => q i - p i) (fun i => r i - p i) (fun i => s i - p i) = 0

/-- The point at `d` on the way from `a` to `b`. -/
def pointAt (a b : Fin 3 → K) (d : K) : Fin 3 → K := fun i => a i + d * (b i - a i)

/-- The middle of two points. -/
def middle (a b : Fin 3 → K) : Fin 3 → K := fun i => (a i + b i) / 2

/-- A snaxel of the list has an edge to a vertex which is not in the list. -/
def IsLink (conn : Mesh) (inds : List Int) (l : Smooth.Link) : Prop :=
  l.snax ∈ inds ∧ l.vert ∉ inds ∧ ∃ e ∈ conn.edges, e.index = l.edge ∧ l.snax ∈ e.vertind ∧ l.vert ∈ e.vertind

/-- The snaxel has a link. -/
def HasLink (conn : Mesh) (inds : List Int) (s : Int) : Prop := ∃ l, IsLink conn inds l ∧ l.snax = s

/-- An edge between two snaxels with links. -/
def BorderEdge (conn : Mesh) (inds : List Int) (e : Edge) : Prop := ∀ v ∈ e.vertind, HasLink conn inds v

/-- What the smoothing relies on: unique indices, edges with two different ends, edges and vertices listing each other once,
and snaxels which are vertices of the snake. -/
structure PlaneReady (conn : Mesh) (inds : List Int) (snaxs : List (Snax K)) : Prop where
  unique : UniqueIndices conn
  twoVerts : TwoVerts conn
  ends : ∀ e ∈ conn.edges, e.vertind.Nodup
  edgeinds : ∀ v ∈ conn.verts, v.edgeind.Nodup
  hasEdge : ∀ v ∈ conn.verts, ∀ e ∈ v.edgeind, HasEdge conn e
  bothWays : ∀ v ∈ conn.verts, ∀ e ∈ conn.edges, e.index ∈ v.edgeind ↔ v.index ∈ e.vertind
  once : inds.Nodup
  two : 2 ≤ inds.length
  hasVert : ∀ i ∈ inds, HasVert conn i
  oneEach : (snaxs.map Snax.index).Nodup
  hasSnax : ∀ i ∈ inds, ∃ s ∈ snaxs, s.index = i

/-- The part of the values of an edge which is for one of its ends. -/
def shareOf (val : Edge → K × K) (e : Edge) (s : Int) : K :=
  (if e.vertind[0]? = some s then (val e).1 else 0) + (if e.vertind[1]? = some s then (val e).2 else 0)

/-- The entries are in order of place, differ in `d` only, and are equal outside `inds`. -/
def EditsOf (inds : List Int) : List (Snax K) → List (Snax K) → Prop :=
  List.Forall₂ fun s t => (∃ d, t = { s with d := d }) ∧ (s.index ∉ inds → t = s)

/-- What an iteration needs and keeps. -/
structure LapReady (limit : Int → Res K) (inds : List Int) (snaxs : List (Snax K)) : Prop where
  oneEach : (snaxs.map Snax.index).Nodup
  hasSnax : ∀ i ∈ inds, ∃ s ∈ snaxs, s.index = i
  range : ∀ s ∈ snaxs, 0 ≤ s.d ∧ s.d ≤ 1
  hasLimit : ∀ s ∈ snaxs, ∃ l, limit s.edgeind = .ok l

end RSVS.Spec
