import Mathlib.Logic.Relation
import Mathlib.Algebra.Order.Field.Basic
import Verif.Spec.Mesh

/-!
# Specification of groups of close vertices

When two vertices of a mesh belong together, and what a mesh is with the vertices of each group merged.  Only the data
of the meshes is mentioned.
-/

namespace RSVS.Spec

/-- The vertices `a` and `b` are closer than `tol`. -/
def Near (m : Mesh) (tol : ℚ) (a b : Int) : Prop :=
  ∃ x ∈ m.verts, ∃ y ∈ m.verts, x.index = a ∧ y.index = b ∧
    (x.coord.getD 0 0 - y.coord.getD 0 0) ^ 2 + (x.coord.getD 1 0 - y.coord.getD 1 0) ^ 2 +
      (x.coord.getD 2 0 - y.coord.getD 2 0) ^ 2 < tol ^ 2

/-- An edge shorter than `tol` joins `a` and `b`. -/
def ShortJoin (m : Mesh) (tol : ℚ) (a b : Int) : Prop :=
  (∃ e ∈ m.edges, e.vertind = [a, b] ∨ e.vertind = [b, a]) ∧ Near m tol a b

/-- `b` is reached from `a` along short edges. -/
def ShortPath (m : Mesh) (tol : ℚ) : Int → Int → Prop := Relation.ReflTransGen (ShortJoin m tol)

/-- Vertices have three coordinates. -/
def InSpace (m : Mesh) : Prop := ∀ v ∈ m.verts, v.coord.length = 3

/-- `lab` numbers the groups of vertices joined by short edges; the other vertices have -1. -/
structure GroupNumbers (m : Mesh) (tol : ℚ) (lab : List Int) : Prop where
  length : lab.length = m.verts.length
  alone : ∀ (i : Nat) (x : Vert) (l : Int), m.verts[i]? = some x → lab[i]? = some l →
    (l = -1 ↔ ∀ b, ¬ ShortJoin m tol x.index b)
  number : ∀ (i : Nat) (l : Int), lab[i]? = some l → l = -1 ∨ 1 ≤ l
  group : ∀ (i j : Nat) (x y : Vert) (l k : Int), m.verts[i]? = some x → m.verts[j]? = some y →
    lab[i]? = some l → lab[j]? = some k → l ≠ -1 → (l = k ↔ ShortPath m tol x.index y.index)

/-- `m'` is `m` with the vertices of equal number in `lab` merged into one of them; those with -1 are kept.  `gone`
lists the vertices that are merged. -/
structure GroupsMerged (m m' : Mesh) (lab : List Int) (into : Int → Int) (gone : List Int) : Prop where
  kept : ∀ (i : Nat) (x : Vert), m.verts[i]? = some x → lab[i]? = some (-1) → into x.index = x.index
  merged : ∀ (i j : Nat) (x y : Vert) (l : Int), m.verts[i]? = some x → m.verts[j]? = some y →
    lab[i]? = some l → lab[j]? = some l → l ≠ -1 → into x.index = into y.index
  member : ∀ (i : Nat) (x : Vert) (l : Int), m.verts[i]? = some x → lab[i]? = some l → l ≠ -1 →
    ∃ (j : Nat) (y : Vert), m.verts[j]? = some y ∧ lab[j]? = some l ∧ into x.index = y.index
  gone : ∀ a, a ∈ gone ↔ HasVert m a ∧ into a ≠ a
  coord : ∀ x ∈ m'.verts, ∃ y ∈ m.verts, y.index = x.index ∧ y.coord = x.coord
  edges : m'.edges.map Edge.index = m.edges.map Edge.index
  edgeVert : ∀ e v, EdgeVert m' e v ↔ ∃ u, EdgeVert m e u ∧ into u = v
  edgeSurf : ∀ e s, EdgeSurf m' e s ↔ EdgeSurf m e s
  surfs : m'.surfs = m.surfs
  volus : m'.volus = m.volus

/-- A snaxel at the share `d` of its edge from `a` to `b` is closer than `tol` to the vertex `v`, as shares of the edge. -/
def CloseTo {K : Type} [Field K] [LinearOrder K] (tol d : K) (a b v : Int) : Prop := d < tol ∧ v = a ∨ 1 - d < tol ∧ v = b

end RSVS.Spec
