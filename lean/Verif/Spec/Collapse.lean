import Verif.Spec.Singular
import Verif.Spec.Close

/-!
# Specification of the collapse of short edges
-/

namespace RSVS.Spec

/-- An edge joins the two vertices. -/
def LineBetween (m : Mesh) (a b : Int) : Prop := ∃ x ∈ m.edges, x.vertind = [a, b] ∨ x.vertind = [b, a]

/-- `into` chooses one vertex of each set of vertices joined by paths of short edges. -/
structure Chosen (m : Mesh) (tol : ℚ) (into : Int → Int) : Prop where
  mem : ∀ a, HasVert m a → HasVert m (into a)
  path : ∀ a, HasVert m a → ShortPath m tol a (into a)
  same : ∀ a b, HasVert m a → HasVert m b → (into a = into b ↔ ShortPath m tol a b)

/-- The vertices of `r` are those chosen, and two of them are joined exactly if an edge of `m` joins their groups; nothing is listed twice. -/
structure Quotient (m r : Mesh) (into : Int → Int) : Prop where
  verts : ∀ a, HasVert r a ↔ HasVert m a ∧ into a = a
  lines : ∀ a b, LineBetween r a b ↔ a ≠ b ∧ ∃ u v, LineBetween m u v ∧ into u = a ∧ into v = b
  once : (∀ x ∈ r.verts, x.edgeind.Nodup) ∧ (∀ x ∈ r.surfs, x.edgeind.Nodup) ∧ ∀ x ∈ r.volus, x.surfind.Nodup

/-- An edge of the surface joins the two vertices. -/
def SideBetween (m : Mesh) (s a b : Int) : Prop := ∃ x ∈ m.edges, SurfEdge m s x.index ∧ (x.vertind = [a, b] ∨ x.vertind = [b, a])

/-- Surface `s'` of `r` is what becomes of surface `s` of `m` when each vertex `a` moves to `into a`: the lines around it are those between different vertices. -/
def MovedFace (m r : Mesh) (into : Int → Int) (s s' : Int) : Prop :=
  ∀ a b, SideBetween r s' a b ↔ a ≠ b ∧ ∃ u v, SideBetween m s u v ∧ into u = a ∧ into v = b

/-- The edge is in the mesh and a path of short edges joins its ends. -/
def Collapsing (m : Mesh) (tol : ℚ) (e : Int) : Prop := ∃ x ∈ m.edges, x.index = e ∧ ∃ a b, x.vertind = [a, b] ∧ ShortPath m tol a b

end RSVS.Spec
