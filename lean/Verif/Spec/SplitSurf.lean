import Verif.Spec.Order

/-!
# Specification of the ordering of all surfaces
-/

namespace RSVS.Spec

/-- The edges in the list (each taken once) make closed loops: each vertex is the end of two of them. -/
def Rings (m : Mesh) (l : List Int) : Prop :=
  ∃ es xs, es.Nodup ∧ (∀ e, e ∈ es ↔ e ∈ l) ∧ List.Forall₂ (fun (e : Int) (x : Edge) => x ∈ m.edges ∧ x.index = e) es xs ∧
    TwoRegular (xs.flatMap Edge.vertind)

/-- `r` is `m` with surfaces split: surface `s` of `r` is a part of surface `src s` of `m`.  The edges of each surface of `m` are shared
out among its parts; everything else is kept. -/
structure SplitBy (m r : Mesh) (src : Int → Int) : Prop where
  verts : r.verts = m.verts
  edges : List.Forall₂ (fun x y => ∃ l, y = { x with surfind := l }) m.edges r.edges
  volus : List.Forall₂ (fun x y => ∃ l, y = { x with surfind := l }) m.volus r.volus
  dim : r.meshDim = m.meshDim
  keeps : ∀ s, HasSurf m s → HasSurf r s ∧ src s = s
  comes : ∀ g ∈ r.surfs, ∃ f ∈ m.surfs, f.index = src g.index ∧
    g = { f with index := g.index, edgeind := g.edgeind, isordered := g.isordered }
  shares : ∀ f ∈ m.surfs, ∀ e, e ∈ f.edgeind ↔ ∃ g ∈ r.surfs, src g.index = f.index ∧ e ∈ g.edgeind
  once : ∀ g ∈ r.surfs, ∀ h ∈ r.surfs, src g.index = src h.index → ∀ e, e ∈ g.edgeind → e ∈ h.edgeind → g = h

/-- The edges of the surface are in the order of one loop, or there are none. -/
def OneLoop (m : Mesh) (f : Surf) : Prop := f.edgeind = [] ∨ (IsLoop (EdgeJoins m) f.edgeind ∧ f.edgeind.Nodup)

/-- The list has at most `k` loops without a common edge. -/
def AtMost (m : Mesh) (l : List Int) (k : Nat) : Prop :=
  ∀ L : List (List Int), L.flatten.Nodup → (∀ a ∈ L, a ≠ [] ∧ IsLoop (EdgeJoins m) a ∧ ∀ e ∈ a, e ∈ l) → L.length ≤ k

end RSVS.Spec
