import Verif.Model.Voronoi
import Verif.Spec.Mesh

/-!
# What the mesh of a Voronoi diagram has to hold
-/

namespace RSVS.Spec

open RSVS.Voronoi

/-- Nothing or exactly two things have the property. -/
def NoneOrTwo {α : Type} (P : α → Prop) : Prop := (∀ x, ¬ P x) ∨ ∃ a b, a ≠ b ∧ ∀ x, P x ↔ x = a ∨ x = b

variable (t : VoroOut)

/-- The edges, facets and cells of the diagram, all counted from 0. -/
def vedge (e : Nat) : VEdge := t.vedges.getD e ⟨0, 0, []⟩
def vfacet (f : Nat) : VFacet := t.vfacets.getD f ⟨0, 0, []⟩
/-- The first vertex of an edge. -/
def vFrom (e : Nat) : Nat := ((vedge t e).v1 - t.firstnumber).toNat
/-- The edge has no second vertex. -/
def IsRay (e : Nat) : Prop := (vedge t e).v2 = -1
/-- The second vertex of an edge that is not a ray. -/
def vTo (e : Nat) : Nat := ((vedge t e).v2 - t.firstnumber).toNat
/-- The edges of a facet; -1 in the list stands for the missing edge of an open facet. -/
def vEdges (f : Nat) : List Nat := ((vfacet t f).elist.filter fun x => x ≠ -1).map fun x => (x - t.firstnumber).toNat
/-- The cells at the two sides of a facet. -/
def vSide1 (f : Nat) : Nat := ((vfacet t f).c1 - t.firstnumber).toNat
def vSide2 (f : Nat) : Nat := ((vfacet t f).c2 - t.firstnumber).toNat
/-- The vertex is an end of the edge. -/
def VEnd (e v : Nat) : Prop := v = vFrom t e ∨ ¬ IsRay t e ∧ v = vTo t e
/-- The facet is a side of the cell. -/
def VSide (f c : Nat) : Prop := c = vSide1 t f ∨ c = vSide2 t f
/-- The facet is open. -/
def VOpen (f : Nat) : Prop := f < t.vfacets.length ∧ ∃ e ∈ vEdges t f, IsRay t e

/-- The number is of one of `n` elements. -/
def VIn (n : Nat) (x : Int) : Prop := t.firstnumber ≤ x ∧ x < t.firstnumber + n

/-- The diagram is complete and its numbers are in range. -/
structure VoroValid (pts : List ℚ) : Prop where
  first : t.firstnumber = 0 ∨ t.firstnumber = 1
  pts : t.vpointlist = some pts ∧ t.numberofvpoints * 3 ≤ pts.length
  v1 : ∀ e < t.vedges.length, VIn t t.numberofvpoints (vedge t e).v1
  v2 : ∀ e < t.vedges.length, IsRay t e ∨ VIn t t.numberofvpoints (vedge t e).v2
  list : ∀ f < t.vfacets.length, ∀ x ∈ (vfacet t f).elist, x = -1 ∨ VIn t t.vedges.length x
  twice : ∀ f < t.vfacets.length, (vEdges t f).Nodup
  c1 : ∀ f < t.vfacets.length, VIn t t.numberofvcells (vfacet t f).c1
  c2 : ∀ f < t.vfacets.length, VIn t t.numberofvcells (vfacet t f).c2
  sides : ∀ f < t.vfacets.length, (vfacet t f).c1 ≠ (vfacet t f).c2

/-- Each open facet has two rays and each open cell at least three open facets. -/
structure VoroOpen : Prop where
  rays : ∀ f, VOpen t f → NoneOrTwo fun e => e ∈ vEdges t f ∧ IsRay t e
  cells : ∀ c f, VOpen t f → VSide t f c → ∃ g h, g ≠ f ∧ h ≠ f ∧ g ≠ h ∧ VOpen t g ∧ VSide t g c ∧ VOpen t h ∧ VSide t h c

/-- The facets are closed chains of edges but for the part at infinity and the cells are closed but for it. -/
structure VoroChains : Prop where
  ends : ∀ e < t.vedges.length, IsRay t e ∨ vFrom t e ≠ vTo t e
  facets : ∀ f < t.vfacets.length, ∀ v, NoneOrTwo fun e => e ∈ vEdges t f ∧ VEnd t e v
  cells : ∀ c e, NoneOrTwo fun f => f < t.vfacets.length ∧ VSide t f c ∧ e ∈ vEdges t f

/-- The indices above `n` up to `n'` number the things with the property. -/
structure Numbers (P : Nat → Prop) (n n' : Nat) (f : Nat → Int) : Prop where
  inj : ∀ a b, P a → P b → f a = f b → a = b
  onto : ∀ i : Int, (n : Int) < i ∧ i ≤ n' ↔ ∃ a, P a ∧ i = f a

/-- The mesh `m` is the diagram, with a vertex `end r` for each ray, an edge `link f` for each open facet and a face `lid c` for each
open cell. -/
structure ClosedVoro (pts : List ℚ) (ending : List ℚ → List ℚ → List ℚ) (m : Mesh) (tip link lid : Nat → Int) : Prop where
  verts : m.verts.map Vert.index = (List.range m.verts.length).map fun (k : Nat) => (k : Int) + 1
  edges : m.edges.map Edge.index = (List.range m.edges.length).map fun (k : Nat) => (k : Int) + 1
  surfs : m.surfs.map Surf.index = (List.range m.surfs.length).map fun (k : Nat) => (k : Int) + 1
  volus : m.volus.map Volu.index = (List.range t.numberofvcells).map fun (k : Nat) => (k : Int) + 1
  numTip : Numbers (fun e => e < t.vedges.length ∧ IsRay t e) t.numberofvpoints m.verts.length tip
  numLink : Numbers (VOpen t) t.vedges.length m.edges.length link
  numLid : Numbers (fun c => ∃ f, VOpen t f ∧ VSide t f c) t.vfacets.length m.surfs.length lid
  coord : ∀ k < t.numberofvpoints, (m.verts.map Vert.coord)[k]? = some [pts.getD (3 * k) 0, pts.getD (3 * k + 1) 0, pts.getD (3 * k + 2) 0]
  tipCoord : ∀ v ∈ m.verts, ∀ e, IsRay t e → e < t.vedges.length → v.index = tip e → v.coord = ending (vedge t e).vnormal
    [pts.getD (3 * vFrom t e) 0, pts.getD (3 * vFrom t e + 1) 0, pts.getD (3 * vFrom t e + 2) 0]
  edgeVert : ∀ i v, EdgeVert m i v ↔
    (∃ e < t.vedges.length, i = e + 1 ∧ ((∃ x, VEnd t e x ∧ v = x + 1) ∨ IsRay t e ∧ v = tip e)) ∨
    ∃ f, VOpen t f ∧ i = link f ∧ ∃ e ∈ vEdges t f, IsRay t e ∧ v = tip e
  two : ∀ e ∈ m.edges, e.vertind.length = 2
  vertEdge : ∀ v i, VertEdge m v i ↔
    (∃ e < t.vedges.length, i = e + 1 ∧ ((∃ x, VEnd t e x ∧ v = x + 1) ∨ IsRay t e ∧ v = tip e)) ∨
    ∃ f, VOpen t f ∧ i = link f ∧ ∃ e ∈ vEdges t f, IsRay t e ∧ v = tip e
  surfEdge : ∀ s i, SurfEdge m s i ↔
    (∃ f < t.vfacets.length, s = f + 1 ∧ ((∃ e ∈ vEdges t f, i = e + 1) ∨ VOpen t f ∧ i = link f)) ∨
    ∃ c f, VOpen t f ∧ VSide t f c ∧ s = lid c ∧ i = link f
  edgeSurf : ∀ i s, EdgeSurf m i s ↔
    (∃ f < t.vfacets.length, s = f + 1 ∧ ((∃ e ∈ vEdges t f, i = e + 1) ∨ VOpen t f ∧ i = link f)) ∨
    ∃ c f, VOpen t f ∧ VSide t f c ∧ s = lid c ∧ i = link f
  surfVolu : ∀ s i, SurfVolu m s i ↔
    (∃ f < t.vfacets.length, s = f + 1 ∧ ∃ c, VSide t f c ∧ i = c + 1) ∨
    ∃ c, (∃ f, VOpen t f ∧ VSide t f c) ∧ s = lid c ∧ (i = c + 1 ∨ i = 0)
  voluSurf : ∀ i s, VoluSurf m i s ↔
    (∃ f < t.vfacets.length, s = f + 1 ∧ ∃ c, VSide t f c ∧ i = c + 1) ∨
    ∃ c, (∃ f, VOpen t f ∧ VSide t f c) ∧ s = lid c ∧ i = c + 1

end RSVS.Spec
