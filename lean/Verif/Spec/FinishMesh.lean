import Mathlib.Data.List.Forall2
import Verif.Spec.FlattenFaces
import Verif.Spec.SplitSurf

/-!
# Specification of a mesh of which the lists are put in another order
-/

namespace RSVS.Spec

/-- `r` has the elements of `m`, in the same places, with the same data; only the order of the neighbours may be another, and a
neighbour listed twice may be listed once. -/
structure SameButOrder (m r : Mesh) : Prop where
  verts : List.Forall₂ (fun x y : Vert => y.index = x.index ∧ y.coord = x.coord ∧ y.isBorder = x.isBorder ∧
    ∀ e, e ∈ y.edgeind ↔ e ∈ x.edgeind) m.verts r.verts
  edges : List.Forall₂ (fun x y : Edge => y.index = x.index ∧ y.vertind = x.vertind ∧ y.isBorder = x.isBorder) m.edges r.edges
  surfs : List.Forall₂ (fun x y : Surf => y.index = x.index ∧ (∀ e, e ∈ y.edgeind ↔ e ∈ x.edgeind) ∧
    (∀ c, c ∈ y.voluind ↔ c ∈ x.voluind) ∧ y.isBorder = x.isBorder ∧ y.fill = x.fill ∧ y.target = x.target ∧ y.error = x.error)
    m.surfs r.surfs
  volus : List.Forall₂ (fun x y : Volu => y.index = x.index) m.volus r.volus
  dim : r.meshDim = m.meshDim

end RSVS.Spec

namespace RSVS.Spec

/-- As `FanOver`, but the volumes of a triangle may be in another order than those of the surface. -/
def FanAbout (m r : Mesh) (f : Surf) (x : List ℚ) : Prop :=
  ∃ (w : Nat → Int) (c : Int) (sp : Nat → Int), RingFace m f w ∧ ¬ HasVert m c ∧ (∃ v ∈ r.verts, v.index = c ∧ v.coord = x) ∧
    (∀ i j, i < f.edgeind.length → j < f.edgeind.length → sp i = sp j → i = j) ∧
    ∀ k e, f.edgeind[k]? = some e → ¬ HasEdge m (sp k) ∧ EdgeJoins r (sp k) c (w (k + 1)) ∧
      ∃ t ∈ r.surfs, t.edgeind.Perm [sp ((k + f.edgeind.length - 1) % f.edgeind.length), sp k, e] ∧
        (∀ c, c ∈ t.voluind ↔ c ∈ f.voluind) ∧ (t.index = f.index ∨ ¬ HasSurf m t.index)

/-- Everything of `m` except the surfaces in `P` is in `r`; edges and volumes of a surface may be in another order. -/
structure KeptInAnyOrder (m r : Mesh) (P : Int → Prop) : Prop where
  verts : ∀ v ∈ m.verts, ∃ v' ∈ r.verts, v'.index = v.index ∧ v'.coord = v.coord
  edges : ∀ e ∈ m.edges, ∃ e' ∈ r.edges, e'.index = e.index ∧ e'.vertind = e.vertind
  surfs : ∀ f ∈ m.surfs, ¬ P f.index → ∃ s ∈ r.surfs, s.index = f.index ∧ s.edgeind.Perm f.edgeind ∧ ∀ c, c ∈ s.voluind ↔ c ∈ f.voluind
  volus : r.volus.map Volu.index = m.volus.map Volu.index

end RSVS.Spec
