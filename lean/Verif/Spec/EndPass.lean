import Verif.Model.EndPass
import Verif.Spec.Mesh

/-!
# Specification of the end of a pass of the clean-up of a snake
-/

namespace RSVS.Spec

open RSVS.EndPass

/-- The elements to be removed exist, and the others are sound among themselves. -/
structure SoundWithout (m : Mesh) (d : Removals) : Prop where
  unique : UniqueIndices m
  pos : PosIndices m
  verts : ∀ v ∈ d.verts, HasVert m v
  edges : ∀ e ∈ d.edges, HasEdge m e
  surfs : ∀ s ∈ d.surfs, HasSurf m s
  volus : ∀ c ∈ d.volus, HasVolu m c
  rest : Sound { m with
    verts := m.verts.filter fun v => !d.verts.contains v.index
    edges := m.edges.filter fun e => !d.edges.contains e.index
    surfs := m.surfs.filter fun s => !d.surfs.contains s.index
    volus := m.volus.filter fun c => !d.volus.contains c.index }

/-- The edge is one of the kept edges and both its ends are the same vertex. -/
def Collapses (m : Mesh) (keeps : List Int) (e : Int) : Prop :=
  e ∈ keeps ∧ ∃ x ∈ m.edges, x.index = e ∧ ∃ v, x.vertind = [v, v]

/-- What the end of a pass leaves: the elements not to be removed, less the kept edges which collapsed, the surfaces
all of whose edges did, and the vertices all of whose edges did; they list each other as before. -/
structure PassEnded (m r : Mesh) (keeps : List Int) (d : Removals) : Prop where
  verts : ∀ v, HasVert r v ↔ HasVert m v ∧ v ∉ d.verts ∧ ∃ e, VertEdge m v e ∧ ¬ Collapses m keeps e
  edges : ∀ e, HasEdge r e ↔ HasEdge m e ∧ e ∉ d.edges ∧ ¬ Collapses m keeps e
  surfs : ∀ s, HasSurf r s ↔ HasSurf m s ∧ s ∉ d.surfs ∧ ∃ e, SurfEdge m s e ∧ ¬ Collapses m keeps e
  volus : ∀ c, HasVolu r c ↔ HasVolu m c ∧ c ∉ d.volus
  vertEdge : ∀ v e, VertEdge r v e ↔ VertEdge m v e ∧ HasVert r v ∧ HasEdge r e
  edgeVert : ∀ e v, EdgeVert r e v ↔ EdgeVert m e v ∧ HasVert r v ∧ HasEdge r e
  edgeSurf : ∀ e s, EdgeSurf r e s ↔ EdgeSurf m e s ∧ HasEdge r e ∧ (s = 0 ∨ HasSurf r s)
  surfEdge : ∀ s e, SurfEdge r s e ↔ SurfEdge m s e ∧ HasEdge r e ∧ HasSurf r s
  surfVolu : ∀ s c, SurfVolu r s c ↔ SurfVolu m s c ∧ HasSurf r s ∧ (c = 0 ∨ HasVolu r c)
  voluSurf : ∀ c s, VoluSurf r c s ↔ VoluSurf m c s ∧ HasSurf r s ∧ HasVolu r c
  ends : ∀ x ∈ r.edges, ∃ y ∈ m.edges, y.index = x.index ∧ y.vertind = x.vertind
  coords : ∀ x ∈ r.verts, ∃ y ∈ m.verts, y.index = x.index ∧ y.coord = x.coord

end RSVS.Spec
