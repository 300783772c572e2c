import Verif.Spec.EndPass

/-!
# Specification of the switch of an edge, a surface or a volume for another
-/

namespace RSVS.Spec

open RSVS.EndPass

/-- Among the elements which are not in `d`, edge `new` has taken the place of edge `old` in the lists of vertices and surfaces, and lists the
surfaces of both; the ends of edges are as before. -/
structure EdgeMerged (m m' : Mesh) (d : Removals) (old new : Int) : Prop where
  same : SameElements m m'
  vertEdge : ∀ v e, v ∉ d.verts → (VertEdge m' v e ↔ (VertEdge m v e ∧ e ≠ old) ∨ (e = new ∧ VertEdge m v old))
  surfEdge : ∀ s e, s ∉ d.surfs → (SurfEdge m' s e ↔ (SurfEdge m s e ∧ e ≠ old) ∨ (e = new ∧ SurfEdge m s old))
  edgeVert : ∀ e v, EdgeVert m' e v ↔ EdgeVert m e v
  edgeSurf : ∀ e s, e ∉ d.edges → (EdgeSurf m' e s ↔ EdgeSurf m e s ∨ (e = new ∧ s ≠ 0 ∧ EdgeSurf m old s))
  surfVolu : ∀ s c, SurfVolu m' s c ↔ SurfVolu m s c
  voluSurf : ∀ c s, VoluSurf m' c s ↔ VoluSurf m c s

/-- Among the elements which are not in `d`, surface `new` has taken the place of surface `old` in the lists of edges and volumes, and lists the
edges and the volumes of both. -/
structure SurfMerged (m m' : Mesh) (d : Removals) (old new : Int) : Prop where
  same : SameElements m m'
  vertEdge : ∀ v e, VertEdge m' v e ↔ VertEdge m v e
  edgeVert : ∀ e v, EdgeVert m' e v ↔ EdgeVert m e v
  edgeSurf : ∀ e s, e ∉ d.edges → (EdgeSurf m' e s ↔ (EdgeSurf m e s ∧ s ≠ old) ∨ (s = new ∧ EdgeSurf m e old))
  voluSurf : ∀ c s, c ∉ d.volus → (VoluSurf m' c s ↔ (VoluSurf m c s ∧ s ≠ old) ∨ (s = new ∧ VoluSurf m c old))
  surfEdge : ∀ s e, s ∉ d.surfs → (SurfEdge m' s e ↔ SurfEdge m s e ∨ (s = new ∧ SurfEdge m old e))
  surfVolu : ∀ s c, s ∉ d.surfs → (SurfVolu m' s c ↔ SurfVolu m s c ∨ (s = new ∧ c ≠ 0 ∧ SurfVolu m old c))

/-- Among the elements which are not in `d`, volume `new` has taken the place of volume `old` in the lists of surfaces, and lists the surfaces of
both. -/
structure VoluMerged (m m' : Mesh) (d : Removals) (old new : Int) : Prop where
  same : SameElements m m'
  vertEdge : ∀ v e, VertEdge m' v e ↔ VertEdge m v e
  edgeVert : ∀ e v, EdgeVert m' e v ↔ EdgeVert m e v
  edgeSurf : ∀ e s, EdgeSurf m' e s ↔ EdgeSurf m e s
  surfEdge : ∀ s e, SurfEdge m' s e ↔ SurfEdge m s e
  surfVolu : ∀ s c, s ∉ d.surfs → (SurfVolu m' s c ↔ (SurfVolu m s c ∧ c ≠ old) ∨ (c = new ∧ SurfVolu m s old))
  voluSurf : ∀ c s, c ∉ d.volus → (VoluSurf m' c s ↔ VoluSurf m c s ∨ (c = new ∧ VoluSurf m old s))

end RSVS.Spec
