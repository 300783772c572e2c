import Mathlib.Logic.Relation
import Verif.Model.Surf2D
import Verif.Spec.Mesh

/-!
# Specification of the merge of surfaces of a flat snake and of the check of edges
-/

namespace RSVS.Spec

open RSVS.Surf2D

/-- Surface `s` is on a side of edge `e`. -/
def SideOf (m : Mesh) (e s : Int) : Prop := s ≠ 0 ∧ EdgeSurf m e s

/-- Surfaces joined by a chain of edges. -/
def SharedChain (m : Mesh) : Int → Int → Prop :=
  Relation.ReflTransGen fun s s' => ∃ e, SideOf m e s ∧ SideOf m e s'

/-- A flat mesh in which what is listed exists and surfaces list the edges which list them. -/
structure FlatReady (m : Mesh) : Prop where
  edges : (m.edges.map Edge.index).Nodup
  surfs : (m.surfs.map Surf.index).Nodup
  flat : m.volus = []
  listed : ∀ e s, EdgeSurf m e s → s = 0 ∨ 0 < s ∧ HasSurf m s
  back : ∀ e s, EdgeSurf m e s → s ≠ 0 → SurfEdge m s e
  known : ∀ s e, SurfEdge m s e → HasEdge m e

/-- The mesh in which surface `s` is called `name s`: the edges list the new names, the surfaces are the same
but for their edges, those which changed are not ordered any more, and surfaces still list the edges which
list them. -/
structure SurfsRenamed (m m' : Mesh) (name : Int → Int) : Prop where
  verts : m'.verts = m.verts
  volus : m'.volus = m.volus
  dim : m'.meshDim = m.meshDim
  edges : m'.edges = m.edges.map fun e => { e with surfind := e.surfind.map name }
  surfs : m'.surfs.map (fun s => { s with edgeind := [], isordered := false }) =
    m.surfs.map fun s => { s with edgeind := [], isordered := false }
  unordered : ∀ s ∈ m'.surfs, s ∈ m.surfs ∨ s.isordered = false
  back : ∀ e s, EdgeSurf m' e s → s ≠ 0 → SurfEdge m' s e
  known : ∀ s e, SurfEdge m' s e → HasEdge m' e
  lists : ∀ s e, SurfEdge m' s e → ∃ s0, SurfEdge m s0 e ∧ SharedChain m s s0
  keeps : ∀ s e, SurfEdge m s e → SurfEdge m' s e

/-- Each surface is called by one of its chain, the same for the whole chain. -/
def OneOfChain (m : Mesh) (name : Int → Int) : Prop :=
  name 0 = 0 ∧ (∀ s, SharedChain m s (name s)) ∧ ∀ s s', SharedChain m s s' → name s = name s'

/-- Edge `e` has at most one end. -/
def OneVertex (m : Mesh) (e : Int) : Prop := ∀ v v', EdgeVert m e v → EdgeVert m e v' → v = v'

/-- Edge `e` has at most one surface. -/
def OneSurface (m : Mesh) (e : Int) : Prop := ∀ s s', EdgeSurf m e s → EdgeSurf m e s' → s = s'

end RSVS.Spec
