import Mathlib.Logic.Relation
import Verif.Model.MergeVolu
import Verif.Spec.Mesh

/-!
# Specification of the merge of volumes
-/

namespace RSVS.Spec

open RSVS.MergeVolu

/-- Volume `c` is around vertex `v`. -/
def Around (m : Mesh) (v c : Int) : Prop := c ≠ 0 ∧ ∃ e s, VertEdge m v e ∧ EdgeSurf m e s ∧ SurfVolu m s c

/-- Volumes joined by a chain of vertices of the list. -/
def VoluChain (m : Mesh) (rmv : List Int) : Int → Int → Prop :=
  Relation.ReflTransGen fun c c' => ∃ v ∈ rmv, Around m v c ∧ Around m v c'

/-- What is listed exists around the vertices of the list, and volumes list the surfaces which list them. -/
structure VoluReady (m : Mesh) (rmv : List Int) : Prop where
  unique : UniqueIndices m
  verts : ∀ v ∈ rmv, HasVert m v
  edges : ∀ v ∈ rmv, ∀ e, VertEdge m v e → HasEdge m e
  surfs : ∀ v ∈ rmv, ∀ e s, VertEdge m v e → EdgeSurf m e s → HasSurf m s
  volus : ∀ s c, SurfVolu m s c → c = 0 ∨ 0 < c ∧ HasVolu m c
  back : ∀ s c, SurfVolu m s c → c ≠ 0 → VoluSurf m c s
  known : ∀ c s, VoluSurf m c s → HasSurf m s

/-- The mesh in which volume `c` is called `name c`: the surfaces list the new names, the volumes are the
same but for their surfaces, and volumes still list the surfaces which list them. -/
structure VolusRenamed (m m' : Mesh) (name : Int → Int) : Prop where
  verts : m'.verts = m.verts
  edges : m'.edges = m.edges
  dim : m'.meshDim = m.meshDim
  surfs : m'.surfs = m.surfs.map fun s => { s with voluind := s.voluind.map name }
  volus : m'.volus.map (fun c => { c with surfind := [] }) = m.volus.map fun c => { c with surfind := [] }
  back : ∀ s c, SurfVolu m' s c → c ≠ 0 → VoluSurf m' c s
  known : ∀ c s, VoluSurf m' c s → HasSurf m' s

/-- Each volume is called by the least of its chain. -/
def LeastOfChain (m : Mesh) (rmv : List Int) (name : Int → Int) : Prop :=
  name 0 = 0 ∧ ∀ c, VoluChain m rmv c (name c) ∧ ∀ c', VoluChain m rmv c c' → name c ≤ c'

end RSVS.Spec
