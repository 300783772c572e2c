import Mathlib.Logic.Relation
import Verif.Model.MergeSurf
import Verif.Spec.Container
import Verif.Spec.Mesh

/-!
# Specification of the merge of surfaces
-/

namespace RSVS.Spec

open RSVS.MergeSurf

/-- Surfaces `s` and `t` are in one cell and share an edge; `cells` gives the cell of each surface. -/
def Meets (m : Mesh) (cells : List (Int × Int)) (s t : Int) : Prop :=
  ∃ c, (s, c) ∈ cells ∧ (t, c) ∈ cells ∧ ∃ e, SurfEdge m s e ∧ SurfEdge m t e

/-- A chain of surfaces in one cell, each of which shares an edge with the next. -/
def MeetsChain (m : Mesh) (cells : List (Int × Int)) : Int → Int → Prop := Relation.ReflTransGen (Meets m cells)

/-- Some edit removes surface `s`. -/
def Removed (l : List Edit) (s : Int) : Prop := ∃ d ∈ l, s ∈ d.rmv

/-- After the edits surface `s` is known as `k`: it is removed in favour of `k`, or it is `k` and is
not removed. -/
def KeptAs (l : List Edit) (k s : Int) : Prop := (∃ d ∈ l, d.keep = k ∧ s ∈ d.rmv) ∨ (s = k ∧ ¬ Removed l s)

/-- The edits merge the surfaces which are joined by a chain and no others. -/
structure MergesRight (m : Mesh) (cells : List (Int × Int)) (l : List Edit) : Prop where
  chain : ∀ s t, HasSurf m s → HasSurf m t → (MeetsChain m cells s t ↔ ∃ k, KeptAs l k s ∧ KeptAs l k t)
  once : (l.flatMap Edit.rmv).Nodup
  kept : ∀ d ∈ l, HasSurf m d.keep ∧ ¬ Removed l d.keep
  removed : ∀ d ∈ l, d.rmv ≠ [] ∧ d.rmv.Pairwise (· < ·) ∧ ∀ s ∈ d.rmv, HasSurf m s

end RSVS.Spec
