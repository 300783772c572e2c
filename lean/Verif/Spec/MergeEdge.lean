import Mathlib.Logic.Relation
import Verif.Model.MergeEdge
import Verif.Spec.Container
import Verif.Spec.Mesh

/-!
# Specification of the merge of edges
-/

namespace RSVS.Spec

open RSVS.MergeEdge

/-- Edges `e` and `f` are in one surface of the parent and share vertex `v`; `cells` gives the surface
of each edge. -/
def EdgesMeetAt (m : Mesh) (cells : List (Int × Int)) (v e f : Int) : Prop :=
  ∃ c, (e, c) ∈ cells ∧ (f, c) ∈ cells ∧ EdgeVert m e v ∧ EdgeVert m f v

/-- A chain of edges in one surface, each of which shares a vertex with the next. -/
def EdgeChain (m : Mesh) (cells : List (Int × Int)) : Int → Int → Prop :=
  Relation.ReflTransGen fun e f => ∃ v, EdgesMeetAt m cells v e f

/-- Vertex `v` joins edge `e` to another one. -/
def JoinedAt (m : Mesh) (cells : List (Int × Int)) (v e : Int) : Prop := ∃ f, f ≠ e ∧ EdgesMeetAt m cells v e f

/-- The chain of edge `e` has no end. -/
def OnLoop (m : Mesh) (cells : List (Int × Int)) (e : Int) : Prop :=
  ∀ f v, EdgeChain m cells e f → EdgeVert m f v → JoinedAt m cells v f

/-- At most two edges of one surface of the parent meet at a vertex. -/
def AtMostTwo (m : Mesh) (cells : List (Int × Int)) : Prop :=
  ∀ v e f g, EdgesMeetAt m cells v e f → EdgesMeetAt m cells v e g → e = f ∨ e = g ∨ f = g

/-- One edit joins a whole chain of at least two edges and removes the vertices inside it.  The edge
and the vertex which are kept are removed as well when the chain is a loop, and only then. -/
structure JoinsChain (m : Mesh) (cells : List (Int × Int)) (d : PathEdit) : Prop where
  keep : HasEdge m d.keepE
  joins : d.rmvE ≠ []
  once : d.rmvE.Nodup
  rmv : ∀ e, e ∈ d.rmvE ↔ EdgeChain m cells d.keepE e ∧ (e ≠ d.keepE ∨ OnLoop m cells d.keepE)
  vonce : d.rmvV.Nodup
  verts : ∀ v, v ∈ d.rmvV ↔ ∃ e, EdgeChain m cells d.keepE e ∧ JoinedAt m cells v e
  keepV : ∃ e, EdgeChain m cells d.keepE e ∧ EdgeVert m e d.keepV
  loopV : d.keepV ∈ d.rmvV ↔ OnLoop m cells d.keepE
  scope : ∀ e, e ∈ d.scope ↔ ∃ c, (d.keepE, c) ∈ cells ∧ (e, c) ∈ cells

/-- Every chain of at least two edges has an edit. -/
def AllJoined (m : Mesh) (cells : List (Int × Int)) (l : List PathEdit) : Prop :=
  ∀ e f, e ≠ f → EdgeChain m cells e f → ∃ d ∈ l, EdgeChain m cells d.keepE e

/-- No chain has two edits. -/
def JoinedOnce (m : Mesh) (cells : List (Int × Int)) (l : List PathEdit) : Prop :=
  l.Pairwise fun d d' => ¬ EdgeChain m cells d.keepE d'.keepE

end RSVS.Spec
