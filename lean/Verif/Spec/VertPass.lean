import Verif.Model.VertPass
import Verif.Spec.Mesh

/-!
# Specification of the joining of snaxels on the same edge
-/

namespace RSVS.Spec

open RSVS.VertPass

/-- Two snaxels are on the same edge of the parent mesh. -/
def OnSameEdge (snaxs : List (Int × Int)) (a b : Int) : Prop := ∃ p, (a, p) ∈ snaxs ∧ (b, p) ∈ snaxs

/-- An edge of the snake joins two different snaxels which are on the same edge of the parent mesh. -/
def Touching (m : Mesh) (snaxs : List (Int × Int)) (p : Int × Int) : Prop :=
  p.1 ≠ p.2 ∧ OnSameEdge snaxs p.1 p.2 ∧ ∃ e ∈ m.edges, e.vertind = [p.1, p.2]

/-- Two pairs have a snaxel in common. -/
def SharesEnd (p q : Int × Int) : Prop := p.1 = q.1 ∨ p.1 = q.2 ∨ p.2 = q.1 ∨ p.2 = q.2

/-- Pairs of touching snaxels, no two with a snaxel in common, to which no pair can be added. -/
structure PairsChosen (m : Mesh) (snaxs : List (Int × Int)) (M : List (Int × Int)) : Prop where
  touching : ∀ p ∈ M, Touching m snaxs p
  apart : M.Pairwise fun p q => ¬ SharesEnd p q
  maximal : ∀ p, Touching m snaxs p → ∃ q ∈ M, SharesEnd p q

/-- `name` calls the second snaxel of a pair like the first and leaves the others. -/
def NamesPairs (M : List (Int × Int)) (name : Int → Int) : Prop :=
  (∀ p ∈ M, name p.2 = p.1) ∧ ∀ v, (∀ p ∈ M, p.2 ≠ v) → name v = v

/-- Both ends of the edge have the same name. -/
def CollapsedBy (name : Int → Int) (e : Edge) : Prop := ∃ a b, e.vertind = [a, b] ∧ name a = name b

instance (name : Int → Int) (e : Edge) : Decidable (CollapsedBy name e) :=
  match h : e.vertind with
  | [a, b] => if hab : name a = name b then isTrue ⟨a, b, h, hab⟩ else isFalse (by
      rintro ⟨x, y, h1, h2⟩
      rw [h] at h1
      cases h1
      exact hab h2)
  | [] => isFalse (by rintro ⟨x, y, h1, _⟩; rw [h] at h1; cases h1)
  | [_] => isFalse (by rintro ⟨x, y, h1, _⟩; rw [h] at h1; cases h1)
  | _ :: _ :: _ :: _ => isFalse (by rintro ⟨x, y, h1, _⟩; rw [h] at h1; cases h1)

/-- The edge with index `k` collapses. -/
def EdgeCollapses (m : Mesh) (name : Int → Int) (k : Int) : Prop := ∃ e ∈ m.edges, e.index = k ∧ CollapsedBy name e

/-- The snake before the pass: edges have two ends (or have been emptied) and positive indices, vertices and
edges list each other, the snaxels are the vertices, and edges with ends are in the table of parents. -/
structure SnakeReady (m : Mesh) (snaxs : List (Int × Int)) (snaxedges live : List Int) : Prop where
  unique : UniqueIndices m
  snaxs : snaxs.map Prod.fst = m.verts.map Vert.index
  snaxedges : snaxedges = m.edges.map Edge.index
  positive : ∀ e ∈ m.edges, 0 < e.index
  ends : ∀ e ∈ m.edges, e.vertind = [] ∨ e.vertind.length = 2
  verts : ∀ e v, EdgeVert m e v → HasVert m v
  link : ∀ v e, VertEdge m v e ↔ EdgeVert m e v
  once : ∀ v ∈ m.verts, v.edgeind.Nodup
  live : live.Nodup ∧ ∀ e ∈ m.edges, e.vertind ≠ [] → e.index ∈ live

/-- The snake after the pass: the ends of the edges have their new names, edges whose ends have the same name
are emptied and no surface which they listed lists them, vertices and edges list each other, and nothing else
changes. -/
structure SnakeJoined (m m' : Mesh) (name : Int → Int) : Prop where
  edges : m'.edges = m.edges.map fun e =>
    if CollapsedBy name e then { e with vertind := [], surfind := [] } else { e with vertind := e.vertind.map name }
  verts : (m'.verts.map fun v => { v with edgeind := [] }) = m.verts.map fun v => { v with edgeind := [] }
  link : ∀ v e, VertEdge m' v e ↔ EdgeVert m' e v
  surfs : (m'.surfs.map fun s => { s with edgeind := [], isordered := false }) = m.surfs.map fun s => { s with edgeind := [], isordered := false }
  listed : ∀ s e, SurfEdge m' s e ↔ SurfEdge m s e ∧ ¬ (EdgeCollapses m name e ∧ EdgeSurf m e s)
  volus : m'.volus = m.volus
  dim : m'.meshDim = m.meshDim

/-- The edits: each joins a chosen pair and each chosen pair is joined, the edges named are exactly those which
collapse, and exactly these leave the table of parents. -/
structure EditsRight (m : Mesh) (M : List (Int × Int)) (name : Int → Int) (live : List Int) (r : Passed) : Prop where
  pairs : ∀ p, (∃ f ∈ r.found, f.pair = some p) ↔ p ∈ M
  same : ∀ f ∈ r.found, f.edgeKeep = f.edgeRmv
  edges : ∀ k, ((∃ f ∈ r.found, f.edgeRmv = k) ∨ k ∈ r.extra) ↔ EdgeCollapses m name k
  live : ∀ k, k ∈ r.live ↔ k ∈ live ∧ ¬ EdgeCollapses m name k

end RSVS.Spec
