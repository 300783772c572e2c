import Mathlib.Algebra.Order.Ring.Rat
import Mathlib.Algebra.Order.Group.Abs
import Verif.Spec.Mesh

/-!
# Specification of the border marks
-/

namespace RSVS.Spec

def VertMarked (m : Mesh) (i : Int) : Prop := ∃ x ∈ m.verts, x.index = i ∧ x.isBorder = true
def EdgeMarked (m : Mesh) (i : Int) : Prop := ∃ x ∈ m.edges, x.index = i ∧ x.isBorder = true
def SurfMarked (m : Mesh) (i : Int) : Prop := ∃ x ∈ m.surfs, x.index = i ∧ x.isBorder = true
def VoluMarked (m : Mesh) (i : Int) : Prop := ∃ x ∈ m.volus, x.index = i ∧ x.isBorder = true

/-- Forget the marks. -/
def unmarked (m : Mesh) : Mesh :=
  { m with
    verts := m.verts.map (fun x => { x with isBorder := false })
    edges := m.edges.map (fun x => { x with isBorder := false })
    surfs := m.surfs.map (fun x => { x with isBorder := false })
    volus := m.volus.map (fun x => { x with isBorder := false }) }

/-- Volume `c` has vertex `v`. -/
def VoluVert (m : Mesh) (c v : Int) : Prop :=
  ∃ s e, VoluSurf m c s ∧ SurfEdge m s e ∧ EdgeVert m e v
/-- Surface `s` has vertex `v`. -/
def SurfVert (m : Mesh) (s v : Int) : Prop := ∃ e, SurfEdge m s e ∧ EdgeVert m e v

/-- Three dimensions: what touches the outside. -/
def OutSurf3 (m : Mesh) (s : Int) : Prop := SurfVolu m s 0
def OutEdge3 (m : Mesh) (e : Int) : Prop := ∃ s, EdgeSurf m e s ∧ OutSurf3 m s
def OutVert3 (m : Mesh) (v : Int) : Prop := ∃ e, VertEdge m v e ∧ OutEdge3 m e

/-- Two dimensions. -/
def OutEdge2 (m : Mesh) (e : Int) : Prop := EdgeSurf m e 0
def OutVert2 (m : Mesh) (v : Int) : Prop := ∃ e, VertEdge m v e ∧ OutEdge2 m e

/-- The marks of `m'` in three dimensions, by the incidences of `m`. -/
structure Marked3 (m m' : Mesh) : Prop where
  same : unmarked m' = unmarked m
  surf : ∀ s, SurfMarked m' s ↔ OutSurf3 m s
  edge : ∀ e, EdgeMarked m' e ↔ OutEdge3 m e
  vert : ∀ v, VertMarked m' v ↔ OutVert3 m v
  volu : ∀ c, VoluMarked m' c ↔
    ((∃ s, VoluSurf m c s ∧ OutSurf3 m s) ∨ ∃ v, VoluVert m c v ∧ OutVert3 m v)

/-- The marks of `m'` in two dimensions. -/
structure Marked2 (m m' : Mesh) : Prop where
  same : unmarked m' = unmarked m
  edge : ∀ e, EdgeMarked m' e ↔ OutEdge2 m e
  vert : ∀ v, VertMarked m' v ↔ OutVert2 m v
  surf : ∀ s, SurfMarked m' s ↔
    ((∃ e, SurfEdge m s e ∧ OutEdge2 m e) ∨ ∃ v, SurfVert m s v ∧ OutVert2 m v)

/-- The volumes asked for: marked, and with a parent value near 1 (`outer = 0`), with a parent
value other than 0 (`outer = 1`), or any (`outer = -1`). -/
def Wanted (outer : Int) (eps : ℚ) (vals : List ℚ) : Prop :=
  outer = -1 ∨ (outer = 0 ∧ ∃ v ∈ vals, |v - 1| < eps) ∨ (outer = 1 ∧ ∃ v ∈ vals, eps < |v|)

end RSVS.Spec
