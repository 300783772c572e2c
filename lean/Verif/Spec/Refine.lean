import Verif.Model.Mesh
import Mathlib.Data.Rat.Defs
import Mathlib.Algebra.Order.Field.Basic
import Mathlib.Data.Rat.Floor

/-!
# What a coarse grid of boxes is
-/

namespace RSVS.Spec

open RSVS.Mesh

/-- The vertices of the edges `e` with `E e`. -/
def vertsOf (m : Mesh) (E : Edge → Bool) : List Vert :=
  m.verts.filter fun v => m.edges.any fun e => E e && e.vertind.contains v.index

/-- The cells of a mesh of dimension 3 or 2, each with the vertices it uses. -/
def cellVerts (m : Mesh) : List (Int × List Vert) :=
  match m.meshDim with
  | 3 => m.volus.map fun c => (c.index, vertsOf m fun e =>
      m.surfs.any fun s => c.surfind.contains s.index && s.edgeind.contains e.index)
  | 2 => m.surfs.map fun s => (s.index, vertsOf m fun e => s.edgeind.contains e.index)
  | _ => []

/-- The lists which lead from cells to vertices name elements of the mesh. -/
structure CellsRefer (m : Mesh) : Prop where
  /-- Surfaces of volumes. -/
  surfs : m.meshDim = 3 → ∀ c ∈ m.volus, ∀ i ∈ c.surfind, ∃ s ∈ m.surfs, s.index = i
  /-- Edges of surfaces. -/
  edges : ∀ s ∈ m.surfs, ∀ i ∈ s.edgeind, ∃ e ∈ m.edges, e.index = i
  /-- Vertices of edges. -/
  verts : ∀ e ∈ m.edges, ∀ i ∈ e.vertind, ∃ v ∈ m.verts, v.index = i

/-- `lo` and `hi` are the corners of the box around the vertices. -/
def Corners (m : Mesh) (lo hi : Fin 3 → ℚ) : Prop :=
  ∀ i : Fin 3, (∀ v ∈ m.verts, lo i ≤ v.coord.getD i 0 ∧ v.coord.getD i 0 ≤ hi i) ∧
    (∃ v ∈ m.verts, v.coord.getD i 0 = lo i) ∧ ∃ v ∈ m.verts, v.coord.getD i 0 = hi i

/-- The mean of vertices. -/
def centre (vs : List Vert) : Fin 3 → ℚ :=
  fun i => (vs.map fun v => v.coord.getD i 0).sum / vs.length

/-- `x` is in slice `k` of `n` equal slices of the interval from `lo` to `hi`; the last one is closed. -/
def InSlice (lo hi : ℚ) (n : Int) (x : ℚ) (k : Int) : Prop :=
  lo + (hi - lo) * k / n ≤ x ∧ (x < lo + (hi - lo) * (k + 1) / n ∨ k = n - 1 ∧ x ≤ hi)

/-- The number of slices in a direction: at least one. -/
def slices (dims : Fin 3 → Int) (i : Fin 3) : Int := max (dims i) 1

/-- Two points are in the same box. -/
def SameBox (lo hi : Fin 3 → ℚ) (dims : Fin 3 → Int) (x y : Fin 3 → ℚ) : Prop :=
  ∃ k : Fin 3 → Int, ∀ i, 0 ≤ k i ∧ k i < slices dims i ∧
    InSlice (lo i) (hi i) (slices dims i) (x i) (k i) ∧ InSlice (lo i) (hi i) (slices dims i) (y i) (k i)

end RSVS.Spec
