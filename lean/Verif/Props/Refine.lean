import Verif.Lemmas.Refine

/-!
# Coarse boxes

C48: `CartesianMapping` gives each cell the index of a cell of the same coarse box.
-/

namespace RSVS.Props

open RSVS.Mesh RSVS.Refine RSVS.Spec

/-- C48: for any mesh whose cells refer to elements of the mesh and use at least one vertex, any extents
which are not zero and any numbers of boxes, the mapping is computed.  It has an entry for each cell: the
index of a cell whose centre is in the same box, which is mapped to itself.  Two cells have the same entry
exactly if their centres are in the same box. -/
theorem C48_mapping (m : Mesh) (dims : Fin 3 → Int) (lo hi : Fin 3 → ℚ)
    (hv : (m.verts.map Vert.index).Nodup) (he : (m.edges.map Edge.index).Nodup)
    (hs : (m.surfs.map Surf.index).Nodup) (hcell : ((cellVerts m).map Prod.fst).Nodup)
    (h0 : ∀ c ∈ cellVerts m, c.1 ≠ 0) (hne : ∀ c ∈ cellVerts m, c.2 ≠ [])
    (href : CellsRefer m) (hc : Corners m lo hi) (hext : ∀ i, lo i < hi i) :
    ∃ r : List Int, cartesianMapping m dims = .ok r ∧
      ∃ hl : r.length = (cellVerts m).length,
      (∀ (a : Nat) (ha : a < (cellVerts m).length), ∃ (b : Nat) (hb : b < (cellVerts m).length),
        r[a] = ((cellVerts m)[b]).1 ∧ r[b] = ((cellVerts m)[b]).1 ∧
        SameBox lo hi dims (centre ((cellVerts m)[a]).2) (centre ((cellVerts m)[b]).2)) ∧
      ∀ (a b : Nat) (ha : a < (cellVerts m).length) (hb : b < (cellVerts m).length),
        r[a] = r[b] ↔
          SameBox lo hi dims (centre ((cellVerts m)[a]).2) (centre ((cellVerts m)[b]).2) := by
  refine ⟨_, cartesian_firsts hv he hs href hc hext hne h0, by simp, ?_, ?_⟩
  · intro a ha
    obtain ⟨d, hd, h1, h2, h3, _⟩ :=
      firsts_spec (σ := fun d => boxNum lo hi (slices dims) (centre d.2)) (List.getElem_mem ha)
    obtain ⟨b, hb, rfl⟩ := List.getElem_of_mem hd
    refine ⟨b, hb, by simpa using h2, by simpa using h3, ?_⟩
    rw [same_iff hext dims
      (centre_between hc (cellVerts_sub _ (List.getElem_mem ha)) (hne _ (List.getElem_mem ha)))
      (centre_between hc (cellVerts_sub _ (List.getElem_mem hb)) (hne _ (List.getElem_mem hb)))]
    exact h1.symm
  · intro a b ha hb
    rw [same_iff hext dims
      (centre_between hc (cellVerts_sub _ (List.getElem_mem ha)) (hne _ (List.getElem_mem ha)))
      (centre_between hc (cellVerts_sub _ (List.getElem_mem hb)) (hne _ (List.getElem_mem hb)))]
    simp only [List.getElem_map]
    obtain ⟨d, hd, h1, h2, _, h3⟩ :=
      firsts_spec (σ := fun d => boxNum lo hi (slices dims) (centre d.2)) (List.getElem_mem ha)
    obtain ⟨d', hd', h1', h2', _, _⟩ :=
      firsts_spec (σ := fun d => boxNum lo hi (slices dims) (centre d.2)) (List.getElem_mem hb)
    constructor
    · intro e
      rw [h2, h2'] at e
      have := inj_of_nodup hcell hd hd' e
      rw [← h1, ← h1', this]
    · intro e
      rw [h2, h3 _ (List.getElem_mem hb) e.symm]

/-- Only the first box of a flat mesh could be meant; the code divides by the extent and converts the result
to an integer, which is undefined: a mesh with an extent equal to zero is never mapped, whatever `dims`.
(The lines which should prepare for this case read `dims` after it was made positive.) -/
theorem C48_flat (m : Mesh) (dims : Fin 3 → Int) (lo hi : Fin 3 → ℚ)
    (hv : (m.verts.map Vert.index).Nodup) (he : (m.edges.map Edge.index).Nodup)
    (hs : (m.surfs.map Surf.index).Nodup) (hne : ∀ c ∈ cellVerts m, c.2 ≠ [])
    (href : CellsRefer m) (hc : Corners m lo hi) (i : Fin 3) (hflat : lo i = hi i)
    (hsome : cellVerts m ≠ []) : cartesianMapping m dims = .error .ub := by
  rw [cartesian_eq hc]
  have hread := cells_read hv he hs href hne
  cases hcv : cellVerts m with
  | nil => exact absurd hcv hsome
  | cons d l =>
    rw [hcv] at hread
    cases hcl : Refine.cells m with
    | nil => rw [hcl] at hread; cases hread
    | cons c l' =>
      rw [hcl] at hread
      cases hread with
      | cons h _ =>
        obtain ⟨h1, h2⟩ := h
        obtain ⟨es, he, h6⟩ := bind_ok_iff.mp h2
        obtain ⟨ps, hp, h7⟩ := bind_ok_iff.mp h6
        obtain ⟨ci, ce⟩ := c
        simp only at he
        unfold mapLoop
        rw [he]; simp only [Except.bind]
        rw [hp]; simp only
        rw [h7]; simp only
        have hbox : boxOf lo (fun i => hi i - lo i) (slices dims) (centre d.2) = .error .ub := by
          have hbc : ∀ j, boxCoord (lo j) (hi j - lo j) (slices dims j) (centre d.2 j) = .error .ub ∨
              ∃ k, boxCoord (lo j) (hi j - lo j) (slices dims j) (centre d.2 j) = .ok k := by
            intro j
            unfold boxCoord
            split
            · exact Or.inl rfl
            · split
              · exact Or.inr ⟨_, rfl⟩
              · exact Or.inr ⟨_, rfl⟩
          have hi0 : boxCoord (lo i) (hi i - lo i) (slices dims i) (centre d.2 i) = .error .ub := by
            unfold boxCoord
            rw [if_pos (by rw [hflat]; ring)]
          unfold boxOf
          rcases hbc 0 with e0 | ⟨k0, e0⟩
          · rw [e0]; rfl
          · rcases hbc 1 with e1 | ⟨k1, e1⟩
            · rw [e0, e1]; rfl
            · rcases hbc 2 with e2 | ⟨k2, e2⟩
              · rw [e0, e1, e2]; rfl
              · exfalso
                have : ∀ j, ∃ k, boxCoord (lo j) (hi j - lo j) (slices dims j) (centre d.2 j) = .ok k := by
                  intro j
                  fin_cases j
                  · exact ⟨k0, e0⟩
                  · exact ⟨k1, e1⟩
                  · exact ⟨k2, e2⟩
                obtain ⟨k, hk⟩ := this i
                rw [hi0] at hk
                cases hk
        rw [hbox]

/-! ### Examples -/

/-- Three tetrahedra in a row (cells 5, 3 and 8). -/
def rowMesh : Mesh where
  verts := [⟨1, [], [0, 0, 0], false⟩, ⟨2, [], [1, 0, 0], false⟩, ⟨3, [], [0, 1, 0], false⟩,
    ⟨4, [], [0, 0, 1], false⟩, ⟨5, [], [4, 1, 1], false⟩, ⟨6, [], [1, 1, 1], false⟩]
  edges := [⟨1, [1, 2], [], false⟩, ⟨2, [3, 4], [], false⟩, ⟨3, [2, 6], [], false⟩, ⟨4, [5, 6], [], false⟩]
  surfs := [{ index := 1, edgeind := [1, 2], voluind := [5, 0] }, { index := 2, edgeind := [2, 3], voluind := [5, 3] },
    { index := 3, edgeind := [4, 3], voluind := [3, 8] }, { index := 4, edgeind := [4], voluind := [8, 0] }]
  volus := [{ index := 5, surfind := [1, 2] }, { index := 3, surfind := [2, 1] }, { index := 8, surfind := [4, 4] }]
  meshDim := 3

/-- Cells 5 and 3 are in the first box, cell 8 in the last one. -/
example : cartesianMapping rowMesh ![2, 0, 1] = .ok [5, 5, 8] := by decide +kernel

theorem rowMesh_corners : Corners rowMesh ![0, 0, 0] ![4, 1, 1] := by
  intro i
  fin_cases i
  · exact ⟨by decide +kernel, by decide +kernel, by decide +kernel⟩
  · exact ⟨by decide +kernel, by decide +kernel, by decide +kernel⟩
  · exact ⟨by decide +kernel, by decide +kernel, by decide +kernel⟩

theorem rowMesh_refer : CellsRefer rowMesh :=
  ⟨fun _ => by decide +kernel, by decide +kernel, by decide +kernel⟩

example (dims : Fin 3 → Int) : ∃ r, cartesianMapping rowMesh dims = .ok r := by
  obtain ⟨r, h, _⟩ := C48_mapping rowMesh dims _ _ (by decide +kernel) (by decide +kernel) (by decide +kernel)
    (by decide +kernel) (by decide +kernel) (by decide +kernel) rowMesh_refer rowMesh_corners (by decide +kernel)
  exact ⟨r, h⟩

/-- A flat square. -/
def squareMesh : Mesh where
  verts := [⟨1, [1, 4], [0, 0, 0], false⟩, ⟨2, [1, 2], [1, 0, 0], false⟩, ⟨3, [2, 3], [1, 1, 0], false⟩,
    ⟨4, [3, 4], [0, 1, 0], false⟩]
  edges := [⟨1, [1, 2], [1], false⟩, ⟨2, [2, 3], [1], false⟩, ⟨3, [3, 4], [1], false⟩, ⟨4, [4, 1], [1], false⟩]
  surfs := [{ index := 1, edgeind := [1, 2, 3, 4], voluind := [] }]
  volus := []
  meshDim := 2

theorem squareMesh_corners : Corners squareMesh ![0, 0, 0] ![1, 1, 0] := by
  intro i
  fin_cases i
  · exact ⟨by decide +kernel, by decide +kernel, by decide +kernel⟩
  · exact ⟨by decide +kernel, by decide +kernel, by decide +kernel⟩
  · exact ⟨by decide +kernel, by decide +kernel, by decide +kernel⟩

/-- No flat mesh in the plane is mapped, even with `dims[2] = 0`. -/
example (dims : Fin 3 → Int) : cartesianMapping squareMesh dims = .error .ub :=
  C48_flat squareMesh dims _ _ (by decide +kernel) (by decide +kernel) (by decide +kernel) (by decide +kernel)
    ⟨fun h => absurd h (by decide +kernel), by decide +kernel, by decide +kernel⟩ squareMesh_corners 2 rfl (by decide +kernel)

end RSVS.Props
