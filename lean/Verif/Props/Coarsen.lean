import Verif.Lemmas.Coarsen
import Verif.Props.Mesh

/-!
# Merging the cells of a mesh

C85: `CoarsenMesh` replaces each cell by the cell it is mapped to and removes what is then inside a cell.
-/

namespace RSVS.Props

open RSVS.Mesh RSVS.Refine RSVS.Spec

/-- C85 in the plane: for any sound mesh without loose parts and any mapping of each surface to a surface
that is mapped to itself, the merge is carried out.  The surfaces of the result are the images, the edges
those between different images, the vertices those of a remaining edge, and all lists agree with this; the
result is sound. -/
theorem C85_plane_partial (m : Mesh) (φ : Int → Int) (hm : Sound m) (h2 : TwoVerts m) (hl : NoneLoose m)
    (hdim : m.meshDim = 2) (hflat : m.volus = []) (hφ : Merging (HasSurf m) φ) :
    ∃ r, coarsenMesh m (m.surfs.map fun c => φ c.index) = .ok r ∧ PlaneMerged m r φ ∧ Sound r :=
  let ⟨r, h, hu, hv, hp⟩ := plane_ok hm h2 hl hdim hflat hφ
  ⟨r, h, hp, plane_sound hm hφ hflat hu hv hp⟩

/-- C85 in space, when each surface is between different images: the volumes of the result are the images,
with the surfaces of all the volumes they replace; nothing else changes and the result is sound.  Missing for
C85: any two neighbours merged into one, see `C85_solid_violated`. -/
theorem C85_solid_partial (m : Mesh) (φ : Int → Int) (hm : Sound m) (h2 : TwoVerts m) (hl : NoneLoose m)
    (hdim : m.meshDim = 3) (hφ : Merging (HasVolu m) φ)
    (hb : ∀ s ∈ m.surfs, ∃ c ∈ s.voluind, ∃ d ∈ s.voluind, φ c ≠ φ d) :
    ∃ r, coarsenMesh m (m.volus.map fun c => φ c.index) = .ok r ∧ SolidMerged m r φ ∧ Sound r :=
  let ⟨r, h, hu, hs⟩ := solid_ok hm h2 hl hdim hφ hb
  ⟨r, h, hs, solid_sound hm hφ hu hs⟩

/-- C85 fails in space whenever there is something to remove: `TightenConnectivity` keeps each volume of a
surface once, and the comparison of `voluind[0]` with `voluind[1]` then reads past the end of the list of
every surface inside a merged volume. -/
theorem C85_solid_violated (m : Mesh) (φ : Int → Int) (hm : Sound m) (h2 : TwoVerts m) (hdim : m.meshDim = 3)
    (hφ : Merging (HasVolu m) φ) (s : Surf) (hs : s ∈ m.surfs) (x : Int) (hx : ∀ c ∈ s.voluind, φ c = x) :
    coarsenMesh m (m.volus.map fun c => φ c.index) = .error .ub :=
  solid_ub hm h2 hdim hφ ⟨s, hs, x, hx⟩

/-! ### Examples -/

/-- Two squares side by side. -/
def twoSquares : Mesh where
  verts := [⟨1, [1, 5], [0, 0, 0], false⟩, ⟨2, [1, 2, 6], [1, 0, 0], false⟩, ⟨3, [2, 7], [2, 0, 0], false⟩,
    ⟨4, [3, 5], [0, 1, 0], false⟩, ⟨5, [3, 4, 6], [1, 1, 0], false⟩, ⟨6, [4, 7], [2, 1, 0], false⟩]
  edges := [⟨1, [1, 2], [1, 0], false⟩, ⟨2, [2, 3], [2, 0], false⟩, ⟨3, [4, 5], [1, 0], false⟩,
    ⟨4, [5, 6], [2, 0], false⟩, ⟨5, [1, 4], [1, 0], false⟩, ⟨6, [2, 5], [1, 2], false⟩, ⟨7, [3, 6], [2, 0], false⟩]
  surfs := [{ index := 1, edgeind := [1, 6, 3, 5], voluind := [] }, { index := 2, edgeind := [2, 7, 4, 6], voluind := [] }]
  volus := []
  meshDim := 2

theorem twoSquares_sound : Sound twoSquares := sound_of_checked (by decide +kernel)

/-- Surface 2 is mapped to surface 1. -/
def toFirst (i : Int) : Int := if i = 2 then 1 else i

theorem twoSquares_merging : Merging (HasSurf twoSquares) toFirst := by
  refine ⟨?_, ?_, rfl⟩
  all_goals
    rintro c ⟨s, hs, rfl⟩
    simp only [twoSquares, List.mem_cons, List.not_mem_nil, or_false] at hs
    rcases hs with rfl | rfl
  · exact ⟨_, List.mem_cons_self, rfl⟩
  · exact ⟨_, List.mem_cons_self, rfl⟩
  · rfl
  · rfl

/-- The two squares become a rectangle. -/
example : ∃ r, coarsenMesh twoSquares [1, 1] = .ok r ∧ PlaneMerged twoSquares r toFirst ∧ Sound r :=
  C85_plane_partial twoSquares toFirst twoSquares_sound (by unfold TwoVerts; decide +kernel)
    ⟨by decide +kernel, by decide +kernel⟩ rfl rfl twoSquares_merging

example : (coarsenMesh twoSquares [1, 1]).map (fun r => (r.edges.map Edge.index, r.surfs.map Surf.edgeind)) =
    .ok ([1, 2, 3, 4, 5, 7], [[1, 2, 3, 4, 5, 7]]) := by decide +kernel

/-- Outside the claim: a mapping to surfaces that are not mapped to themselves.  Exchanging the two surfaces
is carried out one index after the other, which merges their lists and keeps both. -/
theorem C85_exchange_violated :
    (coarsenMesh twoSquares [2, 1]).map (fun r => (r.edges.map Edge.surfind, r.surfs.map Surf.index)) =
      .ok ([[0, 1], [0, 1], [0, 1], [0, 1], [0, 1], [0, 1]], [1, 2]) := by decide +kernel

/-- Two tetrahedra with a common face. -/
def twoTetras : Mesh where
  verts := [⟨1, [1, 2, 3], [], false⟩, ⟨2, [1, 4, 5, 7], [], false⟩, ⟨3, [2, 4, 6, 8], [], false⟩,
    ⟨4, [3, 5, 6, 9], [], false⟩, ⟨5, [7, 8, 9], [], false⟩]
  edges := [⟨1, [1, 2], [3, 4], false⟩, ⟨2, [1, 3], [2, 4], false⟩, ⟨3, [1, 4], [2, 3], false⟩,
    ⟨4, [2, 3], [1, 4, 7], false⟩, ⟨5, [2, 4], [1, 3, 6], false⟩, ⟨6, [3, 4], [1, 2, 5], false⟩,
    ⟨7, [2, 5], [6, 7], false⟩, ⟨8, [3, 5], [5, 7], false⟩, ⟨9, [4, 5], [5, 6], false⟩]
  surfs := [{ index := 1, edgeind := [4, 5, 6], voluind := [1, 2] },
    { index := 2, edgeind := [2, 3, 6], voluind := [1, 0] },
    { index := 3, edgeind := [1, 3, 5], voluind := [1, 0] },
    { index := 4, edgeind := [1, 2, 4], voluind := [1, 0] },
    { index := 5, edgeind := [6, 8, 9], voluind := [2, 0] },
    { index := 6, edgeind := [5, 7, 9], voluind := [2, 0] },
    { index := 7, edgeind := [4, 7, 8], voluind := [2, 0] }]
  volus := [{ index := 1, surfind := [1, 2, 3, 4] }, { index := 2, surfind := [1, 5, 6, 7] }]
  meshDim := 3

theorem twoTetras_sound : Sound twoTetras := sound_of_checked (by decide +kernel)

theorem merging_first {m : Mesh} (h : m.volus.map Volu.index = [1, 2]) : Merging (HasVolu m) toFirst := by
  have hh : ∀ c, HasVolu m c ↔ c = 1 ∨ c = 2 := by
    intro c
    have : HasVolu m c ↔ c ∈ m.volus.map Volu.index := by
      simp only [List.mem_map]; exact Iff.rfl
    rw [this, h]; simp
  refine ⟨?_, ?_, rfl⟩
  all_goals
    intro c hc
    rcases (hh c).mp hc with rfl | rfl
  · exact (hh _).mpr (Or.inl rfl)
  · exact (hh _).mpr (Or.inl rfl)
  · rfl
  · rfl

example : coarsenMesh twoTetras [1, 1] = .error .ub :=
  C85_solid_violated twoTetras toFirst twoTetras_sound (by unfold TwoVerts; decide +kernel) rfl (merging_first rfl)
    { index := 1, edgeind := [4, 5, 6], voluind := [1, 2] } (by decide +kernel) 1 (by decide +kernel)

/-- Two tetrahedra with a common edge. -/
def apartTetras : Mesh where
  verts := [⟨1, [1, 2, 3], [], false⟩, ⟨2, [1, 4, 5], [], false⟩, ⟨3, [2, 4, 6, 7, 8], [], false⟩,
    ⟨4, [3, 5, 6, 9, 10], [], false⟩, ⟨5, [7, 9, 11], [], false⟩, ⟨6, [8, 10, 11], [], false⟩]
  edges := [⟨1, [1, 2], [3, 4], false⟩, ⟨2, [1, 3], [2, 4], false⟩, ⟨3, [1, 4], [2, 3], false⟩,
    ⟨4, [2, 3], [1, 4], false⟩, ⟨5, [2, 4], [1, 3], false⟩, ⟨6, [3, 4], [1, 2, 7, 8], false⟩,
    ⟨7, [3, 5], [6, 8], false⟩, ⟨8, [3, 6], [6, 7], false⟩, ⟨9, [4, 5], [5, 8], false⟩,
    ⟨10, [4, 6], [5, 7], false⟩, ⟨11, [5, 6], [5, 6], false⟩]
  surfs := [{ index := 1, edgeind := [4, 5, 6], voluind := [1, 0] },
    { index := 2, edgeind := [2, 3, 6], voluind := [1, 0] },
    { index := 3, edgeind := [1, 3, 5], voluind := [1, 0] },
    { index := 4, edgeind := [1, 2, 4], voluind := [1, 0] },
    { index := 5, edgeind := [9, 10, 11], voluind := [2, 0] },
    { index := 6, edgeind := [7, 8, 11], voluind := [2, 0] },
    { index := 7, edgeind := [6, 8, 10], voluind := [2, 0] },
    { index := 8, edgeind := [6, 7, 9], voluind := [2, 0] }]
  volus := [{ index := 1, surfind := [1, 2, 3, 4] }, { index := 2, surfind := [5, 6, 7, 8] }]
  meshDim := 3

theorem apartTetras_sound : Sound apartTetras := sound_of_checked (by decide +kernel)

/-- They become one volume with eight faces. -/
example : ∃ r, coarsenMesh apartTetras [1, 1] = .ok r ∧ SolidMerged apartTetras r toFirst ∧ Sound r :=
  C85_solid_partial apartTetras toFirst apartTetras_sound (by unfold TwoVerts; decide +kernel)
    ⟨by decide +kernel, by decide +kernel⟩ rfl (merging_first rfl) (by decide +kernel)

end RSVS.Props
