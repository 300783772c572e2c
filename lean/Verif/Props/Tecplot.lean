import Verif.Lemmas.TecplotZone
import Verif.Props.Order

/-!
# C116: a mesh printed for Tecplot; C117: points printed for Tecplot
-/

namespace RSVS.Props

open RSVS RSVS.Spec RSVS.Mesh RSVS.Tecplot

/-! ### C116 -/

/-- **C116** `PrintMesh` on a mesh with volumes whose faces are loops of at least three edges: the zone agrees with its
header, and it shows the volumes: nodes and cells in the order of the mesh, for each surface its vertices in the order
of the loop, and the two volumes beside it, with 0 for none.

Missing for the full claim: faces of two edges, for which it is false (`C116_two_edges_violated`). -/
theorem C116_volumes_partial (m : Mesh) (hs : Sound m) (hf : Faced m) (h3 : Solid m) (hv : m.verts ≠ [])
    (hc : m.volus ≠ []) (L : List Int) :
    ∃ z, printMesh m 0 L = .ok (some z) ∧ ShowsVolumes m m.verts m.volus m.surfs z ∧ Readable z := by
  obtain ⟨z, h1, h2⟩ := polyhedron_ok hs hf h3 hv
  refine ⟨z, ?_, h2⟩
  have ht : outType m 0 = 1 := by
    unfold outType
    rw [if_pos rfl, if_pos (List.length_pos_iff.mpr hc)]
  unfold printMesh
  rw [if_neg (fun h => hv (List.length_eq_zero_iff.mp h)), ht, if_pos rfl, h1]
  rfl

/-- A flat mesh whose edges have two entries for surfaces is shown by its surfaces, with the edges as faces.

Missing for the full claim: edges with one entry (`C116_one_side_violated`). -/
theorem C116_surfaces_partial (m : Mesh) (hs : Sound m) (h2 : TwoVerts m) (h3 : Solid m) (hv : m.verts ≠ [])
    (hc : m.volus = []) (hsf : m.surfs ≠ []) (hf : ∀ e ∈ m.edges, e.surfind.length = 2) (L : List Int) :
    ∃ z, printMesh m 0 L = .ok (some z) ∧ ShowsSurfaces m z ∧ Readable z := by
  obtain ⟨z, h1, h4⟩ := polygon_ok hs h2 h3 hv hf
  refine ⟨z, ?_, h4⟩
  have ht : outType m 0 = 2 := by
    unfold outType
    rw [if_pos rfl, if_neg (by rw [hc]; simp), if_pos (List.length_pos_iff.mpr hsf)]
  unfold printMesh
  rw [if_neg (fun h => hv (List.length_eq_zero_iff.mp h)), ht, if_neg (by decide), if_pos rfl, h1]
  rfl

/-- A mesh of edges only, or any mesh printed as lines, is shown by its edges. -/
theorem C116_lines (m : Mesh) (hs : Sound m) (h2 : TwoVerts m) (h3 : Solid m) (hv : m.verts ≠ []) (t : Int)
    (ht : t = 3 ∨ t = 0 ∧ m.volus = [] ∧ m.surfs = [] ∧ m.edges ≠ []) (L : List Int) :
    ∃ z, printMesh m t L = .ok (some z) ∧ ShowsEdges m z ∧ Readable z := by
  obtain ⟨z, h1, h4⟩ := line_ok hs h2 h3 hv
  refine ⟨z, ?_, h4⟩
  have ht : outType m t = 3 := by
    unfold outType
    rcases ht with rfl | ⟨rfl, h1, h2, h3⟩
    · rfl
    · rw [if_pos rfl, if_neg (by rw [h1]; simp), if_neg (by rw [h2]; simp), if_pos (List.length_pos_iff.mpr h3)]
  unfold printMesh
  rw [if_neg (fun h => hv (List.length_eq_zero_iff.mp h)), ht, if_neg (by decide), if_neg (by decide), if_pos rfl, h1]
  rfl

/-- Some of the volumes (type 5): the zone shows the listed volumes in the order of the list, each of their surfaces
once, each of the vertices of these once, and 0 beside a face for volumes which are not in the list.

Missing for the full claim: faces of two edges, as above. -/
theorem C116_some_volumes_partial (m : Mesh) (hs : Sound m) (hf : Faced m) (h3 : Solid m) (hv : m.verts ≠ [])
    (L : List Int) (hL : L ≠ []) (hLm : ∀ k ∈ L, HasVolu m k) :
    ∃ z V C F, printMesh m 5 L = .ok (some z) ∧ C.map Volu.index = L ∧ (∀ c ∈ C, c ∈ m.volus) ∧ FacesOf m C F ∧
      CornersOf m F V ∧ ShowsVolumes m V C F z ∧ Readable z := by
  obtain ⟨z, V, C, F, h1, h2⟩ := cells_ok hs hf h3 hv hL hLm
  refine ⟨z, V, C, F, ?_, h2⟩
  have ht : outType m 5 = 5 := rfl
  unfold printMesh
  rw [if_neg (fun h => hv (List.length_eq_zero_iff.mp h)), ht, if_neg (by decide), if_neg (by decide), if_neg (by decide),
    if_neg (by decide), if_pos rfl, h1]
  rfl

/-- Two faces of two edges each, around one volume; the edges have the same direction. -/
def pillow : Mesh where
  verts := [⟨1, [1, 2], [0, 0, 0], false⟩, ⟨2, [1, 2], [1, 0, 0], false⟩]
  edges := [⟨1, [1, 2], [1, 2], false⟩, ⟨2, [1, 2], [1, 2], false⟩]
  surfs := [{ index := 1, edgeind := [1, 2], voluind := [1, 0] }, { index := 2, edgeind := [1, 2], voluind := [1, 0] }]
  volus := [{ index := 1, surfind := [1, 2] }]
  meshDim := 3

theorem pillow_sound : Sound pillow := sound_of_checked (by decide +kernel)

theorem pillow_round : GoesRound (EdgeJoins pillow) [1, 2] (walkOf [1, 2, 1]) := by
  refine ⟨?_, rfl, ?_⟩
  · intro k e hk
    have hlt : k < 2 := by simpa using Order.lt_of_get hk
    match k, hlt with
    | 0, _ => cases hk; exact ⟨⟨1, [1, 2], [1, 2], false⟩, by simp [pillow], rfl, Or.inl rfl⟩
    | 1, _ => cases hk; exact ⟨⟨2, [1, 2], [1, 2], false⟩, by simp [pillow], rfl, Or.inr rfl⟩
  · intro i j hi hj h
    simp only [List.length_cons, List.length_nil] at hi hj
    match i, j, hi, hj with
    | 0, 0, _, _ | 1, 1, _, _ => rfl
    | 0, 1, _, _ | 1, 0, _, _ => simp [walkOf] at h

/-- A face of two edges is printed with one vertex twice: the second and third lines of the map are `1 1`, and vertex 2
is on no face. -/
theorem C116_two_edges_violated :
    Sound pillow ∧ Solid pillow ∧ (∀ s ∈ pillow.surfs, (∃ w, GoesRound (EdgeJoins pillow) s.edgeind w) ∧
      s.voluind.length = 2) ∧
    ∃ z, printMesh pillow 0 [] = .ok (some z) ∧ z.map = [[2, 2], [1, 1], [1, 1], [1, 1], [0, 0]] ∧
      ¬ ShowsVolumes pillow pillow.verts pillow.volus pillow.surfs z := by
  refine ⟨pillow_sound, by unfold Solid; decide +kernel, ?_, ?_⟩
  · intro s hs
    simp only [pillow, List.mem_cons, List.not_mem_nil, or_false] at hs
    rcases hs with rfl | rfl <;> exact ⟨⟨_, pillow_round⟩, rfl⟩
  · refine ⟨⟨.polyhedron, 2, 1, 2, 4, [[0, 1], [0, 0], [0, 0]], [[0], [1], [1]], [[2, 2], [1, 1], [1, 1], [1, 1], [0, 0]]⟩,
      by decide +kernel, rfl, fun h => ?_⟩
    obtain ⟨r, _, _, _, _, h1, h2, _⟩ := h.faces 0 _ rfl
    cases h1
    have h3 := h2 _ pillow_round
    cases h3 with
    | cons _ h3 =>
      cases h3 with
      | cons h3 _ =>
        rcases h3 with ⟨p, hp, hp2⟩ | ⟨h0, _⟩
        · have : p = 0 := by omega
          subst this
          exact absurd hp2 (by decide)
        · exact absurd h0 (by decide)

/-- An edge of a flat mesh with one entry for surfaces is read past the end of the entries, though the mesh is sound. -/
theorem C116_one_side_violated :
    Sound digonSame ∧ TwoVerts digonSame ∧ Solid digonSame ∧ printMesh digonSame 0 [] = .error .ub :=
  ⟨digonSame_sound, by unfold TwoVerts; decide +kernel, by unfold Solid; decide +kernel, by decide +kernel⟩

/-! ### C117 -/

/-- **C117** points of a list of indices: the zone shows the listed vertices in the order of the list.

Missing for the full claim: lists as long as the mesh, for which it is false (`C117_all_violated`,
`C117_marks_violated`). -/
theorem C117_listed_partial (m : Mesh) (hs : Sound m) (h3 : Solid m) (hv : m.verts ≠ []) (L : List Int) (hL : L ≠ [])
    (hLm : ∀ k ∈ L, HasVert m k) (hl : L.length ≠ m.verts.length) :
    ∃ z V, printMesh m 4 L = .ok (some z) ∧ V.map Vert.index = L ∧ (∀ v ∈ V, v ∈ m.verts) ∧ ShowsPoints V z ∧
      Readable z := by
  obtain ⟨V, rfl, hV⟩ := of_keys (ix := Vert.index) (l := m.verts) hLm
  rw [List.length_map] at hl
  obtain ⟨z, h1, h2⟩ := points_listed hs.unique.verts h3 hv hV (fun h => hL (by rw [h]; rfl)) hl
  refine ⟨z, V, ?_, rfl, hV, h2⟩
  have ht : outType m 4 = 4 := rfl
  unfold printMesh
  rw [if_neg (fun h => hv (List.length_eq_zero_iff.mp h)), ht, if_neg (by decide), if_neg (by decide), if_neg (by decide),
    if_pos rfl, h1]
  rfl

theorem printMesh_points {m : Mesh} (hv : m.verts ≠ []) (L : List Int) : printMesh m 4 L = (pointZone m L).map some := by
  have ht : outType m 4 = 4 := rfl
  unfold printMesh
  rw [if_neg (fun h => hv (List.length_eq_zero_iff.mp h)), ht, if_neg (by decide), if_neg (by decide), if_neg (by decide),
    if_pos rfl]

/-- Without a list all the vertices are shown. -/
theorem C117_no_list (m : Mesh) (h3 : Solid m) (hv : m.verts ≠ []) :
    ∃ z, printMesh m 4 [] = .ok (some z) ∧ ShowsPoints m.verts z ∧ Readable z := by
  obtain ⟨z, h1, h2⟩ := points_all h3 hv
  exact ⟨z, by rw [printMesh_points hv, h1]; rfl, h2⟩

/-- A list of all the indices, in any order, is taken for marks when the points are counted, and read past its end: in
every mesh with at least two vertices. -/
theorem C117_all_violated (m : Mesh) (hs : Sound m) (h3 : Solid m) (h2 : 2 ≤ m.verts.length) (L : List Int)
    (hL : L.Perm (m.verts.map Vert.index)) : printMesh m 4 L = .error .ub := by
  have hv : m.verts ≠ [] := fun h => by rw [h] at h2; simp at h2
  rw [printMesh_points hv, points_everything hs.unique.verts (fun v hv => hs.pos.verts v.index ⟨v, hv, rfl⟩) h3 h2 hL]
  rfl

/-- A list of marks is counted as marks and then read as indices: with a first mark 0 and some mark 1 the output stops
with an exception. -/
theorem C117_marks_violated (m : Mesh) (hs : Sound m) (h3 : Solid m) (L : List Int) (hlen : L.length = m.verts.length)
    (h01 : ∀ x ∈ L, x = 0 ∨ x = 1) (hfirst : L[0]? = some 0) (hone : 1 ∈ L) : printMesh m 4 L = .error .throws := by
  have hv : m.verts ≠ [] := fun h => by
    rw [h] at hlen
    rw [List.length_eq_zero_iff.mp hlen] at hone
    simp at hone
  rw [printMesh_points hv, points_marks (fun v hv => hs.pos.verts v.index ⟨v, hv, rfl⟩) h3 hlen h01 hfirst hone]
  rfl

/-- The points inside a snake: when some but not all vertices are inside, exactly these are shown, in the order of the
mesh.

Missing for the full claim: no vertex inside and all vertices inside, for which it is false
(`C117_none_inside_violated`, `C117_all_inside_violated`). -/
theorem C117_inside_partial (m : Mesh) (hs : Sound m) (h3 : Solid m) (isIn : List Bool)
    (hlen : isIn.length = m.verts.length) (hin : true ∈ isIn) (hout : false ∈ isIn) :
    ∃ z V, printInternal m isIn = .ok (some z) ∧ V.Sublist m.verts ∧
      (∀ v, v ∈ V ↔ ∃ i : Nat, m.verts[i]? = some v ∧ isIn[i]? = some true) ∧ ShowsPoints V z ∧ Readable z := by
  have hv : m.verts ≠ [] := fun h => by
    rw [h] at hlen
    rw [List.length_eq_zero_iff.mp hlen] at hin
    simp at hin
  have hsub := marked_sublist hlen
  obtain ⟨i, hi, hiv⟩ := List.mem_iff_getElem.mp hin
  obtain ⟨j, hj, hjv⟩ := List.mem_iff_getElem.mp hout
  have hne : marked m.verts isIn ≠ [] := by
    have : m.verts[i]'(by omega) ∈ marked m.verts isIn :=
      mem_marked.mpr ⟨i, List.getElem?_eq_getElem _, by rw [List.getElem?_eq_getElem hi, hiv]⟩
    exact List.ne_nil_of_mem this
  have hlt : (marked m.verts isIn).length ≠ m.verts.length := by
    intro h
    have he := hsub.eq_of_length h
    have hm : m.verts[j]'(by omega) ∈ marked m.verts isIn := by rw [he]; exact List.getElem_mem _
    obtain ⟨k, hk1, hk2⟩ := mem_marked.mp hm
    obtain ⟨hk, hkv⟩ := List.getElem?_eq_some_iff.mp hk1
    have hnd : m.verts.Nodup := hs.unique.verts.of_map
    have := (List.Nodup.getElem_inj_iff hnd).mp hkv
    subst this
    rw [List.getElem?_eq_getElem hj, hjv] at hk2
    exact absurd hk2 (by decide)
  obtain ⟨z, h1, h2⟩ := points_listed hs.unique.verts h3 hv (fun v hv => hsub.subset hv) hne hlt
  refine ⟨z, marked m.verts isIn, ?_, hsub, fun v => mem_marked, h2⟩
  unfold printInternal
  rw [internalList_ok hlen hv, ok_bind', printMesh_points hv, h1]
  rfl

/-- When no vertex is inside, all the vertices are shown as inside. -/
theorem C117_none_inside_violated (m : Mesh) (h3 : Solid m) (hv : m.verts ≠ []) (isIn : List Bool)
    (hlen : isIn.length = m.verts.length) (hnone : ∀ b ∈ isIn, b = false) :
    ∃ z, printInternal m isIn = .ok (some z) ∧ ShowsPoints m.verts z := by
  have he : marked m.verts isIn = [] := by
    rw [List.eq_nil_iff_forall_not_mem]
    intro v h
    obtain ⟨i, _, h2⟩ := mem_marked.mp h
    have := hnone true (List.mem_of_getElem? h2)
    cases this
  obtain ⟨z, h1, h2, _⟩ := points_all h3 hv
  refine ⟨z, ?_, h2⟩
  unfold printInternal
  rw [internalList_ok hlen hv, ok_bind', he, printMesh_points hv, List.map_nil, h1]
  rfl

/-- When all vertices are inside, the output is undefined. -/
theorem C117_all_inside_violated (m : Mesh) (hs : Sound m) (h3 : Solid m) (h2 : 2 ≤ m.verts.length) (isIn : List Bool)
    (hlen : isIn.length = m.verts.length) (hall : ∀ b ∈ isIn, b = true) : printInternal m isIn = .error .ub := by
  have hv : m.verts ≠ [] := fun h => by rw [h] at h2; simp at h2
  have he : marked m.verts isIn = m.verts := by
    unfold marked
    rw [List.filter_eq_self.mpr, List.map_fst_zip (by omega)]
    rintro ⟨v, b⟩ hp
    exact hall b (List.of_mem_zip hp).2
  unfold printInternal
  rw [internalList_ok hlen hv, ok_bind', he]
  exact C117_all_violated m hs h3 h2 _ (List.Perm.refl _)

/-! ### Examples -/

theorem round_of {m : Mesh} {es : List Int} (l : List Int)
    (h1 : ∀ k : Fin es.length, EdgeJoins m es[k] (walkOf l k) (walkOf l (k + 1)))
    (h2 : walkOf l es.length = walkOf l 0)
    (h3 : ∀ i j : Fin es.length, walkOf l i = walkOf l j → i = j) : GoesRound (EdgeJoins m) es (walkOf l) := by
  refine ⟨fun k e hk => ?_, h2, fun i j hi hj h => ?_⟩
  · obtain ⟨hlt, rfl⟩ := List.getElem?_eq_some_iff.mp hk
    exact h1 ⟨k, hlt⟩
  · exact congrArg Fin.val (h3 ⟨i, hi⟩ ⟨j, hj⟩ h)

theorem tetra_faced : Faced tetra := by
  intro s hs
  simp only [tetra, List.mem_cons, List.not_mem_nil, or_false] at hs
  rcases hs with rfl | rfl | rfl | rfl
  · exact ⟨by decide, ⟨_, round_of [2, 1, 3, 2] (by unfold EdgeJoins; decide +kernel) rfl (by decide +kernel)⟩, rfl⟩
  · exact ⟨by decide, ⟨_, round_of [2, 1, 4, 2] (by unfold EdgeJoins; decide +kernel) rfl (by decide +kernel)⟩, rfl⟩
  · exact ⟨by decide, ⟨_, round_of [3, 1, 4, 3] (by unfold EdgeJoins; decide +kernel) rfl (by decide +kernel)⟩, rfl⟩
  · exact ⟨by decide, ⟨_, round_of [3, 2, 4, 3] (by unfold EdgeJoins; decide +kernel) rfl (by decide +kernel)⟩, rfl⟩

theorem tetra_solid : Solid tetra := by unfold Solid; decide +kernel

example : ∃ z, printMesh tetra 0 [] = .ok (some z) ∧ ShowsVolumes tetra tetra.verts tetra.volus tetra.surfs z ∧ Readable z :=
  C116_volumes_partial tetra tetra_sound tetra_faced tetra_solid (by decide) (by decide) []

/-- What is printed: the counts, the nodes of the four faces, the volumes on the left and the right. -/
example : (printMesh tetra 0 []).map (fun z => z.map Zone.map) =
    .ok (some [[3, 3, 3, 3], [2, 1, 3], [2, 1, 4], [3, 1, 4], [3, 2, 4], [1, 1, 1, 1], [0, 0, 0, 0]]) := by decide +kernel

/-- Two squares side by side. -/
def flatPair : Mesh where
  verts := [⟨1, [1, 4], [0, 0, 0], false⟩, ⟨2, [1, 2, 5], [1, 0, 0], false⟩, ⟨3, [2, 3, 7], [1, 1, 0], false⟩,
            ⟨4, [3, 4], [0, 1, 0], false⟩, ⟨5, [5, 6], [2, 0, 0], false⟩, ⟨6, [6, 7], [2, 1, 0], false⟩]
  edges := [⟨1, [1, 2], [1, 0], false⟩, ⟨2, [2, 3], [1, 2], false⟩, ⟨3, [3, 4], [1, 0], false⟩, ⟨4, [4, 1], [1, 0], false⟩,
            ⟨5, [2, 5], [2, 0], false⟩, ⟨6, [5, 6], [2, 0], false⟩, ⟨7, [6, 3], [2, 0], false⟩]
  surfs := [{ index := 1, edgeind := [1, 2, 3, 4], voluind := [] }, { index := 2, edgeind := [2, 5, 6, 7], voluind := [] }]
  volus := []
  meshDim := 2

example : ∃ z, printMesh flatPair 0 [] = .ok (some z) ∧ ShowsSurfaces flatPair z ∧ Readable z :=
  C116_surfaces_partial flatPair (sound_of_checked (by decide +kernel)) (by unfold TwoVerts; decide +kernel)
    (by unfold Solid; decide +kernel) (by decide) rfl (by decide) (by decide) []

example : (printMesh flatPair 0 []).map (fun z => z.map Zone.map) =
    .ok (some [[1, 2], [2, 3], [3, 4], [4, 1], [2, 5], [5, 6], [6, 3], [1, 1, 1, 1, 2, 2, 2], [0, 2, 0, 0, 0, 0, 0]]) := by
  decide +kernel

example : ∃ z, printMesh tetra 3 [] = .ok (some z) ∧ ShowsEdges tetra z ∧ Readable z :=
  C116_lines tetra tetra_sound tetra_twoVerts tetra_solid (by decide) 3 (.inl rfl) []

/-- Two tetrahedra on the sides of one face. -/
def solidPair : Mesh where
  verts := [⟨1, [1, 2, 3], [0, 0, 0], false⟩, ⟨2, [1, 4, 5, 7], [1, 0, 0], false⟩,
            ⟨3, [2, 4, 6, 8], [0, 1, 0], false⟩, ⟨4, [3, 5, 6, 9], [0, 0, 1], false⟩, ⟨5, [7, 8, 9], [1, 1, 1], false⟩]
  edges := [⟨1, [1, 2], [1, 2], false⟩, ⟨2, [1, 3], [1, 3], false⟩, ⟨3, [1, 4], [2, 3], false⟩,
            ⟨4, [2, 3], [1, 4, 5], false⟩, ⟨5, [2, 4], [2, 4, 6], false⟩, ⟨6, [3, 4], [3, 4, 7], false⟩,
            ⟨7, [2, 5], [5, 6], false⟩, ⟨8, [3, 5], [5, 7], false⟩, ⟨9, [4, 5], [6, 7], false⟩]
  surfs := [{ index := 1, edgeind := [1, 2, 4], voluind := [1, 0] },
            { index := 2, edgeind := [1, 3, 5], voluind := [1, 0] },
            { index := 3, edgeind := [2, 3, 6], voluind := [1, 0] },
            { index := 4, edgeind := [4, 5, 6], voluind := [1, 2] },
            { index := 5, edgeind := [4, 7, 8], voluind := [2, 0] },
            { index := 6, edgeind := [5, 7, 9], voluind := [2, 0] },
            { index := 7, edgeind := [6, 8, 9], voluind := [2, 0] }]
  volus := [{ index := 1, surfind := [1, 2, 3, 4] }, { index := 2, surfind := [4, 5, 6, 7], fill := 0 }]
  meshDim := 3

theorem solidPair_faced : Faced solidPair := by
  intro s hs
  simp only [solidPair, List.mem_cons, List.not_mem_nil, or_false] at hs
  rcases hs with rfl | rfl | rfl | rfl | rfl | rfl | rfl
  · exact ⟨by decide, ⟨_, round_of [2, 1, 3, 2] (by unfold EdgeJoins; decide +kernel) rfl (by decide +kernel)⟩, rfl⟩
  · exact ⟨by decide, ⟨_, round_of [2, 1, 4, 2] (by unfold EdgeJoins; decide +kernel) rfl (by decide +kernel)⟩, rfl⟩
  · exact ⟨by decide, ⟨_, round_of [3, 1, 4, 3] (by unfold EdgeJoins; decide +kernel) rfl (by decide +kernel)⟩, rfl⟩
  · exact ⟨by decide, ⟨_, round_of [3, 2, 4, 3] (by unfold EdgeJoins; decide +kernel) rfl (by decide +kernel)⟩, rfl⟩
  · exact ⟨by decide, ⟨_, round_of [3, 2, 5, 3] (by unfold EdgeJoins; decide +kernel) rfl (by decide +kernel)⟩, rfl⟩
  · exact ⟨by decide, ⟨_, round_of [4, 2, 5, 4] (by unfold EdgeJoins; decide +kernel) rfl (by decide +kernel)⟩, rfl⟩
  · exact ⟨by decide, ⟨_, round_of [4, 3, 5, 4] (by unfold EdgeJoins; decide +kernel) rfl (by decide +kernel)⟩, rfl⟩

example : ∃ z V C F, printMesh solidPair 5 [2] = .ok (some z) ∧ C.map Volu.index = [2] ∧ (∀ c ∈ C, c ∈ solidPair.volus) ∧
    FacesOf solidPair C F ∧ CornersOf solidPair F V ∧ ShowsVolumes solidPair V C F z ∧ Readable z :=
  C116_some_volumes_partial solidPair (sound_of_checked (by decide +kernel)) solidPair_faced
    (by unfold Solid; decide +kernel) (by decide) [2] (by decide) (by unfold HasVolu; decide +kernel)

/-- The second volume alone: its vertices 2 to 5 are the nodes 1 to 4; volume 1 is outside. -/
example : (printMesh solidPair 5 [2]).map (fun z => z.map Zone.map) =
    .ok (some [[3, 3, 3, 3], [2, 1, 3], [2, 1, 4], [3, 1, 4], [3, 2, 4], [0, 1, 1, 1], [1, 0, 0, 0]]) := by decide +kernel

example : ∃ z V, printMesh tetra 4 [3, 1] = .ok (some z) ∧ V.map Vert.index = [3, 1] ∧ (∀ v ∈ V, v ∈ tetra.verts) ∧
    ShowsPoints V z ∧ Readable z :=
  C117_listed_partial tetra tetra_sound tetra_solid (by decide) [3, 1] (by decide) (by unfold HasVert; decide +kernel) (by decide)

example : printMesh tetra 4 [1, 2, 3, 4] = .error .ub :=
  C117_all_violated tetra tetra_sound tetra_solid (by decide) _ (List.Perm.refl _)

example : printMesh tetra 4 [0, 1, 0, 1] = .error .throws :=
  C117_marks_violated tetra tetra_sound tetra_solid _ rfl (by decide) rfl (by decide)

example : ∃ z V, printInternal tetra [true, false, false, true] = .ok (some z) ∧ V.Sublist tetra.verts ∧
    (∀ v, v ∈ V ↔ ∃ i : Nat, tetra.verts[i]? = some v ∧ [true, false, false, true][i]? = some true) ∧
    ShowsPoints V z ∧ Readable z :=
  C117_inside_partial tetra tetra_sound tetra_solid _ rfl (by decide) (by decide)

example : (∃ z, printInternal tetra [false, false, false, false] = .ok (some z) ∧ ShowsPoints tetra.verts z) ∧
    printInternal tetra [true, true, true, true] = .error .ub :=
  ⟨C117_none_inside_violated tetra tetra_solid (by decide) _ rfl (by decide),
    C117_all_inside_violated tetra tetra_sound tetra_solid (by decide) _ rfl (by decide)⟩

end RSVS.Props
