import Verif.Lemmas.MeshShift
import Verif.Lemmas.MeshSwitch
import Verif.Lemmas.MeshTest
import Verif.Lemmas.MeshOrder
import Verif.Lemmas.MeshCrop
import Verif.Lemmas.MeshCheck

/-!
# Properties of mesh connectivity: C10 to C17 and C19
-/

namespace RSVS.Props

open RSVS.Spec RSVS.Mesh

/-! ### Meshes used in the examples -/

/-- A tetrahedron: one volume, everything around is the outside. -/
def tetra : Mesh where
  verts := [⟨1, [1, 2, 3], [0, 0, 0], false⟩, ⟨2, [1, 4, 5], [1, 0, 0], false⟩,
            ⟨3, [2, 4, 6], [0, 1, 0], false⟩, ⟨4, [3, 5, 6], [0, 0, 1], false⟩]
  edges := [⟨1, [1, 2], [1, 2], false⟩, ⟨2, [1, 3], [1, 3], false⟩, ⟨3, [1, 4], [2, 3], false⟩,
            ⟨4, [2, 3], [1, 4], false⟩, ⟨5, [2, 4], [2, 4], false⟩, ⟨6, [3, 4], [3, 4], false⟩]
  surfs := [{ index := 1, edgeind := [1, 2, 4], voluind := [1, 0] },
            { index := 2, edgeind := [1, 3, 5], voluind := [1, 0] },
            { index := 3, edgeind := [2, 3, 6], voluind := [1, 0] },
            { index := 4, edgeind := [4, 5, 6], voluind := [1, 0] }]
  volus := [{ index := 1, surfind := [1, 2, 3, 4] }]
  meshDim := 3

theorem tetra_sound : Sound tetra := sound_of_checked (by decide +kernel)

/-- An edge from vertex 1 to vertex 2, and an edge between vertices 3 and 4. -/
def twoEdges : Mesh where
  verts := [⟨1, [1], [0, 0, 0], false⟩, ⟨2, [1], [1, 0, 0], false⟩,
            ⟨3, [2], [2, 0, 0], false⟩, ⟨4, [2], [3, 0, 0], false⟩]
  edges := [⟨1, [1, 2], [0, 0], false⟩, ⟨2, [3, 4], [0, 0], false⟩]
  surfs := []
  volus := []
  meshDim := 1

theorem twoEdges_sound : Sound twoEdges := sound_of_checked (by decide +kernel)

/-! ### C10 -/

/-- C10: with non-negative offsets, shifting the indices keeps every incidence relation and
the marker 0, and keeps indices unique. -/
theorem C10_change_indices (m : Mesh) (nV nE nS nC : Int) (hS : 0 ≤ nS) (hC : 0 ≤ nC) :
    Shifted nV nE nS nC m (m.changeIndices nV nE nS nC) ∧
    (UniqueIndices m → UniqueIndices (m.changeIndices nV nE nS nC)) :=
  ⟨changeIndices_shifted hS hC, changeIndices_unique⟩

example : Shifted 10 20 30 40 tetra (tetra.changeIndices 10 20 30 40) ∧
    EdgeSurf (tetra.changeIndices 10 20 30 40) 21 31 ∧
    SurfVolu (tetra.changeIndices 10 20 30 40) 31 0 := by
  have h := (C10_change_indices tetra 10 20 30 40 (by omega) (by omega)).1
  refine ⟨h, ?_, ?_⟩
  · have := (h.edgeSurf 1 1 (by omega)).mpr ⟨_, List.mem_cons_self, rfl, by simp⟩
    simpa using this
  · have := (h.surfVolu0 1).mpr ⟨_, List.mem_cons_self, rfl, by simp⟩
    simpa using this

/-! ### C11 -/

/-- C11, where 0 is not listed as an edge of a vertex, as a vertex of an edge or as an edge of
a surface of the second mesh: the result is the disjoint union, indices are unique, nothing
refers across, nothing dangles.  Missing: meshes with such zeros, see `C11_zero_reference_violated`. -/
theorem C11_concatenate_partial (a b : Mesh) (ua : UniqueIndices a) (ub : UniqueIndices b)
    (pb : PosIndices b) (da : NoDangling a) (db : NoDangling b) (zb : ZeroOutside b) :
    let r := a.concatenate (a.makeCompatible b)
    (∃ nV nE nS nC, DisjointUnion nV nE nS nC a b r) ∧ UniqueIndices r ∧ NoCross a r ∧
      NoDangling r := by
  intro r
  have hd := concat_disjoint (a := a) pb (nonNegRefs_of_noDangling db pb)
  exact ⟨⟨_, _, _, _, hd⟩, concat_unique ua ub pb, union_noCross hd da db zb,
    union_noDangling hd da db zb⟩

/-- C11: the union of sound meshes is sound. -/
theorem C11_concatenate_sound (a b : Mesh) (ha : Sound a) (hb : Sound b) :
    Sound (a.concatenate (a.makeCompatible b)) :=
  union_sound (concat_disjoint hb.pos (nonNegRefs_of_noDangling hb.noDangling hb.pos))
    ⟨(maxIdx_spec _ _).1, (maxIdx_spec _ _).1, (maxIdx_spec _ _).1, (maxIdx_spec _ _).1⟩
    (concat_unique ha.unique hb.unique hb.pos) ha hb

example : Sound (tetra.concatenate (tetra.makeCompatible tetra)) ∧
    NoCross tetra (tetra.concatenate (tetra.makeCompatible tetra)) :=
  ⟨C11_concatenate_sound _ _ tetra_sound tetra_sound,
   (C11_concatenate_partial tetra tetra tetra_sound.unique tetra_sound.unique tetra_sound.pos
     tetra_sound.noDangling tetra_sound.noDangling tetra_sound.zeroOutside).2.2.1⟩

/-- C11 is violated by a 0 in a list without guard: a vertex of the second mesh which lists the
edge 0 ('none') refers to an edge of the first mesh afterwards. -/
theorem C11_zero_reference_violated :
    ∃ a b : Mesh, UniqueIndices a ∧ UniqueIndices b ∧ PosIndices a ∧ PosIndices b ∧
      NoDangling a ∧ NoDangling b ∧ ¬ NoCross a (a.concatenate (a.makeCompatible b)) := by
  let b : Mesh := { verts := [⟨1, [0], [0, 0, 0], false⟩], edges := [], surfs := [], volus := [] }
  refine ⟨twoEdges, b, twoEdges_sound.unique, ⟨by decide, by decide, by decide, by decide⟩,
    twoEdges_sound.pos, ⟨?_, ?_, ?_, ?_⟩, twoEdges_sound.noDangling, ⟨?_, ?_, ?_, ?_, ?_, ?_⟩, ?_⟩
  · rintro i ⟨x, hx, rfl⟩
    simp only [b, List.mem_singleton] at hx
    subst hx; decide
  · rintro i ⟨x, hx, rfl⟩; simp [b] at hx
  · rintro i ⟨x, hx, rfl⟩; simp [b] at hx
  · rintro i ⟨x, hx, rfl⟩; simp [b] at hx
  · rintro v e ⟨x, hx, rfl, he⟩ h0
    simp only [b, List.mem_singleton] at hx
    subst hx
    simp only [List.mem_singleton] at he
    exact absurd he h0
  · rintro v e ⟨x, hx, rfl, he⟩ h0; simp [b] at hx
  · rintro v e ⟨x, hx, rfl, he⟩ h0; simp [b] at hx
  · rintro v e ⟨x, hx, rfl, he⟩; simp [b] at hx
  · rintro v e ⟨x, hx, rfl, he⟩ h0; simp [b] at hx
  · rintro v e ⟨x, hx, rfl, he⟩ h0; simp [b] at hx
  · intro h
    have h1 : VertEdge (twoEdges.concatenate (twoEdges.makeCompatible b)) 5 2 :=
      ⟨⟨5, [2], [0, 0, 0], false⟩, by decide +kernel, rfl, by simp⟩
    have h2 := (h.vertEdge 5 2 h1 (by omega)).mpr ⟨⟨2, [3, 4], [0, 0], false⟩, by decide +kernel, rfl⟩
    obtain ⟨x, hx, hi⟩ := h2
    revert hi
    revert x
    decide +kernel

/-! ### C12 -/

/-- C12, when no edge joins the old vertex to itself and the old vertex lists no edge twice:
the new vertex takes the place of the old one everywhere, and incidence stays symmetric.
Missing: the other meshes, for which it is false. -/
theorem C12_merge_vertex_partial (m : Mesh) (hm : Sound m) (h2 : TwoVerts m) (old new : Int)
    (hne : old ≠ new) (hnew : HasVert m new) (ov : Vert) (hov : ov ∈ m.verts)
    (hi : ov.index = old) (hnd : ov.edgeind.Nodup)
    (hloop : ∀ e ∈ m.edges, e.vertind ≠ [old, old]) :
    ∃ m', m.switchVert old new = .ok m' ∧ VertMerged m m' old new ∧ Sound m' ∧
      (∀ e, ¬ EdgeVert m' e old) := by
  obtain ⟨m', h1, h3, h4, _⟩ := switchVert_merged hm h2 hne hnew hov hi hnd hloop
  refine ⟨m', h1, h3, sound_of_vertMerged hm h4 hnew ⟨ov, hov, hi⟩ h3, ?_⟩
  intro e he
  rcases (h3.edgeVert e old).mp he with h | h
  · exact h.2 rfl
  · exact hne h.1

example : ∃ m', tetra.switchVert 1 2 = .ok m' ∧ VertMerged tetra m' 1 2 ∧ Sound m' ∧
    (∀ e, ¬ EdgeVert m' e 1) :=
  C12_merge_vertex_partial tetra tetra_sound (by unfold TwoVerts; decide +kernel) 1 2 (by omega)
    ⟨_, List.mem_cons_of_mem _ List.mem_cons_self, rfl⟩ _ List.mem_cons_self rfl (by decide)
    (by decide +kernel)

/-- C12 is violated by an edge from the old vertex to itself: only one of its ends is changed. -/
theorem C12_loop_violated :
    ∃ (m : Mesh) (old new : Int) (m' : Mesh), Sound m ∧ TwoVerts m ∧ old ≠ new ∧
      HasVert m old ∧ HasVert m new ∧ m.switchVert old new = .ok m' ∧
      (∃ e, EdgeVert m' e old) ∧ ¬ Symmetric m' := by
  refine ⟨{ verts := [⟨1, [1], [0, 0, 0], false⟩, ⟨2, [], [0, 0, 0], false⟩],
            edges := [⟨1, [1, 1], [0, 0], false⟩], surfs := [], volus := [] }, 1, 2,
          { verts := [⟨1, [], [0, 0, 0], false⟩, ⟨2, [1], [0, 0, 0], false⟩],
            edges := [⟨1, [1, 2], [0, 0], false⟩], surfs := [], volus := [] },
    sound_of_checked (by decide +kernel), by unfold TwoVerts; decide +kernel, by omega,
    ⟨_, List.mem_cons_self, rfl⟩, ⟨_, List.mem_cons_of_mem _ List.mem_cons_self, rfl⟩,
    by decide +kernel, ⟨1, _, List.mem_cons_self, rfl, by simp⟩, ?_⟩
  intro h
  have := (h.vertEdge 1 1 ⟨_, List.mem_cons_self, rfl⟩ ⟨_, List.mem_cons_self, rfl⟩).mpr
    ⟨_, List.mem_cons_self, rfl, by simp⟩
  obtain ⟨x, hx, hi, he⟩ := this
  revert hi he
  revert x
  decide +kernel

/-- The same through two merges on a mesh without such an edge: 1 into 2 makes the edge
between them a loop, then 2 into 3 leaves a reference to 2. -/
theorem C12_chain_violated :
    ∃ m1 m2 : Mesh, twoEdges.switchVert 1 2 = .ok m1 ∧ Sound m1 ∧ m1.switchVert 2 3 = .ok m2 ∧
      EdgeVert m2 1 2 := by
  refine ⟨{ twoEdges with
            verts := [⟨1, [], [0, 0, 0], false⟩, ⟨2, [1], [1, 0, 0], false⟩,
                      ⟨3, [2], [2, 0, 0], false⟩, ⟨4, [2], [3, 0, 0], false⟩]
            edges := [⟨1, [2, 2], [0, 0], false⟩, ⟨2, [3, 4], [0, 0], false⟩] },
          { twoEdges with
            verts := [⟨1, [], [0, 0, 0], false⟩, ⟨2, [], [1, 0, 0], false⟩,
                      ⟨3, [1, 2], [2, 0, 0], false⟩, ⟨4, [2], [3, 0, 0], false⟩]
            edges := [⟨1, [2, 3], [0, 0], false⟩, ⟨2, [3, 4], [0, 0], false⟩] },
    by decide +kernel, sound_of_checked (by decide +kernel), by decide +kernel, ?_⟩
  exact ⟨_, List.mem_cons_self, rfl, by simp⟩

/-! ### C13 -/

/-- C13 for an edge. -/
theorem C13_detach_edge (m : Mesh) (hm : Sound m) (i : Int) (hi : HasEdge m i) :
    ∃ m', m.removeIndex 2 i = .ok m' ∧ EdgeDetached m m' i ∧ Sound m' := by
  have hd := edgeOff_detached m i
  exact ⟨_, removeEdge_eq hm hi, hd, sound_of_edgeDetached hm (edgeOff_unique hm.unique i) hd⟩

/-- C13 for a surface. -/
theorem C13_detach_surf (m : Mesh) (hm : Sound m) (i : Int) (hi : HasSurf m i) :
    ∃ m', m.removeIndex 3 i = .ok m' ∧ SurfDetached m m' i ∧ Sound m' := by
  have hd := surfOff_detached m i
  exact ⟨_, removeSurf_eq hm hi, hd, sound_of_surfDetached hm (surfOff_unique hm.unique i) hd⟩

/-- C13 for a volume. -/
theorem C13_detach_volu (m : Mesh) (hm : Sound m) (i : Int) (hi : HasVolu m i) :
    ∃ m', m.removeIndex 4 i = .ok m' ∧ VoluDetached m m' i ∧ Sound m' := by
  have hd := voluOff_detached hm.unique (ne_of_gt (hm.pos.volus i hi))
  exact ⟨_, removeVolu_eq hm hi, hd, sound_of_voluDetached hm (voluOff_unique hm.unique i) hd⟩

example : (∃ m', tetra.removeIndex 2 4 = .ok m' ∧ EdgeDetached tetra m' 4 ∧ Sound m') ∧
    (∃ m', tetra.removeIndex 3 2 = .ok m' ∧ SurfDetached tetra m' 2 ∧ Sound m') ∧
    (∃ m', tetra.removeIndex 4 1 = .ok m' ∧ VoluDetached tetra m' 1 ∧ Sound m') :=
  ⟨C13_detach_edge _ tetra_sound 4 ⟨_, by simp [tetra]; exact Or.inr (Or.inr (Or.inr (Or.inl rfl))), rfl⟩,
   C13_detach_surf _ tetra_sound 2 ⟨_, List.mem_cons_of_mem _ List.mem_cons_self, rfl⟩,
   C13_detach_volu _ tetra_sound 1 ⟨_, List.mem_cons_self, rfl⟩⟩

/-! ### C14 -/

/-- C14: the test gives 0 exactly when nothing dangles and no vertex or surface is without
edges. -/
theorem C14_test_connectivity (m : Mesh) :
    m.testConnectivity = 0 ↔ NoDangling m ∧ NoLoose m :=
  testConnectivity_zero m

example : tetra.testConnectivity = 0 ∧ NoDangling tetra ∧
    ({ tetra with edges := tetra.edges.tail } : Mesh).testConnectivity = 4 := by
  refine ⟨by decide +kernel, ?_, by decide +kernel⟩
  exact ((C14_test_connectivity tetra).mp (by decide +kernel)).1

/-! ### C15 -/

/-- C15, as far as it holds: the number returned tells dangling references, and the second
total, which is only printed, tells one-way references.  Missing: the second total is not part of
the number returned (`C15_one_way_violated`), and the messages can throw
(`C15_throws_violated`). -/
theorem C15_two_way_test_partial (m : Mesh) (emptyIsErr : Bool) (hu : UniqueIndices m)
    (c : Nat × Nat) (h : m.biDirCounts emptyIsErr = .ok c) :
    m.testConnectivityBiDir emptyIsErr = .ok c.1 ∧
    (c.1 = 0 ↔ NoDangling m ∧ Complete m emptyIsErr) ∧ (c.2 = 0 ↔ NoOneWay m) := by
  refine ⟨?_, biDirCounts_spec hu h⟩
  unfold testConnectivityBiDir
  rw [h]
  rfl

/-- C15 for meshes without one-way references: the test does not throw, and what it returns is 0
exactly if there is no dangling reference and no element short of neighbours. -/
theorem C15_no_one_way_partial (m : Mesh) (emptyIsErr : Bool) (hu : UniqueIndices m)
    (ho : NoOneWay m) : ∃ n, m.testConnectivityBiDir emptyIsErr = .ok n ∧
      (n = 0 ↔ NoDangling m ∧ Complete m emptyIsErr) := by
  obtain ⟨c, hc⟩ := biDirCounts_total emptyIsErr hu ho
  have h := C15_two_way_test_partial m emptyIsErr hu c hc
  exact ⟨_, h.1, h.2.1⟩

example : UniqueIndices tetra ∧ NoOneWay tetra :=
  ⟨tetra_sound.unique, Sound.noOneWay tetra_sound⟩

/-- Edge 1 lists vertex 2, vertex 2 does not list edge 1. -/
def oneWay : Mesh :=
  { twoEdges with verts := [⟨1, [1], [0, 0, 0], false⟩, ⟨2, [2], [1, 0, 0], false⟩,
                            ⟨3, [2], [2, 0, 0], false⟩, ⟨4, [2], [3, 0, 0], false⟩] }

example : UniqueIndices oneWay ∧ oneWay.biDirCounts true = .ok (0, 2) :=
  ⟨⟨by decide, by decide, by decide, by decide⟩, by decide +kernel⟩

/-- C15 is violated: a mesh with one-way references for which 0 is returned. -/
theorem C15_one_way_violated :
    ∃ m : Mesh, UniqueIndices m ∧ NoDangling m ∧ ¬ NoOneWay m ∧
      m.testConnectivityBiDir true = .ok 0 := by
  have hu : UniqueIndices oneWay := ⟨by decide, by decide, by decide, by decide⟩
  have h := C15_two_way_test_partial oneWay true hu (0, 2) (by decide +kernel)
  refine ⟨oneWay, hu, (h.2.1.mp rfl).1, ?_, h.1⟩
  intro hn
  have := h.2.2.mpr hn
  exact absurd this (by decide)

/-- C15 is violated in another way: the message about a one-way reference looks up the
neighbour by the place in the list instead of its position, and throws when the list is longer
than the container. -/
theorem C15_throws_violated :
    ∃ m : Mesh, UniqueIndices m ∧ NoDangling m ∧ ¬ NoOneWay m ∧
      m.testConnectivityBiDir true = .error .throws := by
  let m : Mesh := { verts := [⟨1, [1, 1], [0, 0, 0], false⟩, ⟨2, [], [0, 0, 0], false⟩],
                    edges := [⟨1, [2, 2], [0, 0], false⟩], surfs := [], volus := [] }
  refine ⟨m, ⟨by decide, by decide, by decide, by decide⟩, ⟨?_, ?_, ?_, ?_, ?_, ?_⟩, ?_,
    by decide +kernel⟩
  · rintro v e ⟨x, hx, rfl, he⟩ h0
    refine ⟨⟨1, [2, 2], [0, 0], false⟩, List.mem_cons_self, ?_⟩
    revert he
    revert hx
    revert x
    intro x hx he
    simp only [m, List.mem_cons, List.not_mem_nil, or_false] at hx
    rcases hx with rfl | rfl
    · simp at he; exact he.symm
    · simp at he
  · rintro v e ⟨x, hx, rfl, he⟩ h0
    refine ⟨⟨2, [], [0, 0, 0], false⟩, List.mem_cons_of_mem _ List.mem_cons_self, ?_⟩
    simp only [m, List.mem_cons, List.not_mem_nil, or_false] at hx
    subst hx
    simp at he; exact he.symm
  · rintro v e ⟨x, hx, rfl, he⟩ h0
    simp only [m, List.mem_cons, List.not_mem_nil, or_false] at hx
    subst hx
    simp at he; exact absurd he h0
  · rintro v e ⟨x, hx, rfl, he⟩; simp [m] at hx
  · rintro v e ⟨x, hx, rfl, he⟩; simp [m] at hx
  · rintro v e ⟨x, hx, rfl, he⟩; simp [m] at hx
  · intro h
    have := h.vertEdge 1 1 ⟨_, List.mem_cons_self, rfl, by simp⟩ (by omega)
      ⟨_, List.mem_cons_self, rfl⟩
    obtain ⟨x, hx, hi, he⟩ := this
    simp only [m, List.mem_cons, List.not_mem_nil, or_false] at hx
    subst hx
    simp at he

/-! ### C16 -/

/-- C16 for the body of `Crop`, before degenerate elements are removed, when one of the
elements cropped is next to the outside: what is cropped is gone, nothing new appears, the
volumes left are those not reached from the list, and the mesh stays sound.  Missing: the other crop lists, for which it is false, and the removal of
degenerate elements that follows. -/
theorem C16_crop_partial (m m' : Mesh) (hm : Sound m) (l : List Int) (t : Nat)
    (ht : 1 ≤ t ∧ t ≤ 4) (hl : t = 4 → ∀ x ∈ l, 0 ≤ x) (hto : Reached m l t 0)
    (h : m.cropCore l t = .ok m') :
    Sound m' ∧ (∀ i ∈ l, i ≠ 0 → ¬ HasElem m' i t) ∧
    (∀ i, HasVert m' i → HasVert m i) ∧ (∀ i, HasEdge m' i → HasEdge m i) ∧
    (∀ i, HasSurf m' i → HasSurf m i) ∧
    (∀ i, HasVolu m' i ↔ HasVolu m i ∧ ¬ Reached m l t i) :=
  cropCore_sound hm ht hl hto h

example : ∃ m', tetra.cropCore [1, 0] 4 = .ok m' ∧ Reached tetra [1, 0] 4 0 ∧
    m'.surfs.length = 4 ∧ m'.volus.length = 0 ∧ Sound m' := by
  have hto : Reached tetra [1, 0] 4 0 := by show (0 : Int) ∈ [1, 0]; simp
  cases h : tetra.cropCore [1, 0] 4 with
  | error e =>
    have : (tetra.cropCore [1, 0] 4).toOption.isSome = true := by decide +kernel
    rw [h] at this
    exact absurd this (by simp [Except.toOption])
  | ok m' =>
    have := C16_crop_partial tetra m' tetra_sound [1, 0] 4 (by omega) (by decide) hto h
    refine ⟨m', rfl, hto, ?_, ?_, this.1⟩
    · have : (tetra.cropCore [1, 0] 4).toOption.map (fun m => m.surfs.length) = some 4 := by
        decide +kernel
      rw [h] at this
      simpa [Except.toOption] using this
    · have : (tetra.cropCore [1, 0] 4).toOption.map (fun m => m.volus.length) = some 0 := by
        decide +kernel
      rw [h] at this
      simpa [Except.toOption] using this

/-- C16 is violated: cropping the volume of a tetrahedron leaves surfaces which refer to it.
The counter of the volumes to detach is decreased although no 0 was taken out of the list. -/
theorem C16_crop_violated :
    ∃ m', Sound tetra ∧ tetra.crop [1] 4 = .ok m' ∧ SurfVolu m' 1 1 ∧ ¬ HasVolu m' 1 := by
  refine ⟨{ tetra with volus := [] }, tetra_sound, by decide +kernel, ?_, ?_⟩
  · exact ⟨_, List.mem_cons_self, rfl, by simp⟩
  · rintro ⟨x, hx, _⟩; simp at hx

/-! ### C17 -/

/-- C17: `ReOrder` is a renaming, whatever the order used for sorting. -/
theorem C17_reorder (m m' : Mesh) (hu : UniqueIndices m) (hp : PosIndices m)
    (h : m.ReOrders m') : ∃ fv fe fs fc, Renamed m m' fv fe fs fc := by
  obtain ⟨verts, edges, surfs, volus, hv, he, hs, hc⟩ := h
  exact ⟨_, _, _, _, renumber_renamed hu hp hv he hs hc m.meshDim⟩

/-- C17 in terms of incidence: for a mesh without dangling references the incidences of the
result are those of the input under the renaming. -/
theorem C17_reorder_incidence (m m' : Mesh) (hm : Sound m) (h : m.ReOrders m') :
    ∃ fv fe fs fc, Renamed m m' fv fe fs fc ∧
      (∀ v e, HasVert m v → HasEdge m e → (VertEdge m' (fv v) (fe e) ↔ VertEdge m v e)) ∧
      (∀ s c, HasSurf m s → (HasVolu m c ∨ c = 0) → (SurfVolu m' (fs s) (fc c) ↔ SurfVolu m s c)) := by
  obtain ⟨fv, fe, fs, fc, hr⟩ := C17_reorder m m' hm.unique hm.pos h
  refine ⟨fv, fe, fs, fc, hr, ?_, ?_⟩
  · rintro v e ⟨x, hx, rfl⟩ he
    have hx' := hr.verts x hx
    have hn : (m'.verts.map Vert.index).Nodup := by
      rw [hr.orderVerts]
      exact List.nodup_range.map (fun a b h => by simpa using h)
    constructor
    · rintro ⟨y, hy, hi, hye⟩
      rw [inj_of_nodup hn hy hx' hi] at hye
      obtain ⟨e', he', hf⟩ := List.mem_map.mp hye
      have h0 : e' ≠ 0 := by
        rintro rfl; exact hm.zeroOutside.vertEdge _ ⟨x, hx, rfl, he'⟩
      have := hr.numEdges.inj e' e (hm.noDangling.vertEdge _ _ ⟨x, hx, rfl, he'⟩ h0) he hf
      subst this
      exact ⟨x, hx, rfl, he'⟩
    · rintro ⟨y, hy, hi, hye⟩
      rw [inj_of_nodup hm.unique.verts hy hx hi] at hye
      exact ⟨_, hx', rfl, List.mem_map.mpr ⟨e, hye, rfl⟩⟩
  · rintro s c ⟨x, hx, rfl⟩ hc
    have hx' := hr.surfs x hx
    have hn : (m'.surfs.map Surf.index).Nodup := by
      rw [hr.orderSurfs]
      exact List.nodup_range.map (fun a b h => by simpa using h)
    constructor
    · rintro ⟨y, hy, hi, hye⟩
      rw [inj_of_nodup hn hy hx' hi] at hye
      obtain ⟨e', he', hf⟩ := List.mem_map.mp hye
      have : e' = c := by
        by_cases h0 : e' = 0
        · subst h0
          rcases hc with hc | hc
          · rw [hr.numVolus.zero] at hf
            have := (hr.numVolus.range c hc).1
            omega
          · exact hc.symm
        · have h1 := hm.noDangling.surfVolu _ _ ⟨x, hx, rfl, he'⟩ h0
          rcases hc with hc | hc
          · exact hr.numVolus.inj e' c h1 hc hf
          · rw [hc, hr.numVolus.zero] at hf
            have := (hr.numVolus.range e' h1).1
            omega
      subst this
      exact ⟨x, hx, rfl, he'⟩
    · rintro ⟨y, hy, hi, hye⟩
      rw [inj_of_nodup hm.unique.surfs hy hx hi] at hye
      exact ⟨_, hx', rfl, List.mem_map.mpr ⟨c, hye, rfl⟩⟩

example : ∃ m', tetra.ReOrders m' ∧ m'.verts.map Vert.edgeind = [[3, 5, 6], [2, 4, 6], [1, 4, 5], [1, 2, 3]] ∧
    ∃ fv fe fs fc, Renamed tetra m' fv fe fs fc :=
  ⟨_, ⟨tetra.verts.reverse, tetra.edges, tetra.surfs, tetra.volus, List.reverse_perm _,
    List.Perm.refl _, List.Perm.refl _, List.Perm.refl _⟩, by decide +kernel,
   C17_reorder tetra _ tetra_sound.unique tetra_sound.pos
    ⟨tetra.verts.reverse, tetra.edges, tetra.surfs, tetra.volus, List.reverse_perm _,
    List.Perm.refl _, List.Perm.refl _, List.Perm.refl _⟩⟩

/-! ### C19 -/

/-- C19: when no edge has more than two vertices, tightening succeeds, makes every list
strictly increasing with the same members, and doing it twice is the same as once. -/
theorem C19_tighten (m : Mesh) (h : ∀ e ∈ m.edges, e.vertind.length ≤ 2) :
    ∃ m', m.tighten = .ok m' ∧ Tightened m m' ∧ m'.tighten = .ok m' := by
  have hT : ∀ l, TightList l (sortUnique l) := fun l => ⟨sortUnique_strict l, fun x => mem_sortUnique⟩
  have hid : ∀ l, sortUnique (sortUnique l) = sortUnique l :=
    fun l => sortUnique_of_strict (sortUnique_strict l)
  have heq : ∀ m : Mesh, (∀ e ∈ m.edges, e.vertind.length ≤ 2) → m.tighten = .ok
      { m with verts := m.verts.map tightenVert,
               edges := m.edges.map (fun e => { e with surfind := sortUnique e.surfind }),
               surfs := m.surfs.map tightenSurf, volus := m.volus.map tightenVolu } := by
    intro m h
    unfold tighten
    rw [mapM_tightenEdge _ h]
    rfl
  refine ⟨_, heq m h, ⟨?_, ?_, ?_, ?_, rfl⟩, ?_⟩
  · simp only [List.forall₂_map_right_iff]
    exact List.forall₂_same.mpr (fun x _ => ⟨rfl, hT _⟩)
  · simp only [List.forall₂_map_right_iff]
    exact List.forall₂_same.mpr (fun x _ => ⟨rfl, hT _⟩)
  · simp only [List.forall₂_map_right_iff]
    exact List.forall₂_same.mpr (fun x _ => ⟨rfl, hT _, hT _⟩)
  · simp only [List.forall₂_map_right_iff]
    exact List.forall₂_same.mpr (fun x _ => ⟨rfl, hT _⟩)
  · rw [heq _ (by
      intro e he
      obtain ⟨x, hx, rfl⟩ := List.mem_map.mp he
      exact h x hx)]
    simp [Function.comp_def, tightenVert, tightenSurf, tightenVolu, hid]

/-- An edge with more than two vertices is reported by an exception. -/
theorem C19_tighten_throws (m : Mesh) (h : ∃ e ∈ m.edges, 2 < e.vertind.length) :
    m.tighten = .error .throws := by
  unfold tighten
  rw [mapM_tightenEdge_throws _ h]
  rfl

example : (∀ e ∈ tetra.edges, e.vertind.length ≤ 2) ∧
    ∃ e ∈ ({ tetra with edges := [⟨1, [1, 2, 3], [], false⟩] } : Mesh).edges, 2 < e.vertind.length :=
  ⟨by decide +kernel, _, List.mem_cons_self, by decide⟩

end RSVS.Props
