import Verif.Lemmas.Singular
import Verif.Props.Mesh

/-!
# C135: the removal of degenerate edges, surfaces and volumes, and C16 with it
-/

namespace RSVS.Props

open RSVS RSVS.Spec RSVS.Mesh RSVS.EndPass RSVS.Switch RSVS.Singular

/-- **C135**, for meshes where no edge lists surface 0, or without volumes: after the removal of the vertices given, `RemoveSingularConnectors`
leaves a sound mesh of which no edge joins a vertex to itself, no surface has fewer than three entries and no volume fewer than four; what was joined is
joined, each surface which is not degenerate has one with the same outline, and the volumes kept are those with four such surfaces, and have these.  It throws exactly if it is asked to report volumes with
three such surfaces and there is one.  Missing: the entries of the lists need not be different (`C135_repeated_violated`, `C135_faces_violated`), and the other meshes
(`C135_outside_violated`). -/
theorem C135_degenerate_partial (m m0 : Mesh) (rmv : List Int) (voidError : Bool) (h0 : m0 = { m with verts := removeIdx Vert.index m.verts rmv })
    (hm : Sound m0) (two : ∀ e ∈ m0.edges, ∃ a b, e.vertind = [a, b]) (zero : ∀ e, EdgeSurf m0 e 0 → m0.volus = []) :
    (m.removeSingular rmv voidError = .error .throws ↔ voidError = true ∧ ∃ c ∈ m0.volus, (surfsLeft m0 c).length = 3) ∧
    (¬ (voidError = true ∧ ∃ c ∈ m0.volus, (surfsLeft m0 c).length = 3) → ∃ r, m.removeSingular rmv voidError = .ok r ∧ Sound r ∧ Reduced m0 r) := by
  rcases removeSingular_ok (ve := voidError) h0 hm two zero with ⟨h, h'⟩ | ⟨h, r, h'⟩
  · exact ⟨⟨fun _ => h, fun _ => h'⟩, fun hn => absurd h hn⟩
  · refine ⟨⟨fun he => ?_, fun hn => absurd hn h⟩, fun _ => ⟨r, h'⟩⟩
    rw [h'.1] at he
    cases he

/-- A tetrahedron with its first edge doubled and a face of the two, a face doubled, with a volume between, and an edge from
vertex 4 to itself. -/
def doubledTetra : Mesh where
  verts := [⟨1, [1, 3, 4, 7], [0, 0, 0], false⟩, ⟨2, [1, 2, 5, 7], [1, 0, 0], false⟩, ⟨3, [2, 3, 6], [0, 1, 0], false⟩, ⟨4, [4, 5, 6, 8], [0, 0, 1], false⟩]
  edges := [⟨1, [1, 2], [1, 5, 6], false⟩, ⟨2, [2, 3], [1, 3, 6], false⟩, ⟨3, [1, 3], [1, 4, 6], false⟩, ⟨4, [1, 4], [2, 4], false⟩,
            ⟨5, [2, 4], [2, 3], false⟩, ⟨6, [3, 4], [3, 4], false⟩, ⟨7, [2, 1], [2, 5], false⟩, ⟨8, [4, 4], [4], false⟩]
  surfs := [{ index := 1, edgeind := [1, 2, 3], voluind := [1, 2] }, { index := 2, edgeind := [7, 5, 4], voluind := [1, 0] },
            { index := 3, edgeind := [2, 6, 5], voluind := [1, 0] }, { index := 4, edgeind := [3, 6, 8, 4], voluind := [1, 0] },
            { index := 5, edgeind := [1, 7], voluind := [1, 0] }, { index := 6, edgeind := [1, 2, 3], voluind := [2, 0] }]
  volus := [{ index := 1, surfind := [1, 2, 3, 4, 5] }, { index := 2, surfind := [1, 6] }]
  meshDim := 3

theorem doubledTetra_sound : Sound doubledTetra := sound_of_checked (by decide +kernel)

theorem two_of_dec {m : Mesh} (h : (m.edges.all fun e => e.vertind.length == 2) = true) : ∀ e ∈ m.edges, ∃ a b, e.vertind = [a, b] := by
  intro e he
  have := List.all_eq_true.1 h e he
  exact List.length_eq_two.1 (by simpa using this)

theorem zero_of_dec {m : Mesh} (h : (m.edges.all fun e => !e.surfind.contains 0) = true) : ∀ e, ¬ EdgeSurf m e 0 := by
  rintro e ⟨x, hx, -, hs⟩
  have := List.all_eq_true.1 h x hx
  simp at this
  exact this hs

/-- What is left is the tetrahedron, but the face kept of the two lists its edges twice. -/
example : ∃ r, doubledTetra.removeSingular [] true = .ok r ∧ Sound r ∧ Reduced doubledTetra r :=
  (C135_degenerate_partial doubledTetra doubledTetra [] true (by rw [removeIdx_nil]) doubledTetra_sound (two_of_dec (by decide +kernel))
    (fun e h => absurd h (zero_of_dec (by decide +kernel) e))).2 (by rintro ⟨-, c, hc, h⟩; revert c; decide +kernel)

example : (doubledTetra.removeSingular [] true).toOption.map (fun r => (r.edges.map Edge.index, r.surfs.map Surf.edgeind, r.volus.map Volu.surfind)) =
    some ([1, 2, 3, 4, 5, 6], [[1, 2, 3, 1, 2, 3], [1, 5, 4], [2, 6, 5], [3, 6, 4]], [[1, 2, 3, 4]]) := by decide +kernel

/-- The tetrahedron with one surface replaced by a degenerate one: the call throws. -/
def void3 : Mesh where
  verts := [⟨1, [1, 2, 3], [0, 0, 0], false⟩, ⟨2, [1, 4, 5], [1, 0, 0], false⟩, ⟨3, [2, 4, 6], [0, 1, 0], false⟩, ⟨4, [3, 5, 6], [0, 0, 1], false⟩]
  edges := [⟨1, [1, 2], [1, 2], false⟩, ⟨2, [1, 3], [1, 3], false⟩, ⟨3, [1, 4], [2, 3], false⟩,
            ⟨4, [2, 3], [1], false⟩, ⟨5, [2, 4], [2, 4], false⟩, ⟨6, [3, 4], [3, 4], false⟩]
  surfs := [{ index := 1, edgeind := [1, 2, 4], voluind := [1, 0] }, { index := 2, edgeind := [1, 3, 5], voluind := [1, 0] },
            { index := 3, edgeind := [2, 3, 6], voluind := [1, 0] }, { index := 4, edgeind := [5, 6], voluind := [1, 0] }]
  volus := [{ index := 1, surfind := [1, 2, 3, 4] }]
  meshDim := 3

example : void3.removeSingular [] true = .error .throws ∧ ∃ r, void3.removeSingular [] false = .ok r ∧ Sound r ∧ Reduced void3 r := by
  have hs : Sound void3 := sound_of_checked (by decide +kernel)
  have hz : ∀ e, EdgeSurf void3 e 0 → void3.volus = [] := fun e h => absurd h (zero_of_dec (by decide +kernel) e)
  have ht := two_of_dec (m := void3) (by decide +kernel)
  exact ⟨(C135_degenerate_partial void3 void3 [] true (by rw [removeIdx_nil]) hs ht hz).1.2 ⟨rfl, _, List.mem_cons_self, by decide +kernel⟩,
    (C135_degenerate_partial void3 void3 [] false (by rw [removeIdx_nil]) hs ht hz).2 (by rintro ⟨h, -⟩; cases h)⟩

/-- **C135, violated**: when two edges are merged, another surface which lists both lists one twice afterwards, and is kept, with two
different edges fewer than it has entries; the test is made on the number of entries. -/
theorem C135_repeated_violated :
    ∃ m r : Mesh, Sound m ∧ (∀ s ∈ m.surfs, s.edgeind.Nodup) ∧ m.removeSingular [] true = .ok r ∧ ∃ s ∈ r.surfs, s.edgeind = [1, 1, 3] := by
  refine ⟨{ verts := [⟨1, [1, 2, 3], [0, 0, 0], false⟩, ⟨2, [1, 2], [1, 0, 0], false⟩, ⟨3, [3], [0, 1, 0], false⟩]
            edges := [⟨1, [1, 2], [1, 2], false⟩, ⟨2, [1, 2], [1, 2], false⟩, ⟨3, [1, 3], [1], false⟩]
            surfs := [{ index := 1, edgeind := [1, 2, 3], voluind := [] }, { index := 2, edgeind := [1, 2], voluind := [] }]
            volus := [], meshDim := 2 },
          { verts := [⟨1, [1, 1, 3], [0, 0, 0], false⟩, ⟨2, [1, 1], [1, 0, 0], false⟩, ⟨3, [3], [0, 1, 0], false⟩]
            edges := [⟨1, [1, 2], [1, 1], false⟩, ⟨3, [1, 3], [1], false⟩]
            surfs := [{ index := 1, edgeind := [1, 1, 3], voluind := [] }]
            volus := [], meshDim := 2 },
    sound_of_checked (by decide +kernel), by decide +kernel, by decide +kernel, _, List.mem_cons_self, rfl⟩

/-- **C135, violated** for faces too: of two faces with the same edges one is kept, and it lists each edge twice. -/
theorem C135_faces_violated :
    ∃ m r : Mesh, Sound m ∧ (∀ s ∈ m.surfs, s.edgeind.Nodup) ∧ m.removeSingular [] true = .ok r ∧ ∃ s ∈ r.surfs, s.edgeind = [1, 2, 3, 1, 2, 3] := by
  cases h : doubledTetra.removeSingular [] true with
  | error f =>
    have : (doubledTetra.removeSingular [] true).toOption.isSome = true := by decide +kernel
    rw [h] at this
    exact absurd this (by simp [Except.toOption])
  | ok r =>
    have : (doubledTetra.removeSingular [] true).toOption.map (fun r => r.surfs.any fun s => s.edgeind == [1, 2, 3, 1, 2, 3]) = some true := by decide +kernel
    rw [h] at this
    have : (r.surfs.any fun s => s.edgeind == [1, 2, 3, 1, 2, 3]) = true := by simpa [Except.toOption] using this
    obtain ⟨s, hs, he⟩ := List.any_eq_true.1 this
    exact ⟨doubledTetra, r, doubledTetra_sound, by decide +kernel, h, s, hs, by simpa using he⟩

/-- **C135, violated** in a mesh with volumes of which an edge lists surface 0, the outside: the two edges of a degenerate surface cannot be merged. -/
theorem C135_outside_violated :
    ∃ m : Mesh, Sound m ∧ (∀ e ∈ m.edges, ∃ a b, e.vertind = [a, b]) ∧ m.removeSingular [] false = .error .throws := by
  refine ⟨{ doubledTetra with edges := doubledTetra.edges.map fun e => if e.index = 7 then { e with surfind := [2, 5, 0] } else e },
    sound_of_checked (by decide +kernel), two_of_dec (by decide +kernel), by decide +kernel⟩

/-- **C16** for the whole of `Crop`, when one of the elements cropped is next to the outside, and no edge lists surface 0: if the body succeeds, either it leaves a volume with
three surfaces and `Crop` throws, or `Crop` succeeds; then the mesh is sound, what was cropped is gone, and it is what the body leaves without degenerate
elements.  Missing: the other crop lists, for which it is false. -/
theorem C16_crop_whole_partial (m m' : Mesh) (hm : Sound m) (two : ∀ e ∈ m.edges, ∃ a b, e.vertind = [a, b]) (zero : ∀ e, ¬ EdgeSurf m e 0)
    (l : List Int) (t : Nat) (ht : 1 ≤ t ∧ t ≤ 4) (hl : t = 4 → ∀ x ∈ l, 0 ≤ x) (hto : Reached m l t 0) (h : m.cropCore l t = .ok m') :
    (m.crop l t = .error .throws ↔ ∃ c ∈ m'.volus, (surfsLeft m' c).length = 3) ∧
    ((¬ ∃ c ∈ m'.volus, (surfsLeft m' c).length = 3) → ∃ r, m.crop l t = .ok r ∧ Sound r ∧ Reduced m' r ∧ (∀ i ∈ l, i ≠ 0 → ¬ HasElem r i t) ∧
      ∀ i, HasVolu r i → HasVolu m i ∧ ¬ Reached m l t i) := by
  obtain ⟨h1, h2, -, -, -, h6, h7⟩ := cropCore_all hm ht hl hto h
  have hc : m.crop l t = m'.removeSingular [] true := by
    unfold crop
    rw [h]
    rfl
  have h8 : ∀ e ∈ m'.edges, ∃ a b, e.vertind = [a, b] := fun e he => by
    obtain ⟨y, hy, -, g, -⟩ := h7 e he
    rw [← g]
    exact two y hy
  have h9 : ∀ e, EdgeSurf m' e 0 → m'.volus = [] := by
    rintro e ⟨x, hx, -, hs⟩
    obtain ⟨y, hy, -, -, g⟩ := h7 x hx
    exact absurd ⟨y, hy, rfl, g hs⟩ (zero y.index)
  obtain ⟨k1, k2⟩ := C135_degenerate_partial m' m' [] true (by rw [removeIdx_nil]) h1 h8 h9
  rw [hc]
  refine ⟨by rw [k1]; simp, fun hn => ?_⟩
  obtain ⟨r, g1, g2, g3⟩ := k2 fun hh => hn hh.2
  have hv : ∀ i, HasVolu r i → HasVolu m' i := fun i hi => by
    obtain ⟨c, hc, hci, -⟩ := (g3.whole i).1 hi
    exact ⟨c, hc, hci⟩
  refine ⟨r, g1, g2, g3, fun i hi hi0 hh => h2 i hi hi0 ?_, fun i hi => (h6 i).1 (hv i hi)⟩
  obtain ⟨t1, t4⟩ := ht
  interval_cases t
  · obtain ⟨x, hx, hxi⟩ := hh
    have := List.mem_map.2 ⟨x, hx, hxi⟩
    rw [g3.verts] at this
    obtain ⟨y, hy, hyi⟩ := List.mem_map.1 this
    exact ⟨y, hy, hyi⟩
  · obtain ⟨x, hx, hxi⟩ := hh
    obtain ⟨-, y, hy, hyi, -⟩ := g3.edges x hx
    exact ⟨y, hy, hyi.trans hxi⟩
  · obtain ⟨x, hx, hxi⟩ := hh
    have := (g3.surfs x hx).2
    unfold isFace at this
    obtain ⟨y, hy, hyi⟩ := List.any_eq_true.1 this
    rw [Bool.and_eq_true] at hyi
    exact ⟨y, hy, (by simpa using hyi.1 : y.index = x.index).trans hxi⟩
  · exact hv i hh

/-- Two tetrahedra with a common face; the second one is cropped. -/
def twoTetra : Mesh where
  verts := [⟨1, [1, 2, 3], [0, 0, 0], false⟩, ⟨2, [1, 4, 5, 7], [1, 0, 0], false⟩, ⟨3, [2, 4, 6, 8], [0, 1, 0], false⟩, ⟨4, [3, 5, 6, 9], [0, 0, 1], false⟩,
            ⟨5, [7, 8, 9], [1, 1, 1], false⟩]
  edges := [⟨1, [1, 2], [1, 2], false⟩, ⟨2, [1, 3], [1, 3], false⟩, ⟨3, [1, 4], [2, 3], false⟩,
            ⟨4, [2, 3], [1, 4, 5], false⟩, ⟨5, [2, 4], [2, 4, 6], false⟩, ⟨6, [3, 4], [3, 4, 7], false⟩,
            ⟨7, [2, 5], [5, 6], false⟩, ⟨8, [3, 5], [5, 7], false⟩, ⟨9, [4, 5], [6, 7], false⟩]
  surfs := [{ index := 1, edgeind := [1, 2, 4], voluind := [1, 0] }, { index := 2, edgeind := [1, 3, 5], voluind := [1, 0] },
            { index := 3, edgeind := [2, 3, 6], voluind := [1, 0] }, { index := 4, edgeind := [4, 5, 6], voluind := [1, 2] },
            { index := 5, edgeind := [4, 7, 8], voluind := [2, 0] }, { index := 6, edgeind := [5, 7, 9], voluind := [2, 0] },
            { index := 7, edgeind := [6, 8, 9], voluind := [2, 0] }]
  volus := [{ index := 1, surfind := [1, 2, 3, 4] }, { index := 2, surfind := [4, 5, 6, 7] }]
  meshDim := 3

example : ∃ r, twoTetra.crop [5] 1 = .ok r ∧ Sound r ∧ (∀ i, HasVolu r i → HasVolu twoTetra i ∧ ¬ Reached twoTetra [5] 1 i) := by
  have hto : Reached twoTetra [5] 1 0 := by
    refine ⟨5, by simp, 7, ⟨⟨5, [7, 8, 9], [1, 1, 1], false⟩, by simp [twoTetra], rfl, by simp⟩, 5, ⟨⟨7, [2, 5], [5, 6], false⟩, by simp [twoTetra], rfl, by simp⟩,
      ⟨{ index := 5, edgeind := [4, 7, 8], voluind := [2, 0] }, by simp [twoTetra], rfl, by simp⟩⟩
  cases h : twoTetra.cropCore [5] 1 with
  | error e =>
    have : (twoTetra.cropCore [5] 1).toOption.isSome = true := by decide +kernel
    rw [h] at this
    exact absurd this (by simp [Except.toOption])
  | ok m' =>
    obtain ⟨r, h1, h2, -, -, h5⟩ := (C16_crop_whole_partial twoTetra m' (sound_of_checked (by decide +kernel)) (two_of_dec (by decide +kernel))
      (zero_of_dec (by decide +kernel)) [5] 1 (by omega) (by omega) hto h).2 (by
        have : (twoTetra.cropCore [5] 1).toOption.map (fun m => m.volus.any fun c => (surfsLeft m c).length == 3) = some false := by decide +kernel
        rw [h] at this
        rintro ⟨c, hc, h3⟩
        have : (m'.volus.any fun c => (surfsLeft m' c).length == 3) = false := by simpa [Except.toOption] using this
        rw [List.any_eq_false] at this
        exact this c hc (by simpa using h3))
    exact ⟨r, h1, h2, h5⟩

end RSVS.Props
