import Verif.Lemmas.FlattenFaces
import Verif.Props.FaceFan

/-!
# C132: flattening the faces of the border
-/

namespace RSVS.Props

open RSVS RSVS.Mesh RSVS.Spec RSVS.Triang RSVS.FaceFan

/-- C132: for a sound mesh of which each surface of the border is a simple loop of edges in order, `FlattenBoundaryFaces` succeeds
and makes a sound mesh in which each surface of the border has three edges or is in a plane across an axis.  Surfaces not on the
border, with three edges or exactly in such a plane stay; one which is not in such a plane is replaced by triangles around its
centre; vertices and edges stay and the Euler characteristic is the same.
Missing: `TightenConnectivity` and `OrderEdges` on the mesh made, for which see `C132_ordered`. -/
theorem C132_flat_partial {m : Mesh} (hm : Sound m) (h3 : ∀ v ∈ m.verts, v.coord.length = 3)
    (hr : ∀ f ∈ m.surfs, f.isBorder = true → 3 < f.edgeind.length → ∃ w, RingFace m f w) {place : Int → Res (List ℚ)}
    (hp : ∀ f ∈ m.surfs, ∃ x, place f.index = .ok x) {sibs : List Triangle → Int → List Nat}
    (hs : ∀ tris : List Triangle, ∀ t ∈ tris, AllPos Triangle.parentsurf tris t.parentsurf (sibs tris t.parentsurf))
    (hmin : ∀ f ∈ m.surfs, 3 ≤ f.edgeind.length) :
    ∃ r, flattenFaces m place sibs = .ok r ∧ Sound r ∧ euler r = euler m ∧
      (∀ s ∈ r.surfs, s.isBorder = true → s.edgeind.length = 3 ∨ AxisFlat r (1 / 1000000000) s) ∧
      (∀ s ∈ r.surfs, s ∈ m.surfs ∨ s.edgeind.length = 3) ∧
      KeptBut m r (fun i => ∃ f ∈ m.surfs, f.index = i ∧ f.isBorder = true ∧ 3 < f.edgeind.length ∧ ¬ ExactlyFlat m f) ∧
      (∀ f ∈ m.surfs, f.isBorder = true → 3 < f.edgeind.length → ¬ AxisFlat m (1 / 1000000000) f →
        ∃ x, place f.index = .ok x ∧ FanOver m r f x) ∧ (TwoVerts m → TwoVerts r) ∧
      ((∀ f ∈ m.surfs, ∃ w, RingFace m f w) → ∀ f ∈ r.surfs, ∃ w, RingFace r f w) := by
  classical
  have hsp : ∀ f ∈ m.surfs, ∃ b, toSplit m f = .ok b ∧
      (b = true → f.isBorder = true ∧ 3 < f.edgeind.length ∧ ¬ ExactlyFlat m f) ∧
      (b = false → f.isBorder = true → 3 < f.edgeind.length → AxisFlat m (1 / 1000000000) f) := by
    intro f hf
    unfold toSplit
    by_cases h : f.isBorder = true ∧ 3 < f.edgeind.length
    · rw [if_pos h]
      obtain ⟨w, hw⟩ := hr f hf h.1 h.2
      obtain ⟨b, h1, h2, h4⟩ := tilted_ok hm h3 hw
      exact ⟨b, h1, fun hb => ⟨h.1, h.2, fun he => absurd (h4 he) (by simp [hb])⟩, fun hb _ _ => h2 hb⟩
    · rw [if_neg h]
      exact ⟨false, rfl, fun hb => absurd hb (by simp), fun _ h1 h2 => absurd ⟨h1, h2⟩ h⟩
  obtain ⟨g, hg⟩ : ∃ g : Surf → Bool, ∀ f ∈ m.surfs, toSplit m f = .ok (g f) ∧
      (g f = true → f.isBorder = true ∧ 3 < f.edgeind.length ∧ ¬ ExactlyFlat m f) ∧
      (g f = false → f.isBorder = true → 3 < f.edgeind.length → AxisFlat m (1 / 1000000000) f) := by
    refine ⟨fun f => if h : f ∈ m.surfs then (hsp f h).choose else false, fun f hf => ?_⟩
    simp only [dif_pos hf]
    exact (hsp f hf).choose_spec
  obtain ⟨l, hl1, hl2⟩ := splitFrom_ok (m := m) g m.surfs [] (fun f hf => (hg f hf).1) rfl
  rw [List.length_nil] at hl1
  -- a flat surface stays flat if edges and vertices stay
  have stay : ∀ r : Mesh, Sound r → (∀ v ∈ m.verts, ∃ v' ∈ r.verts, v'.index = v.index ∧ v'.coord = v.coord) →
      (∀ e ∈ m.edges, ∃ e' ∈ r.edges, e'.index = e.index ∧ e'.vertind = e.vertind) → ∀ s ∈ m.surfs,
      AxisFlat m (1 / 1000000000) s → AxisFlat r (1 / 1000000000) s := by
    rintro r hrs hv he s hsm ⟨k, hk, c, hc⟩
    refine ⟨k, hk, c, fun v hvr hve => ?_⟩
    obtain ⟨e, hes, x, hx, hxi, hxv⟩ := hve
    have hsm' : SurfEdge m s.index e := ⟨s, hsm, rfl, hes⟩
    obtain ⟨y, hy, hyi, -⟩ := ((sound_es hm _ _).1 hsm').1
    obtain ⟨y', hy', hyi', hyv⟩ := he y hy
    have : x = y' := inj_of_nodup hrs.unique.edges hx hy' (by rw [hxi, hyi', hyi])
    subst this
    rw [hyv] at hxv
    have hev : EdgeVert m e v.index := ⟨y, hy, hyi, hxv⟩
    obtain ⟨u, hu, hui, -⟩ := (sound_ve hm _ _).2 hev
    obtain ⟨u', hu', hui', huc⟩ := hv u hu
    have : v = u' := inj_of_nodup hrs.unique.verts hvr hu' (by rw [hui', hui])
    subst this
    obtain ⟨z, hz, hzc⟩ := hc u hu ⟨e, hes, hui ▸ hev⟩
    exact ⟨z, huc ▸ hz, hzc⟩
  unfold flattenFaces
  rw [hl1]
  simp only [Except.bind]
  by_cases hl : l = []
  · rw [if_pos hl]
    subst hl
    have hnil : m.surfs.filter g = [] := by
      have := hl2
      rw [List.mapM_nil] at this
      exact (Except.ok.inj this).symm
    have hno : ∀ f ∈ m.surfs, g f = false := fun f hf => by
      have := List.filter_eq_nil_iff.1 hnil f hf
      simpa using this
    refine ⟨m, rfl, hm, rfl, fun s hs hb => ?_, fun s hs => Or.inl hs,
      ⟨fun v hv => ⟨v, hv, rfl, rfl⟩, fun e he => ⟨e, he, rfl, rfl⟩, fun f hf _ => hf, rfl⟩, fun f hf hb h4 hn => ?_, id, id⟩
    · by_cases h4 : 3 < s.edgeind.length
      · exact Or.inr ((hg s hs).2.2 (hno s hs) hb h4)
      · exact Or.inl (by have := hmin s hs; omega)
    · exact absurd ((hg f hf).2.2 (hno f hf) hb h4) hn
  · rw [if_neg hl]
    have hc : chosen m.surfs l = .ok (m.surfs.filter g) := by
      unfold chosen
      rw [if_neg hl]
      exact hl2
    have hL : ∀ f ∈ m.surfs.filter g, f ∈ m.surfs ∧ g f = true := fun f hf => by simpa using List.mem_filter.1 hf
    obtain ⟨st, tris, coordOf, e1, e2, e3, e4⟩ := triangulateSome_ok hm hc (fun f hf => (hL f hf).1)
      (fun f hf => by
        obtain ⟨h1, h2⟩ := hL f hf
        obtain ⟨b1, b2, -⟩ := (hg f h1).2.1 h2
        exact hr f h1 b1 b2) (place := place) (fun f hf => hp f (hL f hf).1) hs
    have hsplit : ∀ f ∈ m.surfs, Split tris f.index ↔ g f = true := by
      intro f hf
      rw [e3 f hf, List.mem_filter]
      exact ⟨fun h => h.1.2, fun h => ⟨⟨hf, h⟩, ((hg f hf).2.1 h).2.1⟩⟩
    refine ⟨st.mesh, e1, e2.sound, e2.euler, fun s hs hb => ?_, fun s hs => ?_, ⟨e2.verts, e2.edges, fun f hf hn => ?_, ?_⟩,
      fun f hf hb h4 hn => ?_, e2.two, fun hall f hf => ?_⟩
    · rcases e2.three s hs with ⟨g1, g2⟩ | g1
      · rw [hsplit s g1] at g2
        by_cases h4 : 3 < s.edgeind.length
        · exact Or.inr (stay st.mesh e2.sound e2.verts e2.edges s g1 ((hg s g1).2.2 (by simpa using g2) hb h4))
        · exact Or.inl (by have := hmin s g1; omega)
      · exact Or.inl g1
    · exact (e2.three s hs).imp (·.1) id
    · refine e2.surfs f hf fun h => hn ?_
      have := (hsplit f hf).1 h
      exact ⟨f, hf, rfl, (hg f hf).2.1 this⟩
    · unfold St.mesh Mesh.concatenate
      simp only [e2.tmpC, List.append_nil]
      exact e2.idx.volus
    · have ht : g f = true := by
        by_contra h
        exact hn ((hg f hf).2.2 (by simpa using h) hb h4)
      obtain ⟨x, g1, g2⟩ := e2.fans f hf ((hsplit f hf).2 ht)
      exact ⟨x, e4 f hf x g1, g2⟩
    · rcases e2.loops f hf with ⟨h1, _⟩ | h1
      · obtain ⟨w, hw⟩ := hall f h1
        exact ⟨w, ring_mono e2.edges hw⟩
      · exact ring_of_triangle h1

/-- The pyramid with one corner of its base raised. -/
def warpedSpire : Mesh :=
  { spire with verts := [⟨1, [1, 4, 5], [0, 0, 0], true⟩, ⟨2, [1, 2, 6], [1, 0, 0], true⟩, ⟨3, [2, 3, 7], [1, 1, 1 / 2], true⟩,
      ⟨4, [3, 4, 8], [0, 1, 0], true⟩, ⟨5, [5, 6, 7, 8], [0, 0, 1], true⟩] }

/-- The pyramid on a base which is plane but not across an axis. -/
def leaningSpire : Mesh :=
  { spire with verts := [⟨1, [1, 4, 5], [0, 0, 0], true⟩, ⟨2, [1, 2, 6], [1, 0, 1 / 2], true⟩, ⟨3, [2, 3, 7], [1, 1, 1], true⟩,
      ⟨4, [3, 4, 8], [0, 1, 1 / 2], true⟩, ⟨5, [5, 6, 7, 8], [0, 0, 2], true⟩] }

theorem warpedSpire_sound : Sound warpedSpire := sound_of_checked (by decide +kernel)

theorem leaningSpire_sound : Sound leaningSpire := sound_of_checked (by decide +kernel)

private theorem ok_of {x : Res Mesh} {P : Mesh → Prop} [DecidablePred P]
    (h : (match x with | .ok r => decide (P r) | .error _ => false) = true) : ∃ r, x = .ok r ∧ P r := by
  cases x with
  | ok r => exact ⟨r, rfl, of_decide_eq_true h⟩
  | error e => exact absurd h (by simp)

/-- The raised pyramid meets the conditions of `C132_flat_partial`: its base becomes four triangles. -/
example : Sound warpedSpire ∧ (∀ v ∈ warpedSpire.verts, v.coord.length = 3) ∧ (∀ f ∈ warpedSpire.surfs, ∃ w, RingFace warpedSpire f w) ∧
    (∀ f ∈ warpedSpire.surfs, 3 ≤ f.edgeind.length) ∧
    ∃ r, flattenFaces warpedSpire (fun _ => .ok [1 / 2, 1 / 2, 1 / 8]) trisAt = .ok r ∧ r.surfs.length = 8 ∧ r.verts.length = 6 :=
  ⟨warpedSpire_sound, by decide +kernel, spire_rings, by decide +kernel, ok_of (by decide +kernel)⟩

/-- The pyramid on a flat square stays. -/
example : flattenFaces spire (fun _ => .ok [1 / 2, 1 / 2, 0]) trisAt = .ok spire := by
  obtain ⟨r, hr, h⟩ := ok_of (x := flattenFaces spire (fun _ => .ok [1 / 2, 1 / 2, 0]) trisAt) (P := fun r => r.verts = spire.verts ∧
    r.edges = spire.edges ∧ r.surfs = spire.surfs ∧ r.volus = spire.volus ∧ r.meshDim = spire.meshDim) (by decide +kernel)
  rw [hr]
  obtain ⟨h1, h2, h3, h4, h5⟩ := h
  cases r
  simp only at h1 h2 h3 h4 h5
  subst h1 h2 h3 h4 h5
  rfl

/-- C132 does not hold for plane faces: one which is plane, but not across an axis, is replaced. -/
theorem C132_plane_violated : ∃ (m r : Mesh) (f : Surf) (place : Int → Res (List ℚ)) (a b c d : ℚ), Sound m ∧
    (∀ s ∈ m.surfs, ∃ w, RingFace m s w) ∧ f ∈ m.surfs ∧ (a, b, c) ≠ (0, 0, 0) ∧
    (∀ v ∈ m.verts, (∃ e ∈ m.edges, e.index ∈ f.edgeind ∧ v.index ∈ e.vertind) →
      a * v.coord.getD 0 0 + b * v.coord.getD 1 0 + c * v.coord.getD 2 0 = d) ∧
    flattenFaces m place trisAt = .ok r ∧ f ∉ r.surfs := by
  obtain ⟨r, h1, h2⟩ := ok_of (x := flattenFaces leaningSpire (fun _ => .ok [1 / 2, 1 / 2, 1 / 2]) trisAt)
    (P := fun r => ({ index := 1, edgeind := [1, 2, 3, 4], voluind := [1, 0], isBorder := true } : Surf) ∉ r.surfs) (by decide +kernel)
  exact ⟨leaningSpire, r, _, _, 1, 1, -2, 0, leaningSpire_sound, spire_rings, by decide +kernel, by decide, by decide +kernel, h1, h2⟩

/-- C132 does not hold for the marks of the border: the new edges and the new vertex are not marked. -/
theorem C132_border_violated : ∃ (m r : Mesh) (place : Int → Res (List ℚ)), Sound m ∧ (∀ f ∈ m.surfs, ∃ w, RingFace m f w) ∧
    BorderMarked m ∧ flattenFaces m place trisAt = .ok r ∧ ¬ BorderMarked r := by
  have hb : BorderMarked warpedSpire := by unfold BorderMarked; decide +kernel
  obtain ⟨r, h1, h2⟩ := ok_of (x := flattenFaces warpedSpire (fun _ => .ok [1 / 2, 1 / 2, 1 / 8]) trisAt)
    (P := fun r => ¬ ∀ s ∈ r.surfs, s.isBorder = true → ∀ e ∈ r.edges, e.index ∈ s.edgeind → e.isBorder = true ∧
      ∀ v ∈ r.verts, v.index ∈ e.vertind → v.isBorder = true) (by decide +kernel)
  exact ⟨warpedSpire, r, _, warpedSpire_sound, spire_rings, hb, h1, h2⟩

end RSVS.Props
