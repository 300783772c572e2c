import Verif.Lemmas.FinishMesh
import Verif.Props.FlattenFaces

/-!
# C123 and C132 to the end: the faces are replaced, the lists tightened and the edges put in order
-/

namespace RSVS.Props

open RSVS RSVS.Mesh RSVS.Spec RSVS.Triang RSVS.FaceFan RSVS.SplitSurf RSVS.Order

/-- What `finishMesh` makes of a mesh of rings. -/
theorem finish_rings {tab : List Int → Table} (ht : ∀ l, IsTable l (tab l)) (cap : Nat) {m a : Mesh} (ha : Sound a) (h2 : TwoVerts a)
    (hr : ∀ f ∈ a.surfs, ∃ w, RingFace a f w) {P : Int → Prop} (hk : KeptBut m a P) :
    ∃ r, finishMesh tab cap a = .ok r ∧ Sound r ∧ SameButOrder a r ∧
      List.Forall₂ (fun x y : Surf => y.index = x.index ∧ y.edgeind.Perm x.edgeind ∧ y.isBorder = x.isBorder ∧
        ∀ c, c ∈ y.voluind ↔ c ∈ x.voluind) a.surfs r.surfs ∧
      (∀ s ∈ r.surfs, s.isordered = true ∧ ∃ w, RingFace r s w) ∧ euler r = euler a ∧ KeptInAnyOrder m r P ∧
      ∀ f x, FanOver m a f x → FanAbout m r f x := by
  obtain ⟨r, r1, r2, r3, r4, r5⟩ := finishMesh_ok ht cap ha h2 fun f hf => by
    obtain ⟨w, hw⟩ := hr f hf
    exact oneLoop_of_ring ha hw
  have hperm : List.Forall₂ (fun x y : Surf => y.index = x.index ∧ y.edgeind.Perm x.edgeind ∧ y.isBorder = x.isBorder ∧
        ∀ c, c ∈ y.voluind ↔ c ∈ x.voluind) a.surfs r.surfs := by
    refine List.forall₂_iff_get.2 ⟨r4.surfs.length_eq, fun i h1 h3 => ?_⟩
    obtain ⟨g1, g2, g3, g4, _⟩ := (List.forall₂_iff_get.1 r4.surfs).2 i h1 h3
    refine ⟨g1, ?_, g4, g3⟩
    obtain ⟨w, hw⟩ := hr _ (List.get_mem _ ⟨i, h1⟩)
    refine (List.perm_ext_iff_of_nodup ?_ (ring_once ha hw)).2 g2
    rcases (r5 _ (List.get_mem _ ⟨i, h3⟩)).2 with h | h
    · rw [h]
      exact List.nodup_nil
    · exact h.2
  refine ⟨r, r1, r2, r4, hperm, fun s hs => ⟨(r5 s hs).1, ?_⟩, ?_, ⟨?_, ?_, ?_, ?_⟩, ?_⟩
  · obtain ⟨x, hx, _, g2, _⟩ := forall2_right hperm hs
    obtain ⟨w, hw⟩ := hr x hx
    have h3 : 3 ≤ s.edgeind.length := by rw [g2.length_eq]; exact hw.1
    rcases (r5 s hs).2 with h | h
    · rw [h] at h3
      simp at h3
    · obtain ⟨w, hw⟩ := h.1
      exact ⟨w, h3, hw⟩
  · unfold euler
    rw [r4.verts.length_eq, r4.edges.length_eq, r4.surfs.length_eq]
  · intro v hv
    obtain ⟨x, hx, h1, h3⟩ := hk.verts v hv
    obtain ⟨y, hy, g1, g2, _⟩ := forall2_left r4.verts hx
    exact ⟨y, hy, g1.trans h1, g2.trans h3⟩
  · intro e he
    obtain ⟨x, hx, h1, h3⟩ := hk.edges e he
    obtain ⟨y, hy, g1, g2, _⟩ := forall2_left r4.edges hx
    exact ⟨y, hy, g1.trans h1, g2.trans h3⟩
  · intro f hf hn
    obtain ⟨y, hy, g1, g2, _, g3⟩ := forall2_left hperm (hk.surfs f hf hn)
    exact ⟨y, hy, g1, g2, g3⟩
  · rw [← hk.volus]
    exact forall2_index (ix := Volu.index) (fun x y h => h) r4.volus
  · rintro f x ⟨w, c, sp, h1, h3, ⟨v, hv, hvi, hvx⟩, h4, h5⟩
    obtain ⟨v', hv', g1, g2, _⟩ := forall2_left r4.verts hv
    refine ⟨w, c, sp, h1, h3, ⟨v', hv', g1.trans hvi, g2.trans hvx⟩, h4, fun k e hk => ?_⟩
    obtain ⟨q1, q2, t, ht, q3, q4, q5⟩ := h5 k e hk
    obtain ⟨t', ht', e1, e2, _, e3⟩ := forall2_left hperm ht
    refine ⟨q1, r4.joins.2 q2, t', ht', e2.trans q3, fun c => by rw [e3, q4], ?_⟩
    rw [e1]
    exact q5

/-- C123, all of `TriangulateAllFaces`: for a sound mesh of which each surface is a simple loop of edges in order, it succeeds and makes
a sound mesh of triangles, with the three edges of each in order around it, and with the same vertices, edges and volumes and the same
Euler characteristic.  Surfaces of three edges stay, any other is replaced by triangles around a new vertex at its centre. -/
theorem C123_ordered {tab : List Int → Table} (ht : ∀ l, IsTable l (tab l)) (cap : Nat) {m : Mesh} (hm : Sound m) (h2 : TwoVerts m)
    (hr : ∀ f ∈ m.surfs, ∃ w, RingFace m f w) {place : Int → Res (List ℚ)} (hp : ∀ f ∈ m.surfs, ∃ x, place f.index = .ok x)
    {sibs : List Triangle → Int → List Nat}
    (hs : ∀ tris : List Triangle, ∀ t ∈ tris, AllPos Triangle.parentsurf tris t.parentsurf (sibs tris t.parentsurf)) :
    ∃ r, triangulateAllFaces tab cap m place sibs = .ok r ∧ Sound r ∧ euler r = euler m ∧
      (∀ s ∈ r.surfs, s.edgeind.length = 3 ∧ s.isordered = true ∧ ∃ w, RingFace r s w) ∧
      KeptInAnyOrder m r (fun s => ∃ f ∈ m.surfs, f.index = s ∧ 3 < f.edgeind.length) ∧
      ∀ f ∈ m.surfs, 3 < f.edgeind.length → ∃ x, place f.index = .ok x ∧ FanAbout m r f x := by
  obtain ⟨a, a1, a2, a3, a4, a5, a6⟩ := C123_all_partial hm hr hp hs
  obtain ⟨st, tris, coordOf, s1, s2, -⟩ := triangulateFaces_ok hm hr hp hs
  have hst : st.mesh = a := Except.ok.inj (s1.symm.trans a1)
  subst hst
  obtain ⟨r, r1, r2, r3, r4, r5, r6, r7, r8⟩ := finish_rings ht cap a2 (s2.two h2) (made_rings s2 hr) a5
  refine ⟨r, ?_, r2, r6.trans a4, fun s hs => ⟨?_, r5 s hs⟩, r7, fun f hf h => ?_⟩
  · unfold triangulateAllFaces
    rw [a1]
    exact r1
  · obtain ⟨x, hx, _, g2, _⟩ := forall2_right r4 hs
    rw [g2.length_eq]
    exact a3 x hx
  · obtain ⟨x, h1, h3⟩ := a6 f hf h
    exact ⟨x, h1, r8 f x h3⟩

/-- C132, all of `FlattenBoundaryFaces`: for a sound mesh of which each surface is a simple loop of edges in order, it succeeds and
makes a sound mesh of which each surface is such a loop and each surface of the border has three edges or is in a plane across an axis.
Surfaces not on the border, with three edges or exactly in such a plane stay; one which is not in such a plane is replaced by triangles
around its centre; vertices and edges stay and the Euler characteristic is the same. -/
theorem C132_ordered {tab : List Int → Table} (ht : ∀ l, IsTable l (tab l)) (cap : Nat) {m : Mesh} (hm : Sound m) (h2 : TwoVerts m)
    (h3 : ∀ v ∈ m.verts, v.coord.length = 3) (hr : ∀ f ∈ m.surfs, ∃ w, RingFace m f w) {place : Int → Res (List ℚ)}
    (hp : ∀ f ∈ m.surfs, ∃ x, place f.index = .ok x) {sibs : List Triangle → Int → List Nat}
    (hs : ∀ tris : List Triangle, ∀ t ∈ tris, AllPos Triangle.parentsurf tris t.parentsurf (sibs tris t.parentsurf)) :
    ∃ r, flattenBoundary tab cap m place sibs = .ok r ∧ Sound r ∧ euler r = euler m ∧
      (∀ s ∈ r.surfs, s.isBorder = true → s.edgeind.length = 3 ∨ AxisFlat r (1 / 1000000000) s) ∧
      (∀ s ∈ r.surfs, ∃ w, RingFace r s w) ∧
      KeptInAnyOrder m r (fun i => ∃ f ∈ m.surfs, f.index = i ∧ f.isBorder = true ∧ 3 < f.edgeind.length ∧ ¬ ExactlyFlat m f) ∧
      ∀ f ∈ m.surfs, f.isBorder = true → 3 < f.edgeind.length → ¬ AxisFlat m (1 / 1000000000) f →
        ∃ x, place f.index = .ok x ∧ FanAbout m r f x := by
  obtain ⟨a, a1, a2, a3, a4, a5, a6, a7, a8, a9⟩ := C132_flat_partial hm h3 (fun f hf _ _ => hr f hf) hp hs fun f hf => by
    obtain ⟨w, hw⟩ := hr f hf
    exact hw.1
  obtain ⟨r, r1, r2, r3, r4, r5, r6, r7, r8⟩ := finish_rings ht cap a2 (a8 h2) (a9 hr) a6
  unfold flattenFaces at a1
  unfold flattenBoundary
  cases hl : splitFrom m 0 m.surfs with
  | error e => rw [hl] at a1; cases a1
  | ok l =>
    rw [hl] at a1
    simp only [Except.bind] at a1 ⊢
    by_cases hn : l = []
    · rw [if_pos hn] at a1 ⊢
      cases a1
      refine ⟨m, rfl, hm, rfl, a4, hr, ⟨a6.verts, a6.edges, fun f hf _ => ⟨f, hf, rfl, .refl _, fun _ => Iff.rfl⟩, rfl⟩,
        fun f hf hb h4 hx => ?_⟩
      obtain ⟨x, g1, w, c, sp, g2, g3, ⟨v, hv, hvi, _⟩, _⟩ := a7 f hf hb h4 hx
      exact absurd ⟨v, hv, hvi⟩ g3
    · rw [if_neg hn] at a1 ⊢
      rw [a1]
      refine ⟨r, r1, r2, r6.trans a3, fun s hs hb => ?_, fun s hs => (r5 s hs).2, r7, fun f hf hb h4 hx => ?_⟩
      · obtain ⟨x, hx, g1, g2, g3, _⟩ := forall2_right r4 hs
        rcases a4 x hx (g3.symm.trans hb) with h | ⟨k, hk, c, h⟩
        · exact .inl (g2.length_eq.trans h)
        · refine .inr ⟨k, hk, c, fun v hv ⟨e, he, y, hy, hye, hyv⟩ => ?_⟩
          obtain ⟨u, hu, q1, q2, _⟩ := forall2_right r3.verts hv
          obtain ⟨z, hz, p1, p2, _⟩ := forall2_right r3.edges hy
          obtain ⟨b, hb1, hb2⟩ := h u hu ⟨e, g2.mem_iff.1 he, z, hz, p1.symm.trans hye, by rw [← p2, ← q1]; exact hyv⟩
          exact ⟨b, by rw [q2]; exact hb1, hb2⟩
      · obtain ⟨x, h1, h3⟩ := a7 f hf hb h4 hx
        exact ⟨x, h1, r8 f x h3⟩

private theorem ok_of' {x : Res Mesh} {P : Mesh → Prop} [DecidablePred P]
    (h : (match x with | .ok r => decide (P r) | .error _ => false) = true) : ∃ r, x = .ok r ∧ P r := by
  cases x with
  | ok r => exact ⟨r, rfl, of_decide_eq_true h⟩
  | error e => exact absurd h (by simp)

theorem spire_two : TwoVerts spire := by unfold TwoVerts; decide +kernel

/-- The conditions hold for the pyramids, and this is what becomes of their surfaces. -/
example : (∃ r, triangulateAllFaces sortTab 5 spire (fun _ => .ok [1 / 2, 1 / 2, 0]) trisAt = .ok r ∧ Sound r ∧
      (∀ s ∈ r.surfs, s.edgeind.length = 3 ∧ s.isordered = true ∧ ∃ w, RingFace r s w)) ∧
    ∃ r, flattenBoundary sortTab 5 warpedSpire (fun _ => .ok [1 / 2, 1 / 2, 1 / 8]) trisAt = .ok r ∧ Sound r ∧
      ∀ s ∈ r.surfs, s.isBorder = true → s.edgeind.length = 3 ∨ AxisFlat r (1 / 1000000000) s := by
  constructor
  · obtain ⟨r, h1, h2, _, h3, _⟩ := C123_ordered sortTab_isTable 5 spire_sound spire_two spire_rings
      (place := fun _ => .ok [1 / 2, 1 / 2, 0]) (fun f _ => ⟨_, rfl⟩) (sibs := trisAt) (fun tris t _ => trisAt_all tris _)
    exact ⟨r, h1, h2, h3⟩
  · obtain ⟨r, h1, h2, _, h3, _⟩ := C132_ordered sortTab_isTable 5 warpedSpire_sound spire_two (by decide +kernel) spire_rings
      (place := fun _ => .ok [1 / 2, 1 / 2, 1 / 8]) (fun f _ => ⟨_, rfl⟩) (sibs := trisAt) (fun tris t _ => trisAt_all tris _)
    exact ⟨r, h1, h2, h3⟩

example : ∃ r, triangulateAllFaces sortTab 5 spire (fun _ => .ok [1 / 2, 1 / 2, 0]) trisAt = .ok r ∧
    r.surfs.map (fun s => (s.index, s.edgeind.length, s.isordered)) = [(1, 3, true), (2, 3, true), (3, 3, true), (4, 3, true), (5, 3, true),
      (6, 3, true), (7, 3, true), (8, 3, true)] :=
  ok_of' (by decide +kernel)

/-- C123, sides: the tightening puts the volumes of each surface in increasing order, so which of them is first, the side its edges go
around, is lost, for surfaces which are not replaced too. -/
theorem C123_sides_violated : ∃ (m r : Mesh) (place : Int → Res (List ℚ)), Sound m ∧ TwoVerts m ∧ (∀ f ∈ m.surfs, ∃ w, RingFace m f w) ∧
    triangulateAllFaces sortTab m.surfs.length m place trisAt = .ok r ∧
    ∃ f ∈ m.surfs, ∃ s ∈ r.surfs, s.index = f.index ∧ f.edgeind.length = 3 ∧ f.voluind = [1, 0] ∧ s.voluind = [0, 1] := by
  obtain ⟨r, h1, h2⟩ := ok_of' (x := triangulateAllFaces sortTab 5 spire (fun _ => .ok [1 / 2, 1 / 2, 0]) trisAt)
    (P := fun r => ∃ f ∈ spire.surfs, ∃ s ∈ r.surfs, s.index = f.index ∧ f.edgeind.length = 3 ∧ f.voluind = [1, 0] ∧ s.voluind = [0, 1])
    (by decide +kernel)
  exact ⟨spire, r, _, spire_sound, spire_two, spire_rings, h1, h2⟩

end RSVS.Props
