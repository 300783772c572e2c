import Verif.Lemmas.FaceFanAll
import Verif.Lemmas.Triangulate
import Verif.Lemmas.SmoothPlane

/-!
# The triangulation of all surfaces of a mesh
-/

namespace RSVS.FaceFan

open RSVS RSVS.Mesh RSVS.Spec RSVS.Triang

theorem made_of (ty maxV : Int) : ∀ (ps : List Poly) (nx : Int) (i : Nat), ∀ t ∈ (madeTris maxV nx i ps).flatten,
    ∃ p ∈ ps, ∃ nx' c, t ∈ trisOf p nx' c ∧ (3 < p.pts.length → (⟨c, p.parent, ty⟩ : TriPoint) ∈ madePoints ty maxV i ps)
  | [], _, _, t, ht => by simp [madeTris] at ht
  | p :: ps, nx, i, t, ht => by
    rw [madeTris, List.flatten_cons, List.mem_append] at ht
    rw [madePoints]
    rcases ht with ht | ht
    · refine ⟨p, by simp, _, _, ht, fun h => List.mem_append_left _ ?_⟩
      unfold pointsOf
      rw [if_pos h]
      simp
    · obtain ⟨q, h1, nx', c, h2, h3⟩ := made_of ty maxV ps _ _ t ht
      exact ⟨q, List.mem_cons_of_mem _ h1, nx', c, h2, fun h => List.mem_append_right _ (h3 h)⟩

theorem made_all (maxV : Int) : ∀ (ps : List Poly) (nx : Int) (i : Nat), ∀ p ∈ ps,
    ∃ nx' c, ∀ t ∈ trisOf p nx' c, t ∈ (madeTris maxV nx i ps).flatten
  | q :: ps, nx, i, p, hp => by
    rw [madeTris, List.flatten_cons]
    rcases List.mem_cons.1 hp with rfl | hp
    · exact ⟨_, _, fun t ht => List.mem_append_left _ ht⟩
    · obtain ⟨nx', c, h⟩ := made_all maxV ps _ _ p hp
      exact ⟨nx', c, fun t ht => List.mem_append_right _ (h t ht)⟩

/-- The polygon of a ring. -/
def ringPoly (f : Surf) (w : Nat → Int) : Poly :=
  ⟨((List.range f.edgeind.length).map w).map fun v => (1, v), f.index, f.voluind, [-1, 1]⟩

theorem ringPoly_len (f : Surf) (w : Nat → Int) : (ringPoly f w).pts.length = f.edgeind.length := by
  simp [ringPoly]

theorem ringPoly_fst (f : Surf) (w : Nat → Int) : ∀ a ∈ (ringPoly f w).pts, a.1 = 1 := by
  intro a ha
  obtain ⟨v, _, rfl⟩ := List.mem_map.1 ha
  rfl

theorem polyOfSurf_ring {m : Mesh} (hm : Sound m) {f : Surf} {w : Nat → Int} (hr : RingFace m f w) :
    polyOfSurf m 1 f = .ok (ringPoly f w) := by
  unfold polyOfSurf
  rw [Order.orderedVerts_ok hm.unique.edges hr.1 hr.2]
  rfl

/-- The triangles of a ring. -/
theorem tris_ring {f : Surf} {w : Nat → Int} {nx c : Int} {t : Triangle} (h3 : 3 ≤ f.edgeind.length)
    (ht : t ∈ trisOf (ringPoly f w) nx c) : t.parentsurf = f.index ∧ t.pointtype.length = 3 ∧
      (3 < f.edgeind.length → t.pointtype = [1, 1, 3] ∧ t.pointind[2]? = some c) ∧
      (¬ 3 < f.edgeind.length → ¬ Mixed t) := by
  have hl := ringPoly_len f w
  unfold trisOf at ht
  by_cases h : 3 < f.edgeind.length
  · rw [if_pos (by rw [hl]; exact h)] at ht
    obtain ⟨i, hi, rfl⟩ := List.mem_map.1 ht
    have hi' : i < (ringPoly f w).pts.length := List.mem_range.1 hi
    have hi2 : (i + 1) % (ringPoly f w).pts.length < (ringPoly f w).pts.length := Nat.mod_lt _ (by omega)
    have e1 : ((ringPoly f w).pts.getD i (0, 0)).1 = 1 := by
      rw [List.getD_eq_getElem?_getD, List.getElem?_eq_getElem hi']
      exact ringPoly_fst f w _ (List.getElem_mem _)
    have e2 : ((ringPoly f w).pts.getD ((i + 1) % (ringPoly f w).pts.length) (0, 0)).1 = 1 := by
      rw [List.getD_eq_getElem?_getD, List.getElem?_eq_getElem hi2]
      exact ringPoly_fst f w _ (List.getElem_mem _)
    refine ⟨rfl, rfl, fun _ => ⟨?_, rfl⟩, fun h' => absurd h h'⟩
    unfold fanTriangle
    simp only [e1, e2]
  · rw [if_neg (by rw [hl]; exact h), List.mem_singleton] at ht
    subst ht
    refine ⟨rfl, ?_, fun h' => absurd h' h, fun _ => ?_⟩
    · simp only [List.length_map]
      omega
    · rintro ⟨a, ha, b, hb, hab⟩
      obtain ⟨x, hx, rfl⟩ := List.mem_map.1 ha
      obtain ⟨y, hy, rfl⟩ := List.mem_map.1 hb
      exact hab ((ringPoly_fst f w x hx).trans (ringPoly_fst f w y hy).symm)

/-- All surfaces. -/
theorem triangulateFaces_ok {m : Mesh} (hm : Sound m) (hr : ∀ f ∈ m.surfs, ∃ w, RingFace m f w) {place : Int → Res (List ℚ)}
    (hp : ∀ f ∈ m.surfs, ∃ x, place f.index = .ok x) {sibs : List Triangle → Int → List Nat}
    (hs : ∀ tris : List Triangle, ∀ t ∈ tris, AllPos Triangle.parentsurf tris t.parentsurf (sibs tris t.parentsurf)) :
    ∃ (st : St) (tris : List Triangle) (coordOf : Int → Res (List ℚ)), triangulateFaces m place sibs = .ok st.mesh ∧
      Inv m ⟨maxIdx Vert.index m.verts, maxIdx Edge.index m.edges, maxIdx Surf.index m.surfs⟩ coordOf tris (Split tris) st ∧
      (∀ f ∈ m.surfs, Split tris f.index ↔ 3 < f.edgeind.length) ∧
      ∀ f ∈ m.surfs, ∀ x, PointOf coordOf tris f.index x → place f.index = .ok x := by
  classical
  -- one ring for each surface
  have hw : ∃ W : Surf → Nat → Int, ∀ f ∈ m.surfs, RingFace m f (W f) := by
    refine ⟨fun f => if h : f ∈ m.surfs then (hr f h).choose else fun _ => 0, fun f hf => ?_⟩
    dsimp only
    rw [dif_pos hf]
    exact (hr f hf).choose_spec
  obtain ⟨W, hW⟩ := hw
  have hpolys : meshPolys m 1 [] = .ok ((m.surfs.map fun f => ringPoly f (W f)).map .ok) := by
    unfold meshPolys chosen
    rw [if_pos rfl]
    simp only [Except.map]
    rw [List.map_map]
    refine congrArg _ (List.map_congr_left fun f hf => ?_)
    exact polyOfSurf_ring hm (hW f hf)
  have h3 : ∀ p ∈ m.surfs.map fun f => ringPoly f (W f), 3 ≤ p.pts.length := by
    intro p hp
    obtain ⟨f, hf, rfl⟩ := List.mem_map.1 hp
    rw [ringPoly_len]
    exact (hW f hf).1
  have hcont := container_eq 1 h3 ([], [])
  have hnodup := (made_points 1 (maxIdx TriPoint.index []) (m.surfs.map fun f => ringPoly f (W f)) 0).1
  have hof := made_of 1 (maxIdx TriPoint.index []) (m.surfs.map fun f => ringPoly f (W f)) (maxIdx Triangle.index []) 0
  have hall := made_all (maxIdx TriPoint.index []) (m.surfs.map fun f => ringPoly f (W f)) (maxIdx Triangle.index []) 0
  simp only [List.nil_append] at hcont
  generalize hT : (madeTris (maxIdx TriPoint.index []) (maxIdx Triangle.index []) 0 (m.surfs.map fun f => ringPoly f (W f))).flatten =
    T at *
  generalize hP : madePoints 1 (maxIdx TriPoint.index []) 0 (m.surfs.map fun f => ringPoly f (W f)) = P at *
  -- each triangle
  have key : ∀ t ∈ T, ∃ f ∈ m.surfs, t.parentsurf = f.index ∧ t.pointtype.length = 3 ∧
      (3 < f.edgeind.length → t.pointtype = [1, 1, 3] ∧ ∃ c x, t.pointind[2]? = some c ∧
        ((isearch TriPoint.index P c).bind fun p => place p.parentsurf) = .ok x ∧ place f.index = .ok x) ∧
      (¬ 3 < f.edgeind.length → ¬ Mixed t) := by
    intro t ht
    obtain ⟨p, hp1, nx', c, h1, h2⟩ := hof t ht
    obtain ⟨f, hf, rfl⟩ := List.mem_map.1 hp1
    obtain ⟨g1, g2, g3, g4⟩ := tris_ring (hW f hf).1 h1
    refine ⟨f, hf, g1, g2, fun h => ?_, g4⟩
    obtain ⟨x, hx⟩ := hp f hf
    refine ⟨(g3 h).1, c, x, (g3 h).2, ?_, hx⟩
    have := Smooth.isearch_self hnodup (h2 (by rw [ringPoly_len]; exact h))
    dsimp only at this
    rw [this]
    exact hx
  have hmixed : ∀ t ∈ T, ∀ f ∈ m.surfs, t.parentsurf = f.index → (Mixed t ↔ 3 < f.edgeind.length) := by
    intro t ht f hf hi
    obtain ⟨f', hf', g1, g2, g3, g4⟩ := key t ht
    have : f' = f := inj_of_nodup hm.unique.surfs hf' hf (g1.symm.trans hi)
    subst this
    refine ⟨fun h => by_contra fun hn => g4 hn h, fun h => ?_⟩
    refine ⟨1, ?_, 3, ?_, by decide⟩ <;> rw [(g3 h).1] <;> simp
  obtain ⟨st, hst, hinv⟩ := meshTriangulation_ok (base := m) (tris := T) (sibs := sibs T)
    (coordOf := fun i => (isearch TriPoint.index P i).bind fun p => place p.parentsurf) hm (hs T) (by
      intro t ht hmix
      obtain ⟨f, hf, g1, g2, g3, g4⟩ := key t ht
      have h : 3 < f.edgeind.length := by_contra fun hn => g4 hn hmix
      obtain ⟨e1, c, x, e2, e3, e4⟩ := g3 h
      refine ⟨⟨f, hf, g1.symm, W f, hW f hf⟩, g2, by rw [e1]; simp, fun k hk => ?_⟩
      have : k = 2 := by
        rw [e1] at hk
        match k, hk with
        | 2, _ => rfl
      subst this
      exact ⟨c, x, e2, e3⟩)
  refine ⟨st, T, _, ?_, hinv, ?_, ?_⟩
  · unfold triangulateFaces
    rw [hpolys]
    simp only [Except.bind]
    rw [hcont]
    exact hst
  · intro f hf
    constructor
    · rintro ⟨t, ht, hmix, hi⟩
      exact (hmixed t ht f hf hi).1 hmix
    · intro h
      obtain ⟨nx', c, h1⟩ := hall (ringPoly f (W f)) (List.mem_map_of_mem hf)
      have hne : ∃ t, t ∈ trisOf (ringPoly f (W f)) nx' c := by
        unfold trisOf
        rw [if_pos (by rw [ringPoly_len]; exact h)]
        refine ⟨_, List.mem_map_of_mem (a := 0) (List.mem_range.2 ?_)⟩
        rw [ringPoly_len]
        omega
      obtain ⟨t, ht⟩ := hne
      have hi := (tris_ring (hW f hf).1 ht).1
      exact ⟨t, h1 t ht, (hmixed t (h1 t ht) f hf hi).2 h, hi⟩
  · rintro f hf x ⟨t, ht, hi, k, hk, i, hki, hx⟩
    obtain ⟨f', hf', g1, g2, g3, g4⟩ := key t ht
    have : f' = f := inj_of_nodup hm.unique.surfs hf' hf (g1.symm.trans hi)
    subst this
    have h : 3 < f'.edgeind.length := by
      by_contra hn
      obtain ⟨p, hp1, nx', c, h1, h2⟩ := hof t ht
      obtain ⟨f2, hf2, rfl⟩ := List.mem_map.1 hp1
      have hi2 := (tris_ring (hW f2 hf2).1 h1).1
      have : f2 = f' := inj_of_nodup hm.unique.surfs hf2 hf' (hi2.symm.trans hi)
      subst this
      unfold trisOf at h1
      rw [if_neg (by rw [ringPoly_len]; exact hn), List.mem_singleton] at h1
      subst h1
      dsimp only at hk
      rw [List.getElem?_map] at hk
      obtain ⟨a, ha, ha3⟩ := Option.map_eq_some_iff.1 hk
      have := ringPoly_fst f2 (W f2) a (List.mem_of_getElem? ha)
      omega
    obtain ⟨e1, c, x', e2, e3, e4⟩ := g3 h
    have : k = 2 := by
      rw [e1] at hk
      match k, hk with
      | 2, _ => rfl
    subst this
    rw [e2] at hki
    cases hki
    have hx' := e3.symm.trans hx
    cases hx'
    exact e4

end RSVS.FaceFan
