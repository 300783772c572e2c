import Mathlib.Tactic.Linarith
import Mathlib.Tactic.NormNum
import Verif.Lemmas.FaceFanMade
import Verif.Lemmas.PointGrid
import Verif.Model.FlattenFaces
import Verif.Spec.FlattenFaces

/-!
# Lemmas about flat faces
-/

namespace RSVS.FaceFan

open RSVS RSVS.Mesh RSVS.Spec RSVS.Triang

/-- Some surfaces. -/
theorem triangulateSome_ok {m : Mesh} (hm : Sound m) {sub : List Int} {L : List Surf} (hc : chosen m.surfs sub = .ok L)
    (hL : ∀ f ∈ L, f ∈ m.surfs) (hr : ∀ f ∈ L, ∃ w, RingFace m f w) {place : Int → Res (List ℚ)} (hp : ∀ f ∈ L, ∃ x, place f.index = .ok x) {sibs : List Triangle → Int → List Nat}
    (hs : ∀ tris : List Triangle, ∀ t ∈ tris, AllPos Triangle.parentsurf tris t.parentsurf (sibs tris t.parentsurf)) :
    ∃ (st : St) (tris : List Triangle) (coordOf : Int → Res (List ℚ)), triangulateSome m sub place sibs = .ok st.mesh ∧
      Inv m ⟨maxIdx Vert.index m.verts, maxIdx Edge.index m.edges, maxIdx Surf.index m.surfs⟩ coordOf tris (Split tris) st ∧
      (∀ f ∈ m.surfs, Split tris f.index ↔ f ∈ L ∧ 3 < f.edgeind.length) ∧
      ∀ f ∈ m.surfs, ∀ x, PointOf coordOf tris f.index x → place f.index = .ok x := by
  classical
  -- one ring for each surface
  have hw : ∃ W : Surf → Nat → Int, ∀ f ∈ L, RingFace m f (W f) := by
    refine ⟨fun f => if h : f ∈ L then (hr f h).choose else fun _ => 0, fun f hf => ?_⟩
    dsimp only
    rw [dif_pos hf]
    exact (hr f hf).choose_spec
  obtain ⟨W, hW⟩ := hw
  have hpolys : meshPolys m 1 sub = .ok ((L.map fun f => ringPoly f (W f)).map .ok) := by
    unfold meshPolys chosen
    unfold chosen at hc
    rw [hc]
    simp only [Except.map]
    rw [List.map_map]
    refine congrArg _ (List.map_congr_left fun f hf => ?_)
    exact polyOfSurf_ring hm (hW f hf)
  have h3 : ∀ p ∈ L.map fun f => ringPoly f (W f), 3 ≤ p.pts.length := by
    intro p hp
    obtain ⟨f, hf, rfl⟩ := List.mem_map.1 hp
    rw [ringPoly_len]
    exact (hW f hf).1
  have hcont := container_eq 1 h3 ([], [])
  have hnodup := (made_points 1 (maxIdx TriPoint.index []) (L.map fun f => ringPoly f (W f)) 0).1
  have hof := made_of 1 (maxIdx TriPoint.index []) (L.map fun f => ringPoly f (W f)) (maxIdx Triangle.index []) 0
  have hall := made_all (maxIdx TriPoint.index []) (L.map fun f => ringPoly f (W f)) (maxIdx Triangle.index []) 0
  simp only [List.nil_append] at hcont
  generalize hT : (madeTris (maxIdx TriPoint.index []) (maxIdx Triangle.index []) 0 (L.map fun f => ringPoly f (W f))).flatten =
    T at *
  generalize hP : madePoints 1 (maxIdx TriPoint.index []) 0 (L.map fun f => ringPoly f (W f)) = P at *
  -- each triangle
  have key : ∀ t ∈ T, ∃ f ∈ L, t.parentsurf = f.index ∧ t.pointtype.length = 3 ∧
      (3 < f.edgeind.length → t.pointtype = [1, 1, 3] ∧ ∃ c x, t.pointind[2]? = some c ∧
        ((isearch TriPoint.index P c).bind fun p => place p.parentsurf) = .ok x ∧ place f.index = .ok x) ∧
      (¬ 3 < f.edgeind.length → ¬ Mixed t) := by
    intro t ht
    obtain ⟨p, hp1, nx', c, h1, h2⟩ := hof t ht
    obtain ⟨f, hf, rfl⟩ := List.mem_map.1 hp1
    obtain ⟨g1, g2, g3, g4⟩ := tris_ring (hW f hf).1 h1
    refine ⟨f, hf, g1, g2, fun h => ?_, g4⟩
    obtain ⟨x, hx⟩ := hp f hf
    refine ⟨(g3 h).1, c, x, (g3 h).2, ?_, hx⟩
    have := Smooth.isearch_self hnodup (h2 (by rw [ringPoly_len]; exact h))
    dsimp only at this
    rw [this]
    exact hx
  have hmixed : ∀ t ∈ T, ∀ f ∈ L, t.parentsurf = f.index → (Mixed t ↔ 3 < f.edgeind.length) := by
    intro t ht f hf hi
    obtain ⟨f', hf', g1, g2, g3, g4⟩ := key t ht
    have : f' = f := inj_of_nodup hm.unique.surfs (hL _ hf') (hL _ hf) (g1.symm.trans hi)
    subst this
    refine ⟨fun h => by_contra fun hn => g4 hn h, fun h => ?_⟩
    refine ⟨1, ?_, 3, ?_, by decide⟩ <;> rw [(g3 h).1] <;> simp
  obtain ⟨st, hst, hinv⟩ := meshTriangulation_ok (base := m) (tris := T) (sibs := sibs T)
    (coordOf := fun i => (isearch TriPoint.index P i).bind fun p => place p.parentsurf) hm (hs T) (by
      intro t ht hmix
      obtain ⟨f, hf, g1, g2, g3, g4⟩ := key t ht
      have h : 3 < f.edgeind.length := by_contra fun hn => g4 hn hmix
      obtain ⟨e1, c, x, e2, e3, e4⟩ := g3 h
      refine ⟨⟨f, hL f hf, g1.symm, W f, hW f hf⟩, g2, by rw [e1]; simp, fun k hk => ?_⟩
      have : k = 2 := by
        rw [e1] at hk
        match k, hk with
        | 2, _ => rfl
      subst this
      exact ⟨c, x, e2, e3⟩)
  refine ⟨st, T, _, ?_, hinv, ?_, ?_⟩
  · unfold triangulateSome
    rw [hpolys]
    simp only [Except.bind]
    rw [hcont]
    exact hst
  · intro f hf
    constructor
    · rintro ⟨t, ht, hmix, hi⟩
      obtain ⟨f', hf', g1, -⟩ := key t ht
      have : f' = f := inj_of_nodup hm.unique.surfs (hL _ hf') hf (g1.symm.trans hi)
      subst this
      exact ⟨hf', (hmixed t ht f' hf' hi).1 hmix⟩
    · rintro ⟨hf, h⟩
      obtain ⟨nx', c, h1⟩ := hall (ringPoly f (W f)) (List.mem_map_of_mem hf)
      have hne : ∃ t, t ∈ trisOf (ringPoly f (W f)) nx' c := by
        unfold trisOf
        rw [if_pos (by rw [ringPoly_len]; exact h)]
        refine ⟨_, List.mem_map_of_mem (a := 0) (List.mem_range.2 ?_)⟩
        rw [ringPoly_len]
        omega
      obtain ⟨t, ht⟩ := hne
      have hi := (tris_ring (hW f hf).1 ht).1
      exact ⟨t, h1 t ht, (hmixed t (h1 t ht) f hf hi).2 h, hi⟩
  · rintro f hf x ⟨t, ht, hi, k, hk, i, hki, hx⟩
    obtain ⟨f', hf', g1, g2, g3, g4⟩ := key t ht
    have : f' = f := inj_of_nodup hm.unique.surfs (hL _ hf') hf (g1.symm.trans hi)
    subst this
    have h : 3 < f'.edgeind.length := by
      by_contra hn
      obtain ⟨p, hp1, nx', c, h1, h2⟩ := hof t ht
      obtain ⟨f2, hf2, rfl⟩ := List.mem_map.1 hp1
      have hi2 := (tris_ring (hW f2 hf2).1 h1).1
      have : f2 = f' := inj_of_nodup hm.unique.surfs (hL _ hf2) (hL _ hf') (hi2.symm.trans hi)
      subst this
      unfold trisOf at h1
      rw [if_neg (by rw [ringPoly_len]; exact hn), List.mem_singleton] at h1
      subst h1
      dsimp only at hk
      rw [List.getElem?_map] at hk
      obtain ⟨a, ha, ha3⟩ := Option.map_eq_some_iff.1 hk
      have := ringPoly_fst f2 (W f2) a (List.mem_of_getElem? ha)
      omega
    obtain ⟨e1, c, x', e2, e3, e4⟩ := g3 h
    have : k = 2 := by
      rw [e1] at hk
      match k, hk with
      | 2, _ => rfl
    subst this
    rw [e2] at hki
    cases hki
    have hx' := e3.symm.trans hx
    cases hx'
    exact e4

theorem coordsAt_ok {m : Mesh} (hm : Sound m) {v : Vert} (hv : v ∈ m.verts) (h3 : v.coord.length = 3) :
    coordsAt m v.index = .ok v.coord := by
  obtain ⟨x, h1, h2, h4⟩ := elemAt_posOf_ok (ix := Vert.index) ⟨v, hv, rfl⟩
  have : x = v := inj_of_nodup hm.unique.verts h2 hv h4
  subst this
  unfold coordsAt
  rw [h1]
  simp only [Except.bind]
  rw [PointGrid.take3_of (by omega), List.take_of_length_le (by omega)]

/-- The corners of a ring. -/
theorem corner_iff {m : Mesh} (hm : Sound m) {f : Surf} {w : Nat → Int} (hr : RingFace m f w) (v : Int) :
    (∃ e ∈ f.edgeind, EdgeVert m e v) ↔ ∃ i < f.edgeind.length, w i = v := by
  constructor
  · rintro ⟨e, he, x, hx, hi, hv⟩
    obtain ⟨k, hk⟩ := List.mem_iff_getElem?.1 he
    have hkl := (List.getElem?_eq_some_iff.1 hk).1
    obtain ⟨y, hy, hj, hve⟩ := hr.2.1 k e hk
    have : x = y := inj_of_nodup hm.unique.edges hx hy (hi.trans hj.symm)
    subst this
    have hv' : v = w k ∨ v = w (k + 1) := by
      rcases hve with h | h <;> rw [h] at hv <;> simp at hv
      · exact hv
      · exact hv.symm
    rcases hv' with h | h
    · exact ⟨k, hkl, h.symm⟩
    · by_cases hk1 : k + 1 < f.edgeind.length
      · exact ⟨k + 1, hk1, h.symm⟩
      · refine ⟨0, by omega, ?_⟩
        rw [h, ← hr.2.2.1]
        congr 1
        omega
  · rintro ⟨i, hi, rfl⟩
    obtain ⟨y, hy, hj, hve⟩ := hr.2.1 i _ (List.getElem?_eq_getElem hi)
    refine ⟨_, List.getElem_mem hi, y, hy, hj, ?_⟩
    rcases hve with h | h <;> rw [h] <;> simp

theorem getD_of_some {c : List ℚ} {k : Nat} {x : ℚ} (h : c[k]? = some x) : c.getD k 0 = x := by
  rw [List.getD_eq_getElem?_getD, h]
  rfl

/-- The test of one surface. -/
theorem tilted_ok {m : Mesh} (hm : Sound m) (h3 : ∀ v ∈ m.verts, v.coord.length = 3) {f : Surf} {w : Nat → Int}
    (hr : RingFace m f w) : ∃ b, tilted m f = .ok b ∧ (b = false → AxisFlat m (1 / 1000000000) f) ∧
      (ExactlyFlat m f → b = false) := by
  classical
  -- the vertex of each corner
  have hv : ∀ i < f.edgeind.length, ∃ v ∈ m.verts, v.index = w i := by
    intro i hi
    obtain ⟨y, hy, hj, hve⟩ := hr.2.1 i _ (List.getElem?_eq_getElem hi)
    have : EdgeVert m y.index (w i) := ⟨y, hy, rfl, by rcases hve with h | h <;> rw [h] <;> simp⟩
    obtain ⟨v, hv, hvi, -⟩ := (sound_ve hm _ _).2 this
    exact ⟨v, hv, hvi⟩
  obtain ⟨V, hV⟩ : ∃ V : Nat → Vert, ∀ i < f.edgeind.length, V i ∈ m.verts ∧ (V i).index = w i := by
    refine ⟨fun i => if h : i < f.edgeind.length then (hv i h).choose else ⟨0, [], [], false⟩, fun i hi => ?_⟩
    simp only [dif_pos hi]
    exact (hv i hi).choose_spec
  have hcs : ((List.range f.edgeind.length).map w).mapM (m := Except Fault) (coordsAt m) =
      .ok ((List.range f.edgeind.length).map fun i => (V i).coord) := by
    rw [List.mapM_map]
    apply PointGrid.mapM_ok
    intro i hi
    have hi' := List.mem_range.1 hi
    simp only [Function.comp]
    rw [← (hV i hi').2]
    exact coordsAt_ok hm (hV i hi').1 (h3 _ (hV i hi').1)
  obtain ⟨n, hn⟩ : ∃ n, f.edgeind.length = n + 1 := ⟨f.edgeind.length - 1, by have := hr.1; omega⟩
  have hlist : ((List.range f.edgeind.length).map fun i => (V i).coord) =
      (V 0).coord :: (List.range n).map fun i => (V (i + 1)).coord := by
    rw [hn, List.range_succ_eq_map]
    simp [Function.comp_def]
  have hflat : ∀ k < 3, flatAlong (V 0).coord ((List.range n).map fun i => (V (i + 1)).coord) k = true →
      AxisFlat m (1 / 1000000000) f := by
    intro k hk h
    refine ⟨k, hk, (V 0).coord.getD k 0, fun v hv hc => ?_⟩
    obtain ⟨i, hi, hwi⟩ := (corner_iff hm hr v.index).1 hc
    have hvi : V i = v := inj_of_nodup hm.unique.verts (hV i hi).1 hv ((hV i hi).2.trans hwi)
    have hl := h3 v hv
    have hx : v.coord[k]? = some (v.coord[k]'(by omega)) := List.getElem?_eq_getElem (by omega)
    refine ⟨_, hx, ?_⟩
    cases i with
    | zero =>
      rw [hvi, getD_of_some hx, sub_self, abs_zero]
      norm_num
    | succ i =>
      unfold flatAlong at h
      have := List.all_eq_true.1 h (V (i + 1)).coord (List.mem_map.2 ⟨i, List.mem_range.2 (by omega), rfl⟩)
      rw [hvi, getD_of_some hx] at this
      exact of_decide_eq_true this
  refine ⟨!(flatAlong (V 0).coord ((List.range n).map fun i => (V (i + 1)).coord) 0 ||
      flatAlong (V 0).coord ((List.range n).map fun i => (V (i + 1)).coord) 1 ||
      flatAlong (V 0).coord ((List.range n).map fun i => (V (i + 1)).coord) 2), ?_, ?_, ?_⟩
  · unfold tilted
    rw [Order.orderedVerts_ok hm.unique.edges hr.1 hr.2]
    simp only [Except.bind]
    rw [hcs, hlist]
    rfl
  · intro hb
    rw [Bool.not_eq_false', Bool.or_eq_true, Bool.or_eq_true] at hb
    rcases hb with (h | h) | h
    · exact hflat 0 (by omega) h
    · exact hflat 1 (by omega) h
    · exact hflat 2 (by omega) h
  · rintro ⟨k, hk, c, hc⟩
    have hall : ∀ i < f.edgeind.length, (V i).coord.getD k 0 = c := fun i hi =>
      getD_of_some (hc _ (hV i hi).1 ((corner_iff hm hr _).2 ⟨i, hi, (hV i hi).2.symm⟩))
    have : flatAlong (V 0).coord ((List.range n).map fun i => (V (i + 1)).coord) k = true := by
      unfold flatAlong
      rw [List.all_eq_true]
      intro x hx
      obtain ⟨i, hi, rfl⟩ := List.mem_map.1 hx
      have hi' := List.mem_range.1 hi
      rw [hall _ (by omega), hall 0 (by omega), sub_self, abs_zero]
      norm_num
    rw [Bool.not_eq_false', Bool.or_eq_true, Bool.or_eq_true]
    rcases (by omega : k = 0 ∨ k = 1 ∨ k = 2) with rfl | rfl | rfl
    · exact Or.inl (Or.inl this)
    · exact Or.inl (Or.inr this)
    · exact Or.inr this

/-- The positions found are those of the surfaces to split. -/
theorem splitFrom_ok {m : Mesh} (g : Surf → Bool) : ∀ (fs pre : List Surf), (∀ f ∈ fs, toSplit m f = .ok (g f)) →
    m.surfs = pre ++ fs → ∃ l, splitFrom m pre.length fs = .ok l ∧
      l.mapM (m := Except Fault) (fun k => elemAt m.surfs k) = .ok (fs.filter g)
  | [], _, _, _ => ⟨[], rfl, rfl⟩
  | f :: fs, pre, h, hm => by
    obtain ⟨l, h1, h2⟩ := splitFrom_ok g fs (pre ++ [f]) (fun x hx => h x (List.mem_cons_of_mem _ hx)) (by simp [hm])
    rw [List.length_append, List.length_singleton] at h1
    unfold splitFrom
    rw [h f (by simp), h1]
    cases hg : g f
    · exact ⟨l, by simp [Except.bind, Except.map], by rw [h2, List.filter_cons_of_neg (by simp [hg])]⟩
    · refine ⟨(pre.length : Int) :: l, by simp [Except.bind, Except.map], ?_⟩
      have he : elemAt m.surfs (pre.length : Int) = .ok f := by
        rw [elemAt_nat m.surfs pre.length (by simp [hm])]
        congr 1
        simp [hm]
      rw [List.mapM_cons, he, h2, List.filter_cons_of_pos (by simp [hg])]
      rfl

end RSVS.FaceFan
