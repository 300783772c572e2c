import Verif.Lemmas.MergeVolu

/-!
# C112: volumes of the snake around a vertex to remove are merged
-/

namespace RSVS.Props

open RSVS RSVS.Spec RSVS.Mesh RSVS.MergeVolu

/-- **C112** `ModifyMergVoluConnec`: volumes joined by a chain of vertices to remove become one volume,
called by the least of the chain, and no others.  Only the volumes listed by the surfaces and the surfaces
listed by the volumes change, and the outside (0) is never merged.  Volumes still list the surfaces which
list them, and list no surfaces but those of the volumes of their chain.  A volume is in the edits as removed exactly when it changes its name, once only, and each edit
keeps a lower volume of the same chain. -/
theorem C112_merge (m : Mesh) (rmv : List Int) (hr : VoluReady m rmv) :
    ∃ m' E name, modifyMergVolu m rmv = .ok (m', E) ∧ VolusRenamed m m' name ∧ LeastOfChain m rmv name ∧
      (∀ c s, VoluSurf m' c s → ∃ c0, VoluSurf m c0 s ∧ VoluChain m rmv c c0) ∧ (∀ c, (∃ d ∈ E, c ∈ d.rmv) ↔ name c ≠ c) ∧ (E.flatMap VoluEdit.rmv).Nodup ∧
      ∀ d ∈ E, d.rmv ≠ [] ∧ ∀ c ∈ d.rmv, d.keep < c ∧ VoluChain m rmv d.keep c := by
  obtain ⟨m', name, E, h1, h2⟩ := merge_ok hr
  refine ⟨m', E, name, h1, h2.st.ren, ⟨h2.st.zero, fun c => ⟨h2.chain c, fun c' hc => ?_⟩⟩, h2.st.lists, ?_, h2.nodup, h2.edits⟩
  · rw [h2.const hc]
    exact h2.le c'
  · intro c
    rw [← h2.removed c, List.mem_flatMap]

/-- Afterwards there is at most one volume around each vertex to remove. -/
theorem C112_one (m : Mesh) (rmv : List Int) (hr : VoluReady m rmv) (m' : Mesh) (E : List VoluEdit)
    (h : modifyMergVolu m rmv = .ok (m', E)) (v : Int) (hv : v ∈ rmv) (c c' : Int) (hc : Around m' v c) (hc' : Around m' v c') : c = c' := by
  obtain ⟨m1, name, E1, h1, h2⟩ := merge_ok hr
  rw [h] at h1
  cases h1
  have key : ∀ c, Around m' v c → ∃ a, Around m v a ∧ name a = c := by
    rintro c ⟨h0, e, s, ⟨x, hx, b1, b2⟩, ⟨y, hy, b3, b4⟩, hs⟩
    obtain ⟨a, ha, rfl⟩ := (surfVolu_iff h2.st).mp hs
    rw [h2.st.ren.verts] at hx
    rw [h2.st.ren.edges] at hy
    refine ⟨a, ⟨?_, e, s, ⟨x, hx, b1, b2⟩, ⟨y, hy, b3, b4⟩, ha⟩, rfl⟩
    rintro rfl
    exact h0 h2.st.zero
  obtain ⟨a, ha, rfl⟩ := key c hc
  obtain ⟨b, hb, rfl⟩ := key c' hc'
  exact h2.same v hv a b ha hb

/-- Nothing changes when there is at most one volume around each vertex. -/
theorem C112_none (m : Mesh) (rmv : List Int) (hr : VoluReady m rmv)
    (hno : ∀ v ∈ rmv, ∀ c c', Around m v c → Around m v c' → c = c') : ∃ m', modifyMergVolu m rmv = .ok (m', []) ∧ m'.surfs = m.surfs := by
  obtain ⟨m', name, E, h1, h2⟩ := merge_ok hr
  have hid : name = id := by
    funext c
    have : ∀ {c' : Int}, VoluChain m rmv c c' → c = c' := by
      intro c' hc
      induction hc with
      | refl => rfl
      | tail _ hbc ih =>
        obtain ⟨v, hv, h3, h4⟩ := hbc
        exact ih.trans (hno v hv _ _ h3 h4)
    exact (this (h2.chain c)).symm
  have hE : E = [] := by
    cases E with
    | nil => rfl
    | cons d l =>
      exfalso
      obtain ⟨c, hc⟩ := List.exists_mem_of_ne_nil _ (h2.edits d (by simp)).1
      refine (h2.removed c).mp (List.mem_flatMap.mpr ⟨d, by simp, hc⟩) ?_
      rw [hid]
      rfl
  subst hE
  refine ⟨m', h1, ?_⟩
  rw [h2.st.ren.surfs, hid]
  simp

/-- Three volumes, 5 and 4 around vertex 1, 4 and 3 around vertex 2. -/
def threeVolus : Mesh :=
  { verts := [{ index := 1, edgeind := [1] }, { index := 2, edgeind := [2] }],
    edges := [{ index := 1, vertind := [1, 7], surfind := [1, 2] }, { index := 2, vertind := [2, 8], surfind := [2, 3] }],
    surfs := [{ index := 1, edgeind := [1], voluind := [0, 5] }, { index := 2, edgeind := [1, 2], voluind := [0, 4] }, { index := 3, edgeind := [2], voluind := [3, 0] }],
    volus := [{ index := 3, surfind := [3] }, { index := 4, surfind := [2] }, { index := 5, surfind := [1] }] }

theorem threeVolus_ready : VoluReady threeVolus [1, 2] := by
  refine ⟨⟨by decide, by decide, by decide, by decide⟩, ?_, ?_, ?_, ?_, ?_, ?_⟩
  all_goals
    simp only [HasVert, HasEdge, HasSurf, HasVolu, VertEdge, EdgeSurf, SurfVolu, VoluSurf, threeVolus, List.mem_cons, List.not_mem_nil, or_false,
      exists_eq_or_imp, exists_eq_left]
    intros
    omega

example : ∃ m', modifyMergVolu threeVolus [1, 2] = .ok (m', [⟨4, [5]⟩, ⟨3, [4]⟩]) ∧ m'.surfs.map Surf.voluind = [[0, 3], [0, 3], [3, 0]] ∧
    m'.volus.map Volu.surfind = [[3, 2, 1], [2, 1], [1]] :=
  ⟨_, rfl, by decide +kernel, by decide +kernel⟩

example (m' : Mesh) (E : List VoluEdit) (h : modifyMergVolu threeVolus [1, 2] = .ok (m', E)) : ∀ c c', Around m' 2 c → Around m' 2 c' → c = c' :=
  C112_one _ _ threeVolus_ready m' E h 2 (by simp)

example : ∃ m', modifyMergVolu threeVolus [] = .ok (m', []) ∧ m'.surfs = threeVolus.surfs :=
  C112_none threeVolus [] ⟨threeVolus_ready.unique, by simp, by simp, by simp, threeVolus_ready.volus, threeVolus_ready.back, threeVolus_ready.known⟩ (by simp)

end RSVS.Props
