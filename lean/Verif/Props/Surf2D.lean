import Verif.Lemmas.Surf2D

/-!
# C114: surfaces of a flat snake which share an edge are merged; C115: the check of edges to remove
-/

namespace RSVS.Props

open RSVS RSVS.Spec RSVS.Mesh RSVS.Surf2D

/-- **C114** `ModifyMergSurf2DConnec`: in a flat mesh surfaces joined by a chain of edges become one
surface, called by one of the chain, and no others.  Only the surfaces listed by the edges and the edges
listed by the surfaces change, and the outside (0) is never merged.  A surface is in the edits as removed
exactly when it changes its name, it is not found in any later edit, and each edit keeps another surface of
the same chain. -/
theorem C114_merge (m : Mesh) (hr : FlatReady m) :
    ∃ m' E name, modifyMergSurf2D m = .ok (m', E) ∧ SurfsRenamed m m' name ∧ OneOfChain m name ∧
      (∀ s, (∃ d ∈ E, s ∈ d.rmv) ↔ name s ≠ s) ∧ (E.Pairwise fun d d' => ∀ s ∈ d.rmv, s ∉ d'.rmv ∧ s ≠ d'.keep) ∧
      ∀ d ∈ E, 0 < d.keep ∧ ∀ s ∈ d.rmv, s ≠ d.keep ∧ SharedChain m d.keep s := by
  obtain ⟨m', name, E, h1, h2⟩ := merge_ok hr
  refine ⟨m', E, name, h1, h2.st.ren, ⟨h2.st.zero, h2.st.inChain, fun s s' hc => h2.const hr hc⟩, ?_, h2.apart, h2.edits⟩
  intro s
  rw [← h2.removed s, List.mem_flatMap]

/-- Afterwards each edge has at most one surface beside it. -/
theorem C114_one (m : Mesh) (hr : FlatReady m) (m' : Mesh) (E : List SurfEdit) (h : modifyMergSurf2D m = .ok (m', E))
    (e s s' : Int) (hs : SideOf m' e s) (hs' : SideOf m' e s') : s = s' := by
  obtain ⟨m1, name, E1, h1, h2⟩ := merge_ok hr
  rw [h] at h1
  cases h1
  have key : ∀ s, SideOf m' e s → ∃ a, SideOf m e a ∧ name a = s := by
    rintro s ⟨h0, hs⟩
    obtain ⟨a, ha, rfl⟩ := (edgeSurf_iff h2.st).mp hs
    refine ⟨a, ⟨?_, ha⟩, rfl⟩
    rintro rfl
    exact h0 h2.st.zero
  obtain ⟨a, ha, rfl⟩ := key s hs
  obtain ⟨b, hb, rfl⟩ := key s' hs'
  exact h2.beside hr ha hb

/-- Nothing changes and there are no edits when each edge lists at most one surface, once. -/
theorem C114_none (m : Mesh) (h : ∀ e ∈ m.edges, (e.surfind.filter fun s => decide (s > 0)).length ≤ 1) : modifyMergSurf2D m = .ok (m, []) :=
  stay_fold _ (fun i hi => ⟨List.mem_range.mp hi, h _ (List.getElem_mem _)⟩) []

/-- Three surfaces in a row, a fourth alone; the outside is listed first, in between and last. -/
def fourFlat : Mesh :=
  { verts := [], volus := [], meshDim := 2,
    edges := [{ index := 1, vertind := [1, 2], surfind := [0, 5, 4] }, { index := 2, vertind := [2, 3], surfind := [3, 0, 5] }, { index := 3, vertind := [3, 4], surfind := [7, 0] }],
    surfs := [{ index := 3, edgeind := [2], voluind := [], isordered := true }, { index := 4, edgeind := [1], voluind := [] },
      { index := 5, edgeind := [1, 2], voluind := [], isordered := true }, { index := 7, edgeind := [3], voluind := [], isordered := true }] }

theorem fourFlat_ready : FlatReady fourFlat := by
  refine ⟨by decide, by decide, rfl, ?_, ?_, ?_⟩
  all_goals
    simp only [HasEdge, HasSurf, EdgeSurf, SurfEdge, fourFlat, List.mem_cons, List.not_mem_nil, or_false, exists_eq_or_imp, exists_eq_left]
    intros
    omega

example : ∃ m', modifyMergSurf2D fourFlat = .ok (m', [⟨5, [4]⟩, ⟨3, [5]⟩]) ∧ m'.edges.map Edge.surfind = [[0, 3, 3], [3, 0, 3], [7, 0]] ∧
    m'.surfs.map Surf.edgeind = [[2, 1, 1, 2], [1], [1, 2, 1], [3]] ∧ m'.surfs.map Surf.isordered = [false, false, false, true] :=
  ⟨_, rfl, by decide +kernel, by decide +kernel, by decide +kernel⟩

example (m' : Mesh) (E : List SurfEdit) (h : modifyMergSurf2D fourFlat = .ok (m', E)) : ∀ s s', SideOf m' 2 s → SideOf m' 2 s' → s = s' :=
  C114_one _ fourFlat_ready m' E h 2

/-- One edge with surfaces 4 and 5. -/
def oneFlat (l : List Int) : Mesh :=
  { verts := [], volus := [], meshDim := 2, edges := [{ index := 1, vertind := [1, 2], surfind := l }],
    surfs := [{ index := 4, edgeind := [1], voluind := [] }, { index := 5, edgeind := [1], voluind := [] }] }

/-- The keeper is the first surface listed, not the least, and a surface can be removed twice by one edit. -/
example : ∃ m', modifyMergSurf2D (oneFlat [5, 4, 4]) = .ok (m', [⟨5, [4, 4]⟩]) := ⟨_, rfl⟩

/-- An edge which lists one surface twice makes an edit which removes nothing. -/
example : modifyMergSurf2D (oneFlat [5, 5]) = .ok (oneFlat [5, 5], [⟨5, []⟩]) := rfl

example : modifyMergSurf2D (oneFlat [0, 4]) = .ok (oneFlat [0, 4], []) := C114_none _ (by decide)

/-! ### C115 -/

/-- **C115** (what the check does) `CheckSnakeRemovalsEdge` reports exactly the edges which list two ends that
are the same vertex and which have at most one surface.  The full claim, that it reports the edges which
break the rule of its comment ("Edge can be removed if it is connected to one surface or one vertex"), is
false: `C115_rule_violated`. -/
theorem C115_reported_partial (m : Mesh) (hu : (m.edges.map Edge.index).Nodup) (rmv : List Int) (hr : ∀ e ∈ rmv, HasEdge m e) :
    ∃ R, checkRemovalsEdge m rmv = .ok R ∧
      ∀ e, e ∈ R ↔ e ∈ rmv ∧ (∃ x ∈ m.edges, x.index = e ∧ 1 < x.vertind.length) ∧ OneVertex m e ∧ OneSurface m e := by
  obtain ⟨R, h1, h2⟩ := check_fold hu rmv [] hr
  exact ⟨R, h1, by simpa using h2⟩

/-- The check is the wrong way round in all meshes: what it reports can be removed by the rule, and what
cannot be removed is never reported. -/
theorem C115_inverted (m : Mesh) (hu : (m.edges.map Edge.index).Nodup) (rmv : List Int) (hr : ∀ e ∈ rmv, HasEdge m e) (R : List Int)
    (h : checkRemovalsEdge m rmv = .ok R) :
    (∀ e ∈ R, OneVertex m e ∧ OneSurface m e) ∧ ∀ e, ¬ (OneVertex m e ∨ OneSurface m e) → e ∉ R := by
  obtain ⟨R', h1, h2⟩ := C115_reported_partial m hu rmv hr
  rw [h] at h1
  cases h1
  exact ⟨fun e he => ((h2 e).mp he).2.2, fun e hn he => hn (Or.inl ((h2 e).mp he).2.2.1)⟩

/-- Edge 1 joins two vertices and two surfaces, edge 2 is collapsed and has one surface. -/
def twoToRemove : Mesh :=
  { verts := [], surfs := [], volus := [],
    edges := [{ index := 1, vertind := [1, 2], surfind := [4, 5] }, { index := 2, vertind := [3, 3], surfind := [4] }] }

/-- The edge which breaks the rule is not reported, and one which does not is. -/
theorem C115_rule_violated : checkRemovalsEdge twoToRemove [1, 2] = .ok [2] ∧
    ¬ (OneVertex twoToRemove 1 ∨ OneSurface twoToRemove 1) ∧ (OneVertex twoToRemove 2 ∨ OneSurface twoToRemove 2) := by
  refine ⟨rfl, ?_, Or.inl ?_⟩
  · rintro (h | h)
    · exact absurd (h 1 2 ⟨_, List.mem_cons_self, rfl, by simp⟩ ⟨_, List.mem_cons_self, rfl, by simp⟩) (by decide)
    · exact absurd (h 4 5 ⟨_, List.mem_cons_self, rfl, by simp⟩ ⟨_, List.mem_cons_self, rfl, by simp⟩) (by decide)
  · simp only [OneVertex, EdgeVert, twoToRemove, List.mem_cons, List.not_mem_nil, or_false, exists_eq_or_imp, exists_eq_left]
    intros
    omega

example : ∃ R, checkRemovalsEdge twoToRemove [1, 2] = .ok R ∧
    ∀ e, e ∈ R ↔ e ∈ [1, 2] ∧ (∃ x ∈ twoToRemove.edges, x.index = e ∧ 1 < x.vertind.length) ∧ OneVertex twoToRemove e ∧ OneSurface twoToRemove e :=
  C115_reported_partial _ (by decide) _ (by simp [HasEdge, twoToRemove])

end RSVS.Props
