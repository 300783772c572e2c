import Verif.Lemmas.EndPass

/-!
# C133: the end of a pass of the clean-up of a snake
-/

namespace RSVS.Props

open RSVS RSVS.Spec RSVS.Mesh RSVS.EndPass

/-- **C133**, when the kept edges still have their two ends and are not to be removed themselves: if the elements which are
not to be removed are sound among themselves, the end of a pass leaves a sound mesh of exactly those elements, less the
kept edges which collapsed and the surfaces and vertices which thereby have no edge left.  Who lists whom is otherwise as before, and the
lists of snaxels, snake edges and snake surfaces stay in step with the mesh.  Missing: the kept edges of the edits of
vertices, which have lost their ends (`C113_collapsed_violated`). -/
theorem C133_end_pass_partial (s : Parts) (keeps : List Int) (d : Removals) (hd : SoundWithout s.conn d)
    (short : ∀ e ∈ s.conn.edges, e.vertind.length ≤ 2)
    (hk : ∀ k ∈ keeps, k ∉ d.edges ∧ ∃ x ∈ s.conn.edges, x.index = k ∧ x.vertind.length = 2) :
    ∃ r, endPass s keeps d = .ok r ∧ Sound r.conn ∧ PassEnded s.conn r.conn keeps d ∧
      (s.snaxs = s.conn.verts.map Vert.index → r.snaxs = r.conn.verts.map Vert.index) ∧
      (s.snaxedges = s.conn.edges.map Edge.index → r.snaxedges = r.conn.edges.map Edge.index) ∧
      (s.snaxsurfs = s.conn.surfs.map Surf.index → r.snaxsurfs = r.conn.surfs.map Surf.index) := by
  obtain ⟨r, all, h1, h2, h3, h4, h5, h6, h7, h8, h9⟩ := endPass_ok hd short hk
  exact ⟨r, h1, h2, h3, fun h => by rw [h4, h7, h], fun h => by rw [h5, h8, h], fun h => by rw [h6, h9, h]⟩

/-- **C133** (nothing bare) After it every vertex and every surface has an edge, and no kept edge joins a vertex to itself. -/
theorem C133_nothing_bare (s : Parts) (keeps : List Int) (d : Removals) (hd : SoundWithout s.conn d)
    (short : ∀ e ∈ s.conn.edges, e.vertind.length ≤ 2)
    (hk : ∀ k ∈ keeps, k ∉ d.edges ∧ ∃ x ∈ s.conn.edges, x.index = k ∧ x.vertind.length = 2) (r : Parts) (h : endPass s keeps d = .ok r) :
    (∀ v ∈ r.conn.verts, v.edgeind ≠ []) ∧ (∀ f ∈ r.conn.surfs, f.edgeind ≠ []) ∧
      ∀ x ∈ r.conn.edges, x.index ∈ keeps → ∃ a b, x.vertind = [a, b] ∧ a ≠ b := by
  obtain ⟨r', all, h1, h2, h3, -⟩ := endPass_ok hd short hk
  rw [h] at h1
  cases h1
  refine ⟨fun v hv hn => ?_, fun f hf hn => ?_, fun x hx hxk => ?_⟩
  · have hv' : HasVert r.conn v.index := ⟨v, hv, rfl⟩
    obtain ⟨g1, g2, e, g3, g4⟩ := (h3.verts _).1 hv'
    have hve : VertEdge (without s.conn d) v.index e := (vertEdge_without _ _).2 ⟨g3, g2⟩
    have he := hasEdge_without.1 (hd.rest.noDangling.vertEdge _ _ hve fun h0 => hd.rest.zeroOutside.vertEdge _ (h0 ▸ hve))
    obtain ⟨y, hy, hyi, hye⟩ := (h3.vertEdge v.index e).2 ⟨g3, hv', (h3.edges e).2 ⟨he.1, he.2, g4⟩⟩
    rw [inj_of_nodup h2.unique.verts hy hv hyi, hn] at hye
    simp at hye
  · have hv' : HasSurf r.conn f.index := ⟨f, hf, rfl⟩
    obtain ⟨g1, g2, e, g3, g4⟩ := (h3.surfs _).1 hv'
    have hve : SurfEdge (without s.conn d) f.index e := (surfEdge_without _ _).2 ⟨g3, g2⟩
    have he := hasEdge_without.1 (hd.rest.noDangling.surfEdge _ _ hve)
    obtain ⟨y, hy, hyi, hye⟩ := (h3.surfEdge f.index e).2 ⟨g3, (h3.edges e).2 ⟨he.1, he.2, g4⟩, hv'⟩
    rw [inj_of_nodup h2.unique.surfs hy hf hyi, hn] at hye
    simp at hye
  · obtain ⟨y, hy, hyi, hyv⟩ := h3.ends x hx
    obtain ⟨z, hz, hzi, hzl⟩ := (hk _ hxk).2
    obtain rfl := inj_of_nodup hd.unique.edges hz hy (hzi.trans hyi.symm)
    have hc := ((h3.edges x.index).1 ⟨x, hx, rfl⟩).2.2
    match hzv : z.vertind, hzl with
    | [a, b], _ =>
      refine ⟨a, b, by rw [← hyv, hzv], fun hab => hc ⟨hxk, z, hz, hzi, a, by rw [hzv, hab]⟩⟩

/-- **C133, violated** for volumes: they are not looked at.  A volume which is not to be removed stays, with no surface left, when all
the edges of its surfaces collapse. -/
theorem C133_empty_volume_violated (s : Parts) (keeps : List Int) (d : Removals) (hd : SoundWithout s.conn d)
    (short : ∀ e ∈ s.conn.edges, e.vertind.length ≤ 2)
    (hk : ∀ k ∈ keeps, k ∉ d.edges ∧ ∃ x ∈ s.conn.edges, x.index = k ∧ x.vertind.length = 2) (c : Int) (hc : HasVolu s.conn c)
    (hcd : c ∉ d.volus) (hall : ∀ f e, VoluSurf s.conn c f → SurfEdge s.conn f e → Collapses s.conn keeps e) :
    ∃ r, endPass s keeps d = .ok r ∧ ∃ x ∈ r.conn.volus, x.index = c ∧ x.surfind = [] := by
  obtain ⟨r, all, h1, h2, h3, -⟩ := endPass_ok hd short hk
  obtain ⟨x, hx, hxi⟩ := (h3.volus c).2 ⟨hc, hcd⟩
  refine ⟨r, h1, x, hx, hxi, List.eq_nil_iff_forall_not_mem.2 fun f hf => ?_⟩
  obtain ⟨g1, g2, -⟩ := (h3.voluSurf c f).1 ⟨x, hx, hxi, hf⟩
  obtain ⟨-, -, e, g3, g4⟩ := (h3.surfs f).1 g2
  exact g4 (hall f e g1 g3)

/-- A triangle with edges 11, 12 and 13; edge 15 was joined to edge 11 and still lists what it joined; vertex 4 was joined to vertex 2, and
edge 14 between them is now collapsed, alone in surface 22, which is alone in volume 32. -/
def leftBehind : Parts where
  conn :=
    { verts := [{ index := 1, edgeind := [11, 13] }, { index := 2, edgeind := [11, 12, 14] }, { index := 3, edgeind := [12, 13] }, { index := 4, edgeind := [] }],
      edges := [{ index := 11, vertind := [1, 2], surfind := [21] }, { index := 12, vertind := [2, 3], surfind := [21] },
        { index := 13, vertind := [3, 1], surfind := [21] }, { index := 14, vertind := [2, 2], surfind := [22] },
        { index := 15, vertind := [1, 2], surfind := [21] }],
      surfs := [{ index := 21, edgeind := [11, 12, 13], voluind := [0, 31] }, { index := 22, edgeind := [14], voluind := [31, 32] }],
      volus := [{ index := 31, surfind := [21, 22] }, { index := 32, surfind := [22] }] }
  snaxs := [1, 2, 3, 4]
  snaxedges := [11, 12, 13, 14, 15]
  snaxsurfs := [21, 22]

def leftOut : Removals := ⟨[4], [15], [], []⟩

/-- What is left of it at the end of the pass. -/
def cleared : Parts where
  conn :=
    { verts := [{ index := 1, edgeind := [11, 13] }, { index := 2, edgeind := [11, 12] }, { index := 3, edgeind := [12, 13] }],
      edges := [{ index := 11, vertind := [1, 2], surfind := [21] }, { index := 12, vertind := [2, 3], surfind := [21] },
        { index := 13, vertind := [3, 1], surfind := [21] }],
      surfs := [{ index := 21, edgeind := [11, 12, 13], voluind := [0, 31] }],
      volus := [{ index := 31, surfind := [21] }, { index := 32, surfind := [] }] }
  snaxs := [1, 2, 3]
  snaxedges := [11, 12, 13]
  snaxsurfs := [21]

theorem leftBehind_sound : SoundWithout leftBehind.conn leftOut where
  unique := ⟨by decide, by decide, by decide, by decide⟩
  pos := ⟨by simp only [HasVert, leftBehind, List.mem_cons, List.not_mem_nil, or_false, exists_eq_or_imp, exists_eq_left]; intros; omega, by simp only [HasEdge, leftBehind, List.mem_cons, List.not_mem_nil, or_false, exists_eq_or_imp, exists_eq_left]; intros; omega, by simp only [HasSurf, leftBehind, List.mem_cons, List.not_mem_nil, or_false, exists_eq_or_imp, exists_eq_left]; intros; omega, by simp only [HasVolu, leftBehind, List.mem_cons, List.not_mem_nil, or_false, exists_eq_or_imp, exists_eq_left]; intros; omega⟩
  verts := by simp [HasVert, leftBehind, leftOut]
  edges := by simp [HasEdge, leftBehind, leftOut]
  surfs := by simp [leftOut]
  volus := by simp [leftOut]
  rest := sound_of_checked (by decide +kernel)

theorem leftBehind_keeps : ∀ k ∈ ([11, 14] : List Int), k ∉ leftOut.edges ∧ ∃ x ∈ leftBehind.conn.edges, x.index = k ∧ x.vertind.length = 2 := by
  decide +kernel

/-- What is left of it. -/
example : ∃ r, endPass leftBehind [11, 14] leftOut = .ok r ∧ Sound r.conn ∧ r.snaxs = [1, 2, 3] ∧ r.snaxedges = [11, 12, 13] ∧
    r.snaxsurfs = [21] ∧ r.conn.verts.map Vert.edgeind = [[11, 13], [11, 12], [12, 13]] ∧ r.conn.volus.map Volu.surfind = [[21], []] := by
  obtain ⟨r, h1, h2, -⟩ := C133_end_pass_partial leftBehind [11, 14] leftOut leftBehind_sound (by decide +kernel) leftBehind_keeps
  have h := h1
  have e : endPass leftBehind [11, 14] leftOut = .ok cleared := by decide +kernel
  rw [e] at h
  cases h
  exact ⟨_, e, h2, rfl, rfl, rfl, rfl, rfl⟩

/-- Volume 32 is left with no surface. -/
example : ∃ r, endPass leftBehind [11, 14] leftOut = .ok r ∧ ∃ x ∈ r.conn.volus, x.index = 32 ∧ x.surfind = [] :=
  C133_empty_volume_violated leftBehind [11, 14] leftOut leftBehind_sound (by decide +kernel) leftBehind_keeps 32 ⟨{ index := 32, surfind := [22] }, by decide +kernel, rfl⟩
    (by decide) (by
      rintro f e ⟨x, hx, hxi, hf⟩ ⟨y, hy, hyi, he⟩
      simp only [leftBehind, List.mem_cons, List.not_mem_nil, or_false] at hx hy
      rcases hx with rfl | rfl
      · simp at hxi
      · simp only [List.mem_singleton] at hf
        subst hf
        rcases hy with rfl | rfl
        · simp at hyi
        · simp only [List.mem_singleton] at he
          subst he
          exact ⟨by simp, { index := 14, vertind := [2, 2], surfind := [22] }, by decide +kernel, rfl, 2, rfl⟩)

end RSVS.Props
