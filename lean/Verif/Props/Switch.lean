import Verif.Lemmas.Switch

/-!
# C134: the switch of an edge, a surface or a volume for another
-/

namespace RSVS.Props

open RSVS RSVS.Spec RSVS.Mesh RSVS.EndPass RSVS.Switch

/-- **C134** for surfaces: `SwitchIndex` of a surface for another always succeeds; the new surface takes the place of the old one and
gets its edges and volumes, and without the old surface the mesh is as sound as it was. -/
theorem C134_surface (m : Mesh) (d : Removals) (old new : Int) (hd : SoundWithout m d) (hne : old ≠ new) (ho : HasSurf m old) (hod : old ∉ d.surfs)
    (hn : HasSurf m new) (hnd : new ∉ d.surfs) :
    ∃ m', m.switchSurf old new = .ok m' ∧ SurfMerged m m' d old new ∧ SoundWithout m' { d with surfs := old :: d.surfs } := by
  obtain ⟨m', h1, h2, h3, -⟩ := surf_ok hd hne ho hod hn hnd
  exact ⟨m', h1, h2, h3⟩

/-- **C134** for volumes. -/
theorem C134_volume (m : Mesh) (d : Removals) (old new : Int) (hd : SoundWithout m d) (hne : old ≠ new) (ho : HasVolu m old) (hod : old ∉ d.volus)
    (hn : HasVolu m new) (hnd : new ∉ d.volus) :
    ∃ m', m.switchVolu old new = .ok m' ∧ VoluMerged m m' d old new ∧ SoundWithout m' { d with volus := old :: d.volus } :=
  volu_ok hd hne ho hod hn hnd

/-- **C134** for edges, if the old edge is not on the outside of a mesh with volumes: the new edge takes the place of the old one and
gets its surfaces, but not its ends.  Without the old edge the mesh is sound exactly when each end of the old edge is an end of the new one. -/
theorem C134_edge_partial (m : Mesh) (d : Removals) (old new : Int) (hd : SoundWithout m d) (hne : old ≠ new) (ho : HasEdge m old)
    (hod : old ∉ d.edges) (hn : HasEdge m new) (hnd : new ∉ d.edges) (h0 : EdgeSurf m old 0 → m.volus = []) :
    ∃ m', m.switchEdge old new = .ok m' ∧ EdgeMerged m m' d old new ∧
      (SoundWithout m' { d with edges := old :: d.edges } ↔ ∀ v, EdgeVert m old v → EdgeVert m new v) := by
  obtain ⟨m', h1, h2, h3, -⟩ := edge_ok hd hne ho hod hn hnd h0
  exact ⟨m', h1, h2, h3⟩

/-- **C134, violated** for edges on the outside of a mesh with volumes: the switch of an edge with surface 0 in its list throws.  In a mesh
without volumes it does not. -/
theorem C134_outside_violated (m : Mesh) (old new : Int) (hm : Sound m) (ho : EdgeSurf m old 0) (hc : m.volus ≠ []) :
    ∃ f, m.switchEdge old new = .error f := by
  obtain ⟨oe, hoe, hoi, hmem⟩ := ho
  obtain ⟨oe', h1, h2, h3⟩ := elemAt_posOf_ok (ix := Edge.index) (l := m.edges) ⟨oe, hoe, hoi⟩
  obtain rfl := inj_of_nodup hm.unique.edges h2 hoe (h3.trans hoi.symm)
  have key : ∀ (l : List Int), (-1 : Int) ∈ l → ∀ s, ∃ f, l.foldlM (m := Except Fault) (switchEdgeStep (!m.volus.isEmpty) old new (posOf Edge.index m.edges new)) s = .error f := by
    intro l
    induction l with
    | nil => intro h; simp at h
    | cons a l ih =>
      intro h s
      rw [List.foldlM_cons]
      cases hs : switchEdgeStep (!m.volus.isEmpty) old new (posOf Edge.index m.edges new) s a with
      | error f => exact ⟨f, rfl⟩
      | ok s' =>
        rcases List.mem_cons.1 h with rfl | h
        · exfalso
          unfold switchEdgeStep at hs
          rw [if_pos (by right; simpa using hc)] at hs
          cases hs
        · exact ih h s'
  have hno : ¬ HasSurf m 0 := fun h => by have := hm.pos.surfs 0 h; omega
  unfold switchEdge
  simp only [h1]
  show ∃ f, (visit _ _ _ >>= fun verts => _) = _
  cases visit m.verts (posList Vert.index m.verts oe'.vertind) (fun v => { v with edgeind := replaceAll old new v.edgeind }) with
  | error f => exact ⟨f, rfl⟩
  | ok verts =>
    obtain ⟨f, hf⟩ := key (posList Surf.index m.surfs oe'.surfind) (List.mem_map.2 ⟨0, hmem, posOf_none hno⟩) (m.edges, m.surfs)
    refine ⟨f, ?_⟩
    show (List.foldlM (m := Except Fault) _ _ _ >>= fun _ => _) = _
    rw [hf]
    rfl

/-- **C134** (and C133): an edge is switched for one with the same ends, and the end of the pass removes it.  The mesh is then sound, of all the
elements but the old edge, and of the elements kept none is without edges. -/
theorem C134_merge_edges (s : Parts) (old new a b : Int) (hm : Sound s.conn) (hne : old ≠ new) (hab : a ≠ b)
    (ho : ∃ x ∈ s.conn.edges, x.index = old ∧ x.vertind = [a, b]) (hn : ∃ x ∈ s.conn.edges, x.index = new ∧ (x.vertind = [a, b] ∨ x.vertind = [b, a]))
    (short : ∀ e ∈ s.conn.edges, e.vertind.length ≤ 2) (h0 : EdgeSurf s.conn old 0 → s.conn.volus = []) :
    ∃ m' r, s.conn.switchEdge old new = .ok m' ∧ endPass { s with conn := m' } [new] ⟨[], [old], [], []⟩ = .ok r ∧ Sound r.conn ∧
      (∀ e, HasEdge r.conn e ↔ HasEdge s.conn e ∧ e ≠ old) ∧
      (∀ f e, SurfEdge s.conn f e → HasSurf r.conn f ∧ SurfEdge r.conn f (if e = old then new else e)) ∧
      (∀ v e, VertEdge s.conn v e → HasVert r.conn v ∧ VertEdge r.conn v (if e = old then new else e)) := by
  obtain ⟨x, hx, hxi, hxv⟩ := ho
  obtain ⟨y, hy, hyi, hyv⟩ := hn
  have hd : SoundWithout s.conn ⟨[], [], [], []⟩ := soundWithout_mk hm.unique hm.pos (by simp) (by simp) (by simp) (by simp)
    (fun v e => by simpa using FaceFan.sound_ve hm v e) (fun e f => by simpa using FaceFan.sound_es hm e f) (fun f c => by simpa using FaceFan.sound_sc hm f c)
  obtain ⟨m', h1, h2, h3, h4, h5, -⟩ := edge_ok hd hne ⟨x, hx, hxi⟩ (by simp) ⟨y, hy, hyi⟩ (by simp) h0
  have hS : SoundWithout m' ⟨[], [old], [], []⟩ := h3.2 fun v hv => by
    obtain ⟨z, hz, hzi, hzv⟩ := hv
    rw [inj_of_nodup hm.unique.edges hz hx (hzi.trans hxi.symm), hxv] at hzv
    refine ⟨y, hy, hyi, ?_⟩
    rcases hyv with h | h <;> rw [h] <;> simp at hzv ⊢
    · exact hzv
    · exact hzv.symm
  have hends : ∀ z ∈ m'.edges, ∃ w ∈ s.conn.edges, w.index = z.index ∧ w.vertind = z.vertind := by
    intro z hz
    obtain ⟨i, hi, rfl⟩ := List.getElem_of_mem hz
    have hl : m'.edges.length = s.conn.edges.length := by simpa using congrArg List.length h5
    refine ⟨s.conn.edges[i]'(hl ▸ hi), List.getElem_mem _, ?_, ?_⟩
    · have := congrArg (fun l => l[i]?) h4.edges
      simpa [hi, hl ▸ hi] using this.symm
    · have := congrArg (fun l => l[i]?) h5
      simpa [hi, hl ▸ hi] using this.symm
  have hnew : ∀ z ∈ m'.edges, z.index = new → z.vertind = [a, b] ∨ z.vertind = [b, a] := by
    intro z hz hi
    obtain ⟨w, hw, g1, g2⟩ := hends z hz
    rw [inj_of_nodup hm.unique.edges hw hy ((g1.trans hi).trans hyi.symm)] at g2
    rw [← g2]; exact hyv
  have hnc : ∀ e, ¬ Collapses m' [new] e := by
    rintro e ⟨g1, z, hz, hzi, v, hv⟩
    rw [List.mem_singleton] at g1
    rcases hnew z hz (hzi.trans g1) with h | h <;> rw [h] at hv <;> simp at hv
    · exact hab (hv.1.trans hv.2.symm)
    · exact hab (hv.2.trans hv.1.symm)
  obtain ⟨r, all, k1, k2, k3, -⟩ := endPass_ok (s := { s with conn := m' }) (keeps := [new]) (d := ⟨[], [old], [], []⟩) hS
    (fun z hz => by obtain ⟨w, hw, -, g⟩ := hends z hz; rw [← g]; exact short w hw)
    (by
      intro k hk
      rw [List.mem_singleton] at hk
      subst hk
      obtain ⟨z, hz, hzi⟩ := (h2.same.edges k).2 ⟨y, hy, hyi⟩
      refine ⟨by simpa using hne.symm, z, hz, hzi, ?_⟩
      rcases hnew z hz hzi with h | h <;> rw [h] <;> rfl)
  have hE : ∀ e, HasEdge r.conn e ↔ HasEdge s.conn e ∧ e ≠ old := fun e => by
    rw [k3.edges, h2.same.edges]
    simp [hnc e]
  have hre : ∀ e, HasEdge s.conn e → HasEdge r.conn (if e = old then new else e) := fun e he => by
    rw [hE]
    split
    · exact ⟨⟨y, hy, hyi⟩, hne.symm⟩
    · rename_i h; exact ⟨he, h⟩
  refine ⟨m', r, h1, k1, k2, hE, fun f e hfe => ?_, fun v e hve => ?_⟩
  · have g : SurfEdge m' f (if e = old then new else e) := by
      rw [h2.surfEdge _ _ (by simp)]
      split
      · rename_i h; exact .inr ⟨rfl, h ▸ hfe⟩
      · rename_i h; exact .inl ⟨hfe, h⟩
    obtain ⟨z, hz, hzi, hze⟩ := hfe
    have hf : HasSurf r.conn f := (k3.surfs f).2 ⟨(h2.same.surfs f).2 ⟨z, hz, hzi⟩, by simp, _, g, hnc _⟩
    exact ⟨hf, (k3.surfEdge _ _).2 ⟨g, hre e (hm.noDangling.surfEdge f e ⟨z, hz, hzi, hze⟩), hf⟩⟩
  · have g : VertEdge m' v (if e = old then new else e) := by
      rw [h2.vertEdge _ _ (by simp)]
      split
      · rename_i h; exact .inr ⟨rfl, h ▸ hve⟩
      · rename_i h; exact .inl ⟨hve, h⟩
    have he := hm.noDangling.vertEdge v e hve fun h => hm.zeroOutside.vertEdge v (h ▸ hve)
    obtain ⟨z, hz, hzi, hze⟩ := hve
    have hf : HasVert r.conn v := (k3.verts v).2 ⟨(h2.same.verts v).2 ⟨z, hz, hzi⟩, by simp, _, g, hnc _⟩
    exact ⟨hf, (k3.vertEdge _ _).2 ⟨g, hf, hre e he⟩⟩

/-- Two triangles in the plane, sharing the edge between vertices 1 and 2, which is there twice: edges 11 and 15. -/
def doubled : Mesh where
  verts := [{ index := 1, edgeind := [11, 13, 14, 15] }, { index := 2, edgeind := [11, 12, 15, 16] }, { index := 3, edgeind := [12, 13] },
    { index := 4, edgeind := [14, 16] }]
  edges := [{ index := 11, vertind := [1, 2], surfind := [21, 0] }, { index := 12, vertind := [2, 3], surfind := [21, 0] },
    { index := 13, vertind := [3, 1], surfind := [21, 0] }, { index := 14, vertind := [1, 4], surfind := [22, 0] },
    { index := 15, vertind := [2, 1], surfind := [22, 0] }, { index := 16, vertind := [4, 2], surfind := [22, 0] }]
  surfs := [{ index := 21, edgeind := [11, 12, 13], voluind := [0, 0] }, { index := 22, edgeind := [14, 15, 16], voluind := [0, 0] }]
  volus := []

def doubledParts : Parts := ⟨doubled, [1, 2, 3, 4], [11, 12, 13, 14, 15, 16], [21, 22]⟩

theorem doubled_sound : Sound doubled := sound_of_checked (by decide +kernel)

theorem doubled_without : SoundWithout doubled ⟨[], [], [], []⟩ :=
  soundWithout_mk doubled_sound.unique doubled_sound.pos (by simp) (by simp) (by simp) (by simp) (fun v e => by simpa using FaceFan.sound_ve doubled_sound v e)
    (fun e f => by simpa using FaceFan.sound_es doubled_sound e f) (fun f c => by simpa using FaceFan.sound_sc doubled_sound f c)

/-- The two become one edge, and surface 22 has edge 11 in the place of 15. -/
example : ∃ m' r, doubled.switchEdge 15 11 = .ok m' ∧ endPass { doubledParts with conn := m' } [11] ⟨[], [15], [], []⟩ = .ok r ∧ Sound r.conn ∧
    SurfEdge r.conn 22 11 ∧ ¬ HasEdge r.conn 15 := by
  obtain ⟨m', r, h1, h2, h3, h4, h5, -⟩ := C134_merge_edges doubledParts 15 11 2 1 doubled_sound (by decide) (by decide)
    ⟨{ index := 15, vertind := [2, 1], surfind := [22, 0] }, by decide +kernel, rfl, rfl⟩
    ⟨{ index := 11, vertind := [1, 2], surfind := [21, 0] }, by decide +kernel, rfl, .inr rfl⟩ (by decide +kernel) (fun _ => rfl)
  exact ⟨m', r, h1, h2, h3, (h5 22 15 ⟨{ index := 22, edgeind := [14, 15, 16], voluind := [0, 0] }, by decide +kernel, rfl, by decide⟩).2, fun h => ((h4 15).1 h).2 rfl⟩

/-- **C134, violated** when the ends differ: edge 12 for edge 11 succeeds, and without edge 12 the mesh is not sound, since vertex 3
lists edge 11, which does not end there. -/
theorem C134_ends_violated : ∃ m', doubled.switchEdge 12 11 = .ok m' ∧ ¬ SoundWithout m' ⟨[], [12], [], []⟩ ∧ VertEdge m' 3 11 ∧ ¬ EdgeVert m' 11 3 := by
  obtain ⟨m', h1, h2, h3⟩ := C134_edge_partial doubled ⟨[], [], [], []⟩ 12 11 doubled_without (by decide)
    ⟨{ index := 12, vertind := [2, 3], surfind := [21, 0] }, by decide +kernel, rfl⟩ (by simp)
    ⟨{ index := 11, vertind := [1, 2], surfind := [21, 0] }, by decide +kernel, rfl⟩ (by simp) (fun _ => rfl)
  have hno : ¬ EdgeVert doubled 11 3 := by
    rintro ⟨x, hx, hi, h⟩
    simp only [doubled, List.mem_cons, List.not_mem_nil, or_false] at hx
    rcases hx with rfl | rfl | rfl | rfl | rfl | rfl <;> simp at hi h
  refine ⟨m', h1, fun h => hno (h3.1 h 3 ⟨{ index := 12, vertind := [2, 3], surfind := [21, 0] }, by decide +kernel, rfl, by simp⟩), ?_, ?_⟩
  · exact (h2.vertEdge 3 11 (by simp)).2 (.inr ⟨rfl, { index := 3, edgeind := [12, 13] }, by decide +kernel, rfl, by simp⟩)
  · rw [h2.edgeVert]; exact hno

/-- The two triangles as the faces of two volumes. -/
def doubledSolid : Mesh := { doubled with
  surfs := [{ index := 21, edgeind := [11, 12, 13], voluind := [31, 0] }, { index := 22, edgeind := [14, 15, 16], voluind := [32, 31] }]
  volus := [{ index := 31, surfind := [21, 22] }, { index := 32, surfind := [22] }] }

theorem doubledSolid_sound : Sound doubledSolid := sound_of_checked (by decide +kernel)

theorem doubledSolid_without : SoundWithout doubledSolid ⟨[], [], [], []⟩ :=
  soundWithout_mk doubledSolid_sound.unique doubledSolid_sound.pos (by simp) (by simp) (by simp) (by simp)
    (fun v e => by simpa using FaceFan.sound_ve doubledSolid_sound v e)
    (fun e f => by simpa using FaceFan.sound_es doubledSolid_sound e f) (fun f c => by simpa using FaceFan.sound_sc doubledSolid_sound f c)

/-- With volumes the same switch throws. -/
example : ∃ f, doubledSolid.switchEdge 15 11 = .error f :=
  C134_outside_violated doubledSolid 15 11 doubledSolid_sound ⟨{ index := 15, vertind := [2, 1], surfind := [22, 0] }, by decide +kernel, rfl, by simp⟩ (by simp [doubledSolid])

example : doubledSolid.switchEdge 15 11 = .error .throws := by decide +kernel

/-- Surface 22 for surface 21: surface 21 gets the edges of both and is of both volumes. -/
example : ∃ m', doubledSolid.switchSurf 22 21 = .ok m' ∧ SoundWithout m' ⟨[], [], [22], []⟩ ∧ SurfEdge m' 21 14 ∧ VoluSurf m' 32 21 := by
  obtain ⟨m', h1, h2, h3⟩ := C134_surface doubledSolid ⟨[], [], [], []⟩ 22 21 doubledSolid_without (by decide)
    ⟨{ index := 22, edgeind := [14, 15, 16], voluind := [32, 31] }, by decide +kernel, rfl⟩ (by simp)
    ⟨{ index := 21, edgeind := [11, 12, 13], voluind := [31, 0] }, by decide +kernel, rfl⟩ (by simp)
  exact ⟨m', h1, h3, (h2.surfEdge 21 14 (by simp)).2 (.inr ⟨rfl, { index := 22, edgeind := [14, 15, 16], voluind := [32, 31] }, by decide +kernel, rfl, by simp⟩),
    (h2.voluSurf 32 21 (by simp)).2 (.inr ⟨rfl, { index := 32, surfind := [22] }, by decide +kernel, rfl, by simp⟩)⟩

/-- Volume 32 for volume 31. -/
example : ∃ m', doubledSolid.switchVolu 32 31 = .ok m' ∧ SoundWithout m' ⟨[], [], [], [32]⟩ ∧ ¬ SurfVolu m' 22 32 := by
  obtain ⟨m', h1, h2, h3⟩ := C134_volume doubledSolid ⟨[], [], [], []⟩ 32 31 doubledSolid_without (by decide)
    ⟨{ index := 32, surfind := [22] }, by decide +kernel, rfl⟩ (by simp)
    ⟨{ index := 31, surfind := [21, 22] }, by decide +kernel, rfl⟩ (by simp)
  exact ⟨m', h1, h3, fun h => by rcases (h2.surfVolu 22 32 (by simp)).1 h with ⟨_, h⟩ | ⟨h, _⟩ <;> simp at h⟩

end RSVS.Props
