import Verif.Lemmas.Mesh

/-!
# Helper lemmas on detaching elements
-/

namespace RSVS.Mesh

open RSVS.Spec

/-- What `RemoveIndex` of an edge gives on a sound mesh. -/
def edgeOff (m : Mesh) (old : Int) : Mesh :=
  { m with
    verts := m.verts.map (fun v => { v with edgeind := eraseAll old v.edgeind })
    surfs := m.surfs.map (fun s => { s with edgeind := eraseAll old s.edgeind,
                                            isordered := s.isordered && !s.edgeind.contains old })
    edges := m.edges.map (fun e => if e.index = old then { e with vertind := [], surfind := [] }
                                   else e) }

/-- What `RemoveIndex` of a surface gives on a sound mesh. -/
def surfOff (m : Mesh) (old : Int) : Mesh :=
  { m with
    edges := m.edges.map (fun e => { e with surfind := eraseAll old e.surfind })
    volus := m.volus.map (fun c => { c with surfind := eraseAll old c.surfind })
    surfs := m.surfs.map (fun s => if s.index = old then { s with edgeind := [], voluind := [] }
                                   else s) }

/-- What `RemoveIndex` of a volume gives on a sound mesh. -/
def voluOff (m : Mesh) (old : Int) : Mesh :=
  { m with
    surfs := m.surfs.map (fun s => { s with voluind := eraseVoluVal old s.voluind })
    volus := m.volus.map (fun c => if c.index = old then { c with surfind := [] } else c) }

theorem inj_of_nodup {α : Type} {ix : α → Int} {l : List α} (h : (l.map ix).Nodup) {a b : α}
    (ha : a ∈ l) (hb : b ∈ l) (hab : ix a = ix b) : a = b :=
  List.inj_on_of_nodup_map h ha hb hab

theorem removeEdge_eq {m : Mesh} (hm : Sound m) {old : Int} (h : HasEdge m old) :
    m.removeEdge old = .ok (edgeOff m old) := by
  obtain ⟨e, he, hem, hei⟩ := elemAt_posOf_ok (ix := Edge.index) h
  unfold removeEdge
  simp only [he]
  show (visit _ _ _ >>= fun verts => _) = _
  rw [visit_eq (ix := Vert.index) (by intro a; rfl) (by intro a; simp [eraseAll_eraseAll])
    e.vertind m.verts hm.unique.verts rfl (by
      intro k hk
      have : EdgeVert m old k := ⟨e, hem, hei, hk⟩
      refine hm.noDangling.edgeVert _ _ this ?_
      rintro rfl
      exact hm.zeroOutside.edgeVert _ this)]
  show (visitKnown _ _ _ >>= fun surfs => _) = _
  rw [visitKnown_eq (ix := Surf.index) (by intro a; rfl) (by
      intro a; simp [eraseAll_eraseAll, mem_eraseAll])
    e.surfind m.surfs hm.unique.surfs rfl]
  show (modAt _ _ _ >>= fun edges => _) = _
  rw [modAt_posOf hm.unique.edges h]
  show Except.ok _ = Except.ok _
  congr 1
  unfold edgeOff
  congr 1
  · apply List.map_congr_left
    intro v hv
    split
    · rfl
    · rename_i hn
      rw [eraseAll_of_notMem]
      intro ho
      apply hn
      have := (hm.sym.vertEdge v.index old ⟨v, hv, rfl⟩ h).mp ⟨v, hv, rfl, ho⟩
      obtain ⟨e', he', hi', hx⟩ := this
      rw [inj_of_nodup hm.unique.edges he' hem (hi'.trans hei.symm)] at hx
      exact hx
  · apply List.map_congr_left
    intro s hs
    split
    · rfl
    · rename_i hn
      have ho : old ∉ s.edgeind := by
        intro ho
        apply hn
        have := (hm.sym.edgeSurf old s.index h ⟨s, hs, rfl⟩).mpr ⟨s, hs, rfl, ho⟩
        obtain ⟨e', he', hi', hx⟩ := this
        rw [inj_of_nodup hm.unique.edges he' hem (hi'.trans hei.symm)] at hx
        exact hx
      rw [eraseAll_of_notMem ho]
      simp [ho]

theorem removeSurf_eq {m : Mesh} (hm : Sound m) {old : Int} (h : HasSurf m old) :
    m.removeSurf old = .ok (surfOff m old) := by
  obtain ⟨s, he, hem, hei⟩ := elemAt_posOf_ok (ix := Surf.index) h
  unfold removeSurf
  simp only [he]
  show (visit _ _ _ >>= fun verts => _) = _
  rw [visit_eq (ix := Edge.index) (by intro a; rfl) (by intro a; simp [eraseAll_eraseAll])
    s.edgeind m.edges hm.unique.edges rfl (by
      intro k hk
      exact hm.noDangling.surfEdge old k ⟨s, hem, hei, hk⟩)]
  show (visitKnown _ _ _ >>= fun surfs => _) = _
  rw [visitKnown_eq (ix := Volu.index) (by intro a; rfl) (by
      intro a; simp [eraseAll_eraseAll])
    s.voluind m.volus hm.unique.volus rfl]
  show (modAt _ _ _ >>= fun edges => _) = _
  rw [modAt_posOf hm.unique.surfs h]
  show Except.ok _ = Except.ok _
  congr 1
  unfold surfOff
  congr 1
  · apply List.map_congr_left
    intro v hv
    split
    · rfl
    · rename_i hn
      rw [eraseAll_of_notMem]
      intro ho
      apply hn
      have := (hm.sym.edgeSurf v.index old ⟨v, hv, rfl⟩ h).mp ⟨v, hv, rfl, ho⟩
      obtain ⟨e', he', hi', hx⟩ := this
      rw [inj_of_nodup hm.unique.surfs he' hem (hi'.trans hei.symm)] at hx
      exact hx
  · apply List.map_congr_left
    intro c hc
    split
    · rfl
    · rename_i hn
      rw [eraseAll_of_notMem]
      intro ho
      apply hn
      have := (hm.sym.surfVolu old c.index h ⟨c, hc, rfl⟩).mpr ⟨c, hc, rfl, ho⟩
      obtain ⟨e', he', hi', hx⟩ := this
      rw [inj_of_nodup hm.unique.surfs he' hem (hi'.trans hei.symm)] at hx
      exact hx

theorem removeVolu_eq {m : Mesh} (hm : Sound m) {old : Int} (h : HasVolu m old) :
    m.removeVolu old = .ok (voluOff m old) := by
  have h0 : old ≠ 0 := ne_of_gt (hm.pos.volus _ h)
  obtain ⟨c, he, hem, hei⟩ := elemAt_posOf_ok (ix := Volu.index) h
  unfold removeVolu
  simp only [he]
  show (List.foldlM (m := Except Fault) (removeVoluStep old) m.surfs _ >>= fun verts => _) = _
  rw [removeVolu_fold h0]
  rw [visit_eq (ix := Surf.index) (by intro a; rfl)
    (by intro a; simp [(eraseVoluVal_spec h0 _).2.2.2.1 (eraseVoluVal_spec h0 a.voluind).2.1])
    c.surfind m.surfs hm.unique.surfs rfl (by
      intro k hk
      have : VoluSurf m old k := ⟨c, hem, hei, hk⟩
      refine hm.noDangling.voluSurf _ _ this ?_
      rintro rfl
      exact hm.zeroOutside.voluSurf _ this)]
  show (modAt _ _ _ >>= fun edges => _) = _
  rw [modAt_posOf hm.unique.volus h]
  show Except.ok _ = Except.ok _
  congr 1
  unfold voluOff
  congr 1
  apply List.map_congr_left
  intro s hs
  split
  · rfl
  · rename_i hn
    rw [(eraseVoluVal_spec h0 _).2.2.2.1]
    intro ho
    apply hn
    have := (hm.sym.surfVolu s.index old ⟨s, hs, rfl⟩ h).mp ⟨s, hs, rfl, ho⟩
    obtain ⟨e', he', hi', hx⟩ := this
    rw [inj_of_nodup hm.unique.volus he' hem (hi'.trans hei.symm)] at hx
    exact hx

theorem edgeOff_detached (m : Mesh) (old : Int) : EdgeDetached m (edgeOff m old) old := by
  constructor
  · constructor
    · intro i; simp [HasVert, edgeOff]
    · intro i
      simp only [HasEdge, edgeOff, List.mem_map]
      constructor
      · rintro ⟨x, ⟨y, hy, rfl⟩, h⟩
        refine ⟨y, hy, ?_⟩
        split at h <;> exact h
      · rintro ⟨y, hy, h⟩
        refine ⟨_, ⟨y, hy, rfl⟩, ?_⟩
        split <;> exact h
    · intro i; simp [HasSurf, edgeOff]
    · intro i; simp [HasVolu, edgeOff]
  · intro v e
    simp only [VertEdge, edgeOff, List.mem_map]
    constructor
    · rintro ⟨x, ⟨y, hy, rfl⟩, h, h2⟩
      rw [mem_eraseAll] at h2
      exact ⟨⟨y, hy, h, h2.1⟩, h2.2⟩
    · rintro ⟨⟨y, hy, h, h2⟩, h3⟩
      exact ⟨_, ⟨y, hy, rfl⟩, h, mem_eraseAll.mpr ⟨h2, h3⟩⟩
  · intro v e
    simp only [SurfEdge, edgeOff, List.mem_map]
    constructor
    · rintro ⟨x, ⟨y, hy, rfl⟩, h, h2⟩
      rw [mem_eraseAll] at h2
      exact ⟨⟨y, hy, h, h2.1⟩, h2.2⟩
    · rintro ⟨⟨y, hy, h, h2⟩, h3⟩
      exact ⟨_, ⟨y, hy, rfl⟩, h, mem_eraseAll.mpr ⟨h2, h3⟩⟩
  · intro e v
    simp only [EdgeVert, edgeOff, List.mem_map]
    constructor
    · rintro ⟨x, ⟨y, hy, rfl⟩, h, h2⟩
      split at h2
      · simp at h2
      · rename_i hne
        rw [if_neg hne] at h
        exact ⟨⟨y, hy, h, h2⟩, by rw [← h]; exact hne⟩
    · rintro ⟨⟨y, hy, h, h2⟩, h3⟩
      exact ⟨y, ⟨y, hy, by rw [if_neg (by rw [h]; exact h3)]⟩, h, h2⟩
  · intro e v
    simp only [EdgeSurf, edgeOff, List.mem_map]
    constructor
    · rintro ⟨x, ⟨y, hy, rfl⟩, h, h2⟩
      split at h2
      · simp at h2
      · rename_i hne
        rw [if_neg hne] at h
        exact ⟨⟨y, hy, h, h2⟩, by rw [← h]; exact hne⟩
    · rintro ⟨⟨y, hy, h, h2⟩, h3⟩
      exact ⟨y, ⟨y, hy, by rw [if_neg (by rw [h]; exact h3)]⟩, h, h2⟩
  · intro s c; simp [SurfVolu, edgeOff]
  · intro c s; simp [VoluSurf, edgeOff]

theorem surfOff_detached (m : Mesh) (old : Int) : SurfDetached m (surfOff m old) old := by
  constructor
  · constructor
    · intro i; simp [HasVert, surfOff]
    · intro i; simp [HasEdge, surfOff]
    · intro i
      simp only [HasSurf, surfOff, List.mem_map]
      constructor
      · rintro ⟨x, ⟨y, hy, rfl⟩, h⟩
        refine ⟨y, hy, ?_⟩
        split at h <;> exact h
      · rintro ⟨y, hy, h⟩
        refine ⟨_, ⟨y, hy, rfl⟩, ?_⟩
        split <;> exact h
    · intro i; simp [HasVolu, surfOff]
  · intro s c; simp [VertEdge, surfOff]
  · intro c s; simp [EdgeVert, surfOff]
  · intro v e
    simp only [EdgeSurf, surfOff, List.mem_map]
    constructor
    · rintro ⟨x, ⟨y, hy, rfl⟩, h, h2⟩
      rw [mem_eraseAll] at h2
      exact ⟨⟨y, hy, h, h2.1⟩, h2.2⟩
    · rintro ⟨⟨y, hy, h, h2⟩, h3⟩
      exact ⟨_, ⟨y, hy, rfl⟩, h, mem_eraseAll.mpr ⟨h2, h3⟩⟩
  · intro e v
    simp only [SurfEdge, surfOff, List.mem_map]
    constructor
    · rintro ⟨x, ⟨y, hy, rfl⟩, h, h2⟩
      split at h2
      · simp at h2
      · rename_i hne
        rw [if_neg hne] at h
        exact ⟨⟨y, hy, h, h2⟩, by rw [← h]; exact hne⟩
    · rintro ⟨⟨y, hy, h, h2⟩, h3⟩
      exact ⟨y, ⟨y, hy, by rw [if_neg (by rw [h]; exact h3)]⟩, h, h2⟩
  · intro e v
    simp only [SurfVolu, surfOff, List.mem_map]
    constructor
    · rintro ⟨x, ⟨y, hy, rfl⟩, h, h2⟩
      split at h2
      · simp at h2
      · rename_i hne
        rw [if_neg hne] at h
        exact ⟨⟨y, hy, h, h2⟩, by rw [← h]; exact hne⟩
    · rintro ⟨⟨y, hy, h, h2⟩, h3⟩
      exact ⟨y, ⟨y, hy, by rw [if_neg (by rw [h]; exact h3)]⟩, h, h2⟩
  · intro v e
    simp only [VoluSurf, surfOff, List.mem_map]
    constructor
    · rintro ⟨x, ⟨y, hy, rfl⟩, h, h2⟩
      rw [mem_eraseAll] at h2
      exact ⟨⟨y, hy, h, h2.1⟩, h2.2⟩
    · rintro ⟨⟨y, hy, h, h2⟩, h3⟩
      exact ⟨_, ⟨y, hy, rfl⟩, h, mem_eraseAll.mpr ⟨h2, h3⟩⟩

theorem voluOff_detached {m : Mesh} (hu : UniqueIndices m) {old : Int} (h0 : old ≠ 0) :
    VoluDetached m (voluOff m old) old := by
  constructor
  · constructor
    · intro i; simp [HasVert, voluOff]
    · intro i; simp [HasEdge, voluOff]
    · intro i; simp [HasSurf, voluOff]
    · intro i
      simp only [HasVolu, voluOff, List.mem_map]
      constructor
      · rintro ⟨x, ⟨y, hy, rfl⟩, h⟩
        refine ⟨y, hy, ?_⟩
        split at h <;> exact h
      · rintro ⟨y, hy, h⟩
        refine ⟨_, ⟨y, hy, rfl⟩, ?_⟩
        split <;> exact h
  · intro s c; simp [VertEdge, voluOff]
  · intro c s; simp [EdgeVert, voluOff]
  · intro c s; simp [EdgeSurf, voluOff]
  · intro c s; simp [SurfEdge, voluOff]
  · intro s c hc
    simp only [SurfVolu, voluOff, List.mem_map]
    constructor
    · rintro ⟨x, ⟨y, hy, rfl⟩, h, h2⟩
      have hne : c ≠ old := by
        rintro rfl; exact (eraseVoluVal_spec h0 y.voluind).2.1 h2
      exact ⟨⟨y, hy, h, ((eraseVoluVal_spec h0 y.voluind).2.2.1 c hc hne).mp h2⟩, hne⟩
    · rintro ⟨⟨y, hy, h, h2⟩, h3⟩
      exact ⟨_, ⟨y, hy, rfl⟩, h, ((eraseVoluVal_spec h0 y.voluind).2.2.1 c hc h3).mpr h2⟩
  · intro e v
    simp only [VoluSurf, voluOff, List.mem_map]
    constructor
    · rintro ⟨x, ⟨y, hy, rfl⟩, h, h2⟩
      split at h2
      · simp at h2
      · rename_i hne
        rw [if_neg hne] at h
        exact ⟨⟨y, hy, h, h2⟩, by rw [← h]; exact hne⟩
    · rintro ⟨⟨y, hy, h, h2⟩, h3⟩
      exact ⟨y, ⟨y, hy, by rw [if_neg (by rw [h]; exact h3)]⟩, h, h2⟩
  · intro x hx y hy hxy hl
    simp only [voluOff, List.mem_map] at hx
    obtain ⟨z, hz, rfl⟩ := hx
    have : z = y := inj_of_nodup hu.surfs hz hy hxy
    subst this
    exact (eraseVoluVal_spec h0 z.voluind).2.2.2.2 hl

/-! ### Soundness is kept -/

theorem map_index_if {α : Type} {ix : α → Int} {l : List α} {f : α → α}
    (hf : ∀ a, ix (f a) = ix a) : (l.map f).map ix = l.map ix := by
  rw [List.map_map]
  apply List.map_congr_left
  intro a _
  exact hf a

theorem posIndices_of_same {m m' : Mesh} (h : SameElements m m') (hp : PosIndices m) :
    PosIndices m' :=
  ⟨fun i hi => hp.verts i ((h.verts i).mp hi), fun i hi => hp.edges i ((h.edges i).mp hi),
   fun i hi => hp.surfs i ((h.surfs i).mp hi), fun i hi => hp.volus i ((h.volus i).mp hi)⟩

theorem edgeOff_unique {m : Mesh} (hu : UniqueIndices m) (old : Int) :
    UniqueIndices (edgeOff m old) := by
  constructor
  · show (List.map _ (List.map _ _)).Nodup
    rw [map_index_if (by intro a; rfl)]; exact hu.verts
  · show (List.map _ (List.map _ _)).Nodup
    rw [map_index_if (by intro a; split <;> rfl)]; exact hu.edges
  · show (List.map _ (List.map _ _)).Nodup
    rw [map_index_if (by intro a; rfl)]; exact hu.surfs
  · exact hu.volus

theorem surfOff_unique {m : Mesh} (hu : UniqueIndices m) (old : Int) :
    UniqueIndices (surfOff m old) := by
  constructor
  · exact hu.verts
  · show (List.map _ (List.map _ _)).Nodup
    rw [map_index_if (by intro a; rfl)]; exact hu.edges
  · show (List.map _ (List.map _ _)).Nodup
    rw [map_index_if (by intro a; split <;> rfl)]; exact hu.surfs
  · show (List.map _ (List.map _ _)).Nodup
    rw [map_index_if (by intro a; rfl)]; exact hu.volus

theorem voluOff_unique {m : Mesh} (hu : UniqueIndices m) (old : Int) :
    UniqueIndices (voluOff m old) := by
  constructor
  · exact hu.verts
  · exact hu.edges
  · show (List.map _ (List.map _ _)).Nodup
    rw [map_index_if (by intro a; rfl)]; exact hu.surfs
  · show (List.map _ (List.map _ _)).Nodup
    rw [map_index_if (by intro a; split <;> rfl)]; exact hu.volus

theorem sound_of_edgeDetached {m m' : Mesh} {i : Int} (hm : Sound m) (hu : UniqueIndices m')
    (h : EdgeDetached m m' i) : Sound m' := by
  obtain ⟨hs, h1, h2, h3, h4, h5, h6⟩ := h
  refine ⟨hu, posIndices_of_same hs hm.pos, ?_, ?_, ?_⟩
  · constructor
    · intro v e h he; rw [hs.edges]; exact hm.noDangling.vertEdge v e ((h1 v e).mp h).1 he
    · intro v e h he; rw [hs.verts]; exact hm.noDangling.edgeVert v e ((h3 v e).mp h).1 he
    · intro v e h he; rw [hs.surfs]; exact hm.noDangling.edgeSurf v e ((h4 v e).mp h).1 he
    · intro v e h; rw [hs.edges]; exact hm.noDangling.surfEdge v e ((h2 v e).mp h).1
    · intro v e h he; rw [hs.volus]; exact hm.noDangling.surfVolu v e ((h5 v e).mp h) he
    · intro v e h he; rw [hs.surfs]; exact hm.noDangling.voluSurf v e ((h6 v e).mp h) he
  · constructor
    · intro v h; exact hm.zeroOutside.vertEdge v ((h1 _ _).mp h).1
    · intro v h; exact hm.zeroOutside.edgeVert v ((h3 _ _).mp h).1
    · intro v h; exact hm.zeroOutside.surfEdge v ((h2 _ _).mp h).1
    · intro v h; exact hm.zeroOutside.voluSurf v ((h6 _ _).mp h)
  · constructor
    · intro v e hv he; rw [h1, h3, hm.sym.vertEdge v e ((hs.verts _).mp hv) ((hs.edges _).mp he)]
    · intro v e hv he; rw [h4, h2, hm.sym.edgeSurf v e ((hs.edges _).mp hv) ((hs.surfs _).mp he)]
    · intro v e hv he; rw [h5, h6, hm.sym.surfVolu v e ((hs.surfs _).mp hv) ((hs.volus _).mp he)]

theorem sound_of_surfDetached {m m' : Mesh} {i : Int} (hm : Sound m) (hu : UniqueIndices m')
    (h : SurfDetached m m' i) : Sound m' := by
  obtain ⟨hs, h1, h3, h4, h2, h5, h6⟩ := h
  refine ⟨hu, posIndices_of_same hs hm.pos, ?_, ?_, ?_⟩
  · constructor
    · intro v e h he; rw [hs.edges]; exact hm.noDangling.vertEdge v e ((h1 v e).mp h) he
    · intro v e h he; rw [hs.verts]; exact hm.noDangling.edgeVert v e ((h3 v e).mp h) he
    · intro v e h he; rw [hs.surfs]; exact hm.noDangling.edgeSurf v e ((h4 v e).mp h).1 he
    · intro v e h; rw [hs.edges]; exact hm.noDangling.surfEdge v e ((h2 v e).mp h).1
    · intro v e h he; rw [hs.volus]; exact hm.noDangling.surfVolu v e ((h5 v e).mp h).1 he
    · intro v e h he; rw [hs.surfs]; exact hm.noDangling.voluSurf v e ((h6 v e).mp h).1 he
  · constructor
    · intro v h; exact hm.zeroOutside.vertEdge v ((h1 _ _).mp h)
    · intro v h; exact hm.zeroOutside.edgeVert v ((h3 _ _).mp h)
    · intro v h; exact hm.zeroOutside.surfEdge v ((h2 _ _).mp h).1
    · intro v h; exact hm.zeroOutside.voluSurf v ((h6 _ _).mp h).1
  · constructor
    · intro v e hv he; rw [h1, h3, hm.sym.vertEdge v e ((hs.verts _).mp hv) ((hs.edges _).mp he)]
    · intro v e hv he; rw [h4, h2, hm.sym.edgeSurf v e ((hs.edges _).mp hv) ((hs.surfs _).mp he)]
    · intro v e hv he; rw [h5, h6, hm.sym.surfVolu v e ((hs.surfs _).mp hv) ((hs.volus _).mp he)]

theorem sound_of_voluDetached {m m' : Mesh} {i : Int} (hm : Sound m) (hu : UniqueIndices m')
    (h : VoluDetached m m' i) : Sound m' := by
  obtain ⟨hs, h1, h3, h4, h2, h5, h6, _⟩ := h
  refine ⟨hu, posIndices_of_same hs hm.pos, ?_, ?_, ?_⟩
  · constructor
    · intro v e h he; rw [hs.edges]; exact hm.noDangling.vertEdge v e ((h1 v e).mp h) he
    · intro v e h he; rw [hs.verts]; exact hm.noDangling.edgeVert v e ((h3 v e).mp h) he
    · intro v e h he; rw [hs.surfs]; exact hm.noDangling.edgeSurf v e ((h4 v e).mp h) he
    · intro v e h; rw [hs.edges]; exact hm.noDangling.surfEdge v e ((h2 v e).mp h)
    · intro v e h he; rw [hs.volus]; exact hm.noDangling.surfVolu v e ((h5 v e he).mp h).1 he
    · intro v e h he; rw [hs.surfs]; exact hm.noDangling.voluSurf v e ((h6 v e).mp h).1 he
  · constructor
    · intro v h; exact hm.zeroOutside.vertEdge v ((h1 _ _).mp h)
    · intro v h; exact hm.zeroOutside.edgeVert v ((h3 _ _).mp h)
    · intro v h; exact hm.zeroOutside.surfEdge v ((h2 _ _).mp h)
    · intro v h; exact hm.zeroOutside.voluSurf v ((h6 _ _).mp h).1
  · constructor
    · intro v e hv he; rw [h1, h3, hm.sym.vertEdge v e ((hs.verts _).mp hv) ((hs.edges _).mp he)]
    · intro v e hv he; rw [h4, h2, hm.sym.edgeSurf v e ((hs.edges _).mp hv) ((hs.surfs _).mp he)]
    · intro v e hv he
      rw [h5 v e (ne_of_gt (hm.pos.volus e ((hs.volus _).mp he))), h6,
        hm.sym.surfVolu v e ((hs.surfs _).mp hv) ((hs.volus _).mp he)]

end RSVS.Mesh
