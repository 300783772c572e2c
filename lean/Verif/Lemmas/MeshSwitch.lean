import Verif.Lemmas.MeshDetach

/-!
# Helper lemmas on merging vertices
-/

namespace RSVS.Mesh

open RSVS.Spec

theorem eraseAll_eq_filter (old : Int) (l : List Int) :
    eraseAll old l = l.filter (fun x => x ≠ old) := by
  induction l with
  | nil => rfl
  | cons x l ih =>
    unfold eraseAll
    by_cases h : x = old <;> simp [h, ih]

/-- The edge after one turn of the loop. -/
def swapEnd (old new : Int) (e : Edge) : Edge :=
  { e with vertind := e.vertind.set (if e.vertind[1]? = some old then 1 else 0) new }

/-- The vertices after the edges `ks` have been treated. -/
def mergedVerts (m : Mesh) (old new : Int) (ks : List Int) : List Vert :=
  m.verts.map (fun v =>
    if v.index = new then { v with edgeind := v.edgeind ++ ks }
    else if v.index = old then { v with edgeind := v.edgeind.filter (fun x => x ∉ ks) }
    else v)

/-- The edges after the edges `ks` have been treated. -/
def mergedEdges (m : Mesh) (old new : Int) (ks : List Int) : List Edge :=
  m.edges.map (fun e => if e.index ∈ ks then swapEnd old new e else e)

theorem mergedVerts_index (m : Mesh) (old new : Int) (ks : List Int) :
    (mergedVerts m old new ks).map Vert.index = m.verts.map Vert.index := by
  unfold mergedVerts
  apply map_index_if
  intro a
  split
  · rfl
  · split <;> rfl

theorem mergedEdges_index (m : Mesh) (old new : Int) (ks : List Int) :
    (mergedEdges m old new ks).map Edge.index = m.edges.map Edge.index := by
  unfold mergedEdges
  apply map_index_if
  intro a
  split <;> rfl

theorem mem_of_index_eq {α : Type} {ix : α → Int} {l l' : List α} (h : l'.map ix = l.map ix)
    {k : Int} (hk : ∃ a ∈ l, ix a = k) : ∃ a ∈ l', ix a = k := by
  obtain ⟨a, ha, hak⟩ := hk
  have : k ∈ l.map ix := List.mem_map.mpr ⟨a, ha, hak⟩
  rw [← h] at this
  exact List.mem_map.mp this

theorem switch_fold {m : Mesh} (hu : UniqueIndices m) {old new : Int} (hne : old ≠ new)
    (hold : HasVert m old) (hnew : HasVert m new) :
    ∀ ks : List Int, ks.Nodup →
      (∀ k ∈ ks, ∃ e ∈ m.edges, e.index = k ∧ e.vertind.length = 2) →
      (posList Edge.index m.edges ks).foldlM
        (switchVertStep old new (posOf Vert.index m.verts old) (posOf Vert.index m.verts new))
        (m.verts, m.edges)
      = .ok (mergedVerts m old new ks, mergedEdges m old new ks) := by
  intro ks
  induction ks using List.reverseRecOn with
  | nil =>
    intro _ _
    show Except.ok _ = Except.ok _
    congr 2
    · unfold mergedVerts
      conv_lhs => rw [← List.map_id m.verts]
      apply List.map_congr_left
      intro v _
      simp only [id, List.append_nil, List.not_mem_nil, not_false_eq_true, decide_true,
        List.filter_true]
      split
      · rfl
      · split <;> rfl
    · unfold mergedEdges
      simp
  | append_singleton ks k ih =>
    intro hn hk
    rw [List.nodup_append] at hn
    have hkn : k ∉ ks := fun h => hn.2.2 k h k (by simp) rfl
    obtain ⟨e0, he0, hi0, hl0⟩ := hk k (by simp)
    simp only [posList, List.map_append, List.map_cons, List.map_nil, List.foldlM_append]
    have h1 := ih hn.1 (fun k' hk' => hk k' (by simp [hk']))
    simp only [posList] at h1
    rw [h1]
    show (List.foldlM (m := Except Fault) _ _ [posOf Edge.index m.edges k]) = _
    rw [List.foldlM_cons]
    have hm1 := mergedEdges_index m old new ks
    have hm2 := mergedVerts_index m old new ks
    have hue : ((mergedEdges m old new ks).map Edge.index).Nodup := by rw [hm1]; exact hu.edges
    have huv : ((mergedVerts m old new ks).map Vert.index).Nodup := by rw [hm2]; exact hu.verts
    rw [posOf_congr hm1.symm, posOf_congr hm2.symm old, posOf_congr hm2.symm new]
    have hek : ∃ a ∈ mergedEdges m old new ks, a.index = k := mem_of_index_eq hm1 ⟨e0, he0, hi0⟩
    have hvo := mem_of_index_eq hm2 hold
    have hvn := mem_of_index_eq hm2 hnew
    have he1 : e0 ∈ mergedEdges m old new ks := by
      refine List.mem_map.mpr ⟨e0, he0, ?_⟩
      rw [if_neg (by rw [hi0]; exact hkn)]
    obtain ⟨a, ha, ham, hai⟩ := elemAt_posOf_ok hek
    have hae : a = e0 := inj_of_nodup hue ham he1 (hai.trans hi0.symm)
    subst hae
    have hx1 : vecGet a.vertind 1 = .ok (a.vertind[1]'(by omega)) := by
      simp [vecGet, hl0]
    have hx2 : a.vertind[1]? = some (a.vertind[1]'(by omega)) := by
      simp [hl0]
    have hstep : switchVertStep old new (posOf Vert.index (mergedVerts m old new ks) old)
        (posOf Vert.index (mergedVerts m old new ks) new)
        (mergedVerts m old new ks, mergedEdges m old new ks)
        (posOf Edge.index (mergedEdges m old new ks) k)
        = .ok (mergedVerts m old new (ks ++ [k]), mergedEdges m old new (ks ++ [k])) := by
      unfold switchVertStep
      simp only [ha]
      show (vecGet a.vertind 1 >>= fun x1 => _) = _
      rw [hx1]
      show (modAt _ _ _ >>= fun edges => _) = _
      rw [modAt_posOf hue hek]
      show (modAt _ _ _ >>= fun verts => _) = _
      rw [modAt_posOf huv hvn]
      show (modAt _ _ _ >>= fun verts => _) = _
      have hm3 : ((mergedVerts m old new ks).map (fun v =>
          if v.index = new then { v with edgeind := v.edgeind ++ [a.index] } else v)).map Vert.index
          = (mergedVerts m old new ks).map Vert.index := by
        apply map_index_if
        intro a; split <;> rfl
      rw [posOf_congr hm3.symm old, modAt_posOf (by rw [hm3]; exact huv) (mem_of_index_eq hm3 hvo)]
      show Except.ok _ = Except.ok _
      congr 2
      · rw [List.map_map]
        unfold mergedVerts
        rw [List.map_map]
        apply List.map_congr_left
        intro v hv
        simp only [Function.comp]
        by_cases h1 : v.index = new
        · have h2 : v.index ≠ old := fun h => hne (h.symm.trans h1)
          simp [h1, hne.symm, hai]
        · by_cases h2 : v.index = old
          · simp only [h2, if_false, if_true, hne, eraseAll_eq_filter, List.filter_filter, hai]
            congr 1
            apply List.filter_congr
            intro x _
            simp [not_or, and_comm]
          · simp [h1, h2]
      · unfold mergedEdges
        rw [List.map_map]
        apply List.map_congr_left
        intro e hem
        simp only [Function.comp]
        by_cases h1 : e.index = k
        · have : e = a := inj_of_nodup hu.edges hem he0 (h1.trans hi0.symm)
          subst this
          simp [h1, hkn, swapEnd, hx2]
        · by_cases h2 : e.index ∈ ks
          · have h3 : (swapEnd old new e).index = e.index := rfl
            simp [h1, h2, h3]
          · simp [h1, h2]
    rw [hstep]
    rfl

theorem switchVert_eq {m : Mesh} (hm : Sound m) (h2 : TwoVerts m) {old new : Int}
    (hne : old ≠ new) (hnew : HasVert m new) {ov : Vert} (hov : ov ∈ m.verts)
    (hi : ov.index = old) (hnd : ov.edgeind.Nodup) :
    m.switchVert old new = .ok { m with
      verts := (mergedVerts m old new ov.edgeind).map (fun v =>
        if v.index = new then { v with edgeind := sortUnique v.edgeind } else v)
      edges := mergedEdges m old new ov.edgeind } := by
  have hold : HasVert m old := ⟨ov, hov, hi⟩
  obtain ⟨a, ha, ham, hai⟩ := elemAt_posOf_ok (ix := Vert.index) hold
  have : a = ov := inj_of_nodup hm.unique.verts ham hov (hai.trans hi.symm)
  subst this
  unfold switchVert
  simp only [ha]
  show (List.foldlM (m := Except Fault) _ _ _ >>= fun s => _) = _
  rw [switch_fold hm.unique hne hold hnew a.edgeind hnd (by
    intro k hk
    have h1 : VertEdge m old k := ⟨a, hov, hi, hk⟩
    obtain ⟨e, he, hei⟩ := hm.noDangling.vertEdge old k h1 (by
      rintro rfl; exact hm.zeroOutside.vertEdge _ h1)
    exact ⟨e, he, hei, h2 e he⟩)]
  show (modAt _ _ _ >>= fun verts => _) = _
  have hm2 := mergedVerts_index m old new a.edgeind
  rw [posOf_congr hm2.symm new, modAt_posOf (by rw [hm2]; exact hm.unique.verts)
    (mem_of_index_eq hm2 hnew)]
  rfl

theorem mem_swapEnd {old new : Int} {e : Edge} (hl : e.vertind.length = 2) (ho : old ∈ e.vertind)
    (hloop : e.vertind ≠ [old, old]) (x : Int) :
    x ∈ (swapEnd old new e).vertind ↔ (x ∈ e.vertind ∧ x ≠ old) ∨ x = new := by
  obtain ⟨i, v, s, b⟩ := e
  simp only at hl ho hloop
  match v, hl with
  | [p, q], _ =>
    simp only [swapEnd]
    have hpq : ¬ (p = old ∧ q = old) := by
      rintro ⟨rfl, rfl⟩; exact hloop rfl
    by_cases h : q = old
    · have hp : p ≠ old := fun h' => hpq ⟨h', h⟩
      subst h
      simp
      constructor
      · rintro (rfl | rfl)
        · exact Or.inl ⟨Or.inl rfl, hp⟩
        · exact Or.inr rfl
      · rintro (⟨rfl | rfl, h2⟩ | rfl)
        · exact Or.inl rfl
        · exact absurd rfl h2
        · exact Or.inr rfl
    · have hp : p = old := by
        simp only [List.mem_cons, List.not_mem_nil, or_false] at ho
        rcases ho with rfl | rfl
        · rfl
        · exact absurd rfl h
      subst hp
      simp [h]
      constructor
      · rintro (rfl | rfl)
        · exact Or.inr rfl
        · exact Or.inl ⟨Or.inr rfl, h⟩
      · rintro (⟨rfl | rfl, h2⟩ | rfl)
        · exact absurd rfl h2
        · exact Or.inr rfl
        · exact Or.inl rfl

theorem switchVert_merged {m : Mesh} (hm : Sound m) (h2 : TwoVerts m) {old new : Int}
    (hne : old ≠ new) (hnew : HasVert m new) {ov : Vert} (hov : ov ∈ m.verts)
    (hi : ov.index = old) (hnd : ov.edgeind.Nodup)
    (hloop : ∀ e ∈ m.edges, e.vertind ≠ [old, old]) :
    ∃ m', m.switchVert old new = .ok m' ∧ VertMerged m m' old new ∧ UniqueIndices m' ∧
      TwoVerts m' := by
  refine ⟨_, switchVert_eq hm h2 hne hnew hov hi hnd, ?_, ?_, ?_⟩
  · have hlist : ∀ e ∈ m.edges, (e.index ∈ ov.edgeind ↔ old ∈ e.vertind) := by
      intro e he
      have := hm.sym.vertEdge old e.index ⟨ov, hov, hi⟩ ⟨e, he, rfl⟩
      constructor
      · intro h
        obtain ⟨e', he', hi', hx⟩ := this.mp ⟨ov, hov, hi, h⟩
        rw [inj_of_nodup hm.unique.edges he' he hi'] at hx
        exact hx
      · intro h
        obtain ⟨v', hv', hi', hx⟩ := this.mpr ⟨e, he, rfl, h⟩
        rw [inj_of_nodup hm.unique.verts hv' hov (hi'.trans hi.symm)] at hx
        exact hx
    constructor
    · constructor
      · intro i
        have hx : List.map Vert.index ((mergedVerts m old new ov.edgeind).map (fun v =>
            if v.index = new then { v with edgeind := sortUnique v.edgeind } else v))
            = m.verts.map Vert.index := by
          rw [map_index_if (by intro a; split <;> rfl), mergedVerts_index]
        exact ⟨mem_of_index_eq hx.symm, mem_of_index_eq hx⟩
      · intro i
        simp only [HasEdge, mergedEdges, List.mem_map]
        constructor
        · rintro ⟨x, ⟨y, hy, rfl⟩, h⟩
          exact ⟨y, hy, by split at h <;> exact h⟩
        · rintro ⟨y, hy, h⟩
          exact ⟨_, ⟨y, hy, rfl⟩, by split <;> exact h⟩
      · intro i; rfl
      · intro i; rfl
    · intro e v
      simp only [EdgeVert, mergedEdges, List.mem_map]
      constructor
      · rintro ⟨x, ⟨y, hy, rfl⟩, h, hv⟩
        by_cases hye : y.index ∈ ov.edgeind
        · rw [if_pos hye] at h hv
          have ho := (hlist y hy).mp hye
          rw [mem_swapEnd (h2 y hy) ho (hloop y hy)] at hv
          rcases hv with hv | hv
          · exact Or.inl ⟨⟨y, hy, h, hv.1⟩, hv.2⟩
          · exact Or.inr ⟨hv, y, hy, h, ho⟩
        · rw [if_neg hye] at h hv
          refine Or.inl ⟨⟨y, hy, h, hv⟩, ?_⟩
          rintro rfl
          exact hye ((hlist y hy).mpr hv)
      · rintro (⟨⟨y, hy, h, hv⟩, hvo⟩ | ⟨hv, y, hy, h, ho⟩)
        · by_cases hye : y.index ∈ ov.edgeind
          · refine ⟨_, ⟨y, hy, rfl⟩, ?_⟩
            rw [if_pos hye]
            refine ⟨h, ?_⟩
            rw [mem_swapEnd (h2 y hy) ((hlist y hy).mp hye) (hloop y hy)]
            exact Or.inl ⟨hv, hvo⟩
          · exact ⟨_, ⟨y, hy, rfl⟩, by rw [if_neg hye]; exact ⟨h, hv⟩⟩
        · refine ⟨_, ⟨y, hy, rfl⟩, ?_⟩
          rw [if_pos ((hlist y hy).mpr ho)]
          refine ⟨h, ?_⟩
          rw [mem_swapEnd (h2 y hy) ho (hloop y hy)]
          exact Or.inr hv
    · intro v e
      simp only [VertEdge, mergedVerts, List.mem_map]
      constructor
      · rintro ⟨x, ⟨y, ⟨z, hz, rfl⟩, rfl⟩, h, he⟩
        by_cases h1 : z.index = new
        · simp only [h1, if_true] at h he
          rw [mem_sortUnique, List.mem_append] at he
          rcases he with he | he
          · exact Or.inl ⟨⟨z, hz, h1.trans h, he⟩, by rw [← h]; exact hne.symm⟩
          · exact Or.inr ⟨h.symm, ov, hov, hi, he⟩
        · by_cases h3 : z.index = old
          · have : z = ov := inj_of_nodup hm.unique.verts hz hov (h3.trans hi.symm)
            subst this
            simp only [h3, if_false, if_true, hne] at h he
            simp at he
          · simp only [h1, h3, if_false] at h he
            exact Or.inl ⟨⟨z, hz, h, he⟩, by rw [← h]; exact h3⟩
      · rintro (⟨⟨z, hz, h, he⟩, hvo⟩ | ⟨hv, z, hz, h, he⟩)
        · refine ⟨_, ⟨_, ⟨z, hz, rfl⟩, rfl⟩, ?_⟩
          by_cases h1 : z.index = new
          · simp only [h1, if_true]
            refine ⟨h1.symm.trans h, ?_⟩
            rw [mem_sortUnique, List.mem_append]; exact Or.inl he
          · have h3 : z.index ≠ old := by rw [h]; exact hvo
            simp only [h1, h3, if_false]
            exact ⟨h, he⟩
        · have : z = ov := inj_of_nodup hm.unique.verts hz hov (h.trans hi.symm)
          subst this
          obtain ⟨w, hw, hwi⟩ := hnew
          refine ⟨_, ⟨_, ⟨w, hw, rfl⟩, rfl⟩, ?_⟩
          simp only [hwi, if_true]
          refine ⟨hv.symm, ?_⟩
          rw [mem_sortUnique, List.mem_append]; exact Or.inr he
    · intro e s
      simp only [EdgeSurf, mergedEdges, List.mem_map]
      constructor
      · rintro ⟨x, ⟨y, hy, rfl⟩, h, hv⟩
        exact ⟨y, hy, by split at h <;> exact h, by split at hv <;> exact hv⟩
      · rintro ⟨y, hy, h, hv⟩
        exact ⟨_, ⟨y, hy, rfl⟩, by split <;> exact h, by split <;> exact hv⟩
    · intro s e; rfl
    · intro s e; rfl
    · intro s e; rfl
  · constructor
    · show (List.map _ (List.map _ _)).Nodup
      rw [map_index_if (by intro a; split <;> rfl), mergedVerts_index]
      exact hm.unique.verts
    · show (List.map _ (mergedEdges _ _ _ _)).Nodup
      rw [mergedEdges_index]
      exact hm.unique.edges
    · exact hm.unique.surfs
    · exact hm.unique.volus
  · intro x hx
    obtain ⟨y, hy, rfl⟩ := List.mem_map.mp hx
    split
    · simp [swapEnd, h2 y hy]
    · exact h2 y hy

theorem sound_of_vertMerged {m m' : Mesh} {old new : Int} (hm : Sound m) (hu : UniqueIndices m')
    (hnew : HasVert m new) (hold : HasVert m old)
    (h : VertMerged m m' old new) : Sound m' := by
  obtain ⟨hs, h1, h2, h3, h4, h5, h6⟩ := h
  refine ⟨hu, posIndices_of_same hs hm.pos, ?_, ?_, ?_⟩
  · constructor
    · intro v e h he; rw [hs.edges]
      rcases (h2 v e).mp h with h | h
      · exact hm.noDangling.vertEdge v e h.1 he
      · exact hm.noDangling.vertEdge old e h.2 he
    · intro e v h hv; rw [hs.verts]
      rcases (h1 e v).mp h with h | h
      · exact hm.noDangling.edgeVert e v h.1 hv
      · rw [h.1]; exact hnew
    · intro v e h he; rw [hs.surfs]; exact hm.noDangling.edgeSurf v e ((h3 v e).mp h) he
    · intro v e h; rw [hs.edges]; exact hm.noDangling.surfEdge v e ((h4 v e).mp h)
    · intro v e h he; rw [hs.volus]; exact hm.noDangling.surfVolu v e ((h5 v e).mp h) he
    · intro v e h he; rw [hs.surfs]; exact hm.noDangling.voluSurf v e ((h6 v e).mp h) he
  · constructor
    · intro v h
      rcases (h2 v 0).mp h with h | h
      · exact hm.zeroOutside.vertEdge v h.1
      · exact hm.zeroOutside.vertEdge old h.2
    · intro e h
      rcases (h1 e 0).mp h with h | h
      · exact hm.zeroOutside.edgeVert e h.1
      · exact ne_of_gt (hm.pos.verts _ hnew) h.1.symm
    · intro v h; exact hm.zeroOutside.surfEdge v ((h4 _ _).mp h)
    · intro v h; exact hm.zeroOutside.voluSurf v ((h6 _ _).mp h)
  · constructor
    · intro v e hv he
      rw [h1, h2]
      have ha := hm.sym.vertEdge v e ((hs.verts _).mp hv) ((hs.edges _).mp he)
      have hb := hm.sym.vertEdge old e hold ((hs.edges _).mp he)
      rw [ha, hb]
    · intro v e hv he; rw [h3, h4, hm.sym.edgeSurf v e ((hs.edges _).mp hv) ((hs.surfs _).mp he)]
    · intro v e hv he; rw [h5, h6, hm.sym.surfVolu v e ((hs.surfs _).mp hv) ((hs.volus _).mp he)]

end RSVS.Mesh
