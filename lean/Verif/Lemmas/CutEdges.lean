import Verif.Model.CutEdges
import Verif.Spec.CutEdges
import Verif.Lemmas.Mesh
import Verif.Lemmas.MeshShift
import Verif.Lemmas.Coarsen

/-!
# Helper lemmas on the edges cut by a box
-/

namespace RSVS.CutEdges

open RSVS.Spec

theorem visit_iterate {α : Type} {ix : α → Int} {l0 : List α} {f : α → α}
    (hf : ∀ a, ix (f a) = ix a) :
    ∀ (ks : List Int) (l : List α), (l.map ix).Nodup → l.map ix = l0.map ix →
      (∀ k ∈ ks, ∃ a ∈ l, ix a = k) →
      ∃ g : α → α, (∀ a, g a = f^[ks.count (ix a)] a) ∧
        visit l (posList ix l0 ks) f = .ok (l.map g) := by
  intro ks
  induction ks with
  | nil => intro l _ _ _; exact ⟨id, by simp, by simp [visit, posList]; rfl⟩
  | cons k ks ih =>
    intro l hn h0 hk
    have h1 : modAt l (posOf ix l0 k) f
        = .ok (l.map (fun a => if ix a = k then f a else a)) := by
      rw [← posOf_congr h0]
      exact modAt_posOf hn (hk k (by simp)) f
    have hm := map_if_index (l := l) hf (fun a => ix a = k)
    obtain ⟨g, hg, h2⟩ := ih (l.map (fun a => if ix a = k then f a else a))
      (by rw [hm]; exact hn) (by rw [hm, h0]) (by
        intro k' hk'
        obtain ⟨a, ha, h3⟩ := hk k' (by simp [hk'])
        refine ⟨if ix a = k then f a else a, List.mem_map.mpr ⟨a, ha, rfl⟩, ?_⟩
        split
        · rw [hf, h3]
        · exact h3)
    refine ⟨fun a => g (if ix a = k then f a else a), ?_, ?_⟩
    · intro a
      show g (if ix a = k then f a else a) = _
      by_cases h3 : ix a = k
      · rw [if_pos h3, hg, hf, h3, List.count_cons_self, Function.iterate_succ_apply]
      · rw [if_neg h3, hg, List.count_cons_of_ne (by simpa using fun h => h3 h.symm)]
    · unfold visit at h2 ⊢
      simp only [posList, List.map_cons, List.foldlM_cons]
      rw [h1]
      show List.foldlM _ _ (posList ix l0 ks) = _
      rw [h2, List.map_map]
      rfl

theorem push_iterate (ne : Int) (n : Nat) (s : Surf) :
    (fun s : Surf => { s with edgeind := s.edgeind ++ [ne] })^[n] s =
      { s with edgeind := s.edgeind ++ List.replicate n ne } := by
  induction n generalizing s with
  | zero => simp
  | succ n ih =>
    rw [Function.iterate_succ_apply, ih]
    simp [List.replicate_succ]

theorem edge_unique {m : Mesh} (hu : (m.edges.map Edge.index).Nodup) {x y : Edge}
    (hx : x ∈ m.edges) (hy : y ∈ m.edges) (h : x.index = y.index) : x = y :=
  List.inj_on_of_nodup_map hu hx hy h

/-- One pass of the loop. -/
theorem splitEdge_ok {place : List ℚ → List ℚ → Res (List ℚ)} {nv ne e a b : Int} {m : Mesh}
    {vo : List Bool} {ed : Edge} {oa : Bool} (hs : Sound m) (hed : ed ∈ m.edges)
    (hi : ed.index = e) (hv : ed.vertind = [a, b]) (ha : isOut m vo a = .ok oa)
    (hb : isOut m vo b = .ok (!oa)) (hab : a ≠ b) (h0 : ∀ f, ¬ EdgeSurf m f 0)
    (hpl : ∀ x ∈ m.verts, ∀ y ∈ m.verts, x.index = (if oa then b else a) →
      y.index = (if oa then a else b) → ∃ z, place x.coord y.coord = .ok z) :
    ∃ m', splitEdge place nv ne e (m, vo) = .ok (m', vo ++ [false]) ∧
      EdgeSplit m m' e (if oa then a else b) nv ne ∧
      (TwoVerts m → TwoVerts m') ∧
      (∀ x ∈ m.verts, ∃ y ∈ m'.verts, y.index = x.index ∧ y.coord = x.coord) ∧
      (∀ y ∈ m'.verts, (∃ x ∈ m.verts, y.index = x.index ∧ y.coord = x.coord) ∨
        (y.index = nv ∧ ∃ x ∈ m.verts, ∃ w ∈ m.verts, x.index = (if oa then b else a) ∧
          w.index = (if oa then a else b) ∧ place x.coord w.coord = .ok y.coord)) := by
  have hEa : EdgeVert m e a := ⟨ed, hed, hi, by simp [hv]⟩
  have hEb : EdgeVert m e b := ⟨ed, hed, hi, by simp [hv]⟩
  have hVa : HasVert m a := hs.noDangling.edgeVert e a hEa
    (fun h => hs.zeroOutside.edgeVert e (h ▸ hEa))
  have hVb : HasVert m b := hs.noDangling.edgeVert e b hEb
    (fun h => hs.zeroOutside.edgeVert e (h ▸ hEb))
  have hHe : HasEdge m e := ⟨ed, hed, hi⟩
  obtain ⟨i, hidef⟩ : ∃ i, i = (if oa then b else a) := ⟨_, rfl⟩
  obtain ⟨o, hodef⟩ : ∃ o, o = (if oa then a else b) := ⟨_, rfl⟩
  rw [← hidef, ← hodef] at hpl
  rw [← hidef, ← hodef]
  have hio : i ≠ o := by cases oa <;> simp_all [eq_comm]
  have hVi : HasVert m i := by cases oa <;> simp_all
  have hVo : HasVert m o := by cases oa <;> simp_all
  have hEo : EdgeVert m e o := by cases oa <;> simp_all
  have hVE : VertEdge m o e := (hs.sym.vertEdge o e hVo hHe).mpr hEo
  have hmem : ∀ w, w ∈ ed.vertind ↔ w = i ∨ w = o := by
    intro w; cases oa <;> simp_all [or_comm]
  have hsetO : ∀ w, w ∈ ed.vertind.set (if oa then 0 else 1) nv ↔ w = i ∨ w = nv := by
    intro w; cases oa <;> simp_all [or_comm]
  have hsetI : ∀ w, w ∈ ed.vertind.set (if oa then 1 else 0) nv ↔ w = o ∨ w = nv := by
    intro w; cases oa <;> simp_all [or_comm]
  have hgi : vecGet ed.vertind ((if oa then 1 else 0 : Nat) : Int) = .ok i := by
    cases oa <;> simp_all [vecGet]
  have hgo : vecGet ed.vertind ((if oa then 0 else 1 : Nat) : Int) = .ok o := by
    cases oa <;> simp_all [vecGet]
  have hga : vecGet ed.vertind 0 = .ok a := by simp [hv, vecGet]
  have hgb : vecGet ed.vertind 1 = .ok b := by simp [hv, vecGet]
  obtain ⟨ed', hed', hm', hi'⟩ := elemAt_posOf_ok (ix := Edge.index) hHe
  have : ed' = ed := edge_unique hs.unique.edges hm' hed (hi'.trans hi.symm)
  subst this
  obtain ⟨g, hg, hvis⟩ := visit_iterate (ix := Surf.index) (l0 := m.surfs)
    (f := fun s : Surf => { s with edgeind := s.edgeind ++ [ne] }) (fun _ => rfl) ed'.surfind
    m.surfs hs.unique.surfs rfl (fun k hk => by
      have hk' : EdgeSurf m e k := ⟨ed', hed, hi, hk⟩
      exact hs.noDangling.edgeSurf e k hk' (fun h => h0 e (h ▸ hk')))
  have hg' : ∀ s, g s =
      { s with edgeind := (s.edgeind ++ List.replicate (ed'.surfind.count s.index) ne) } := by
    intro s; rw [hg, push_iterate]
  obtain ⟨ci, hci, hcim, hcii⟩ := elemAt_posOf_ok (ix := Vert.index) hVi
  obtain ⟨co, hco, hcom, hcoi⟩ := elemAt_posOf_ok (ix := Vert.index) hVo
  obtain ⟨z, hz⟩ := hpl ci hcim co hcom hcii hcoi
  have hmv := modAt_posOf (ix := Vert.index) hs.unique.verts hVo
    (fun w : Vert => { w with edgeind := replaceAll e ne w.edgeind })
  have hme := modAt_posOf (ix := Edge.index) hs.unique.edges hHe
    (fun w : Edge => { w with vertind := w.vertind.set (if oa then 0 else 1) nv })
  have hxor : (!(oa ^^ !oa)) = false := by cases oa <;> rfl
  refine ⟨{ m with
      verts := m.verts.map (fun w : Vert =>
        if w.index = o then { w with edgeind := replaceAll e ne w.edgeind } else w) ++
          [{ index := nv, edgeind := [e, ne], coord := z }]
      edges := m.edges.map (fun w : Edge =>
        if w.index = e then { w with vertind := w.vertind.set (if oa then 0 else 1) nv } else w) ++
          [{ ed' with index := ne, vertind := ed'.vertind.set (if oa then 1 else 0) nv }]
      surfs := m.surfs.map g }, by
    simp only [splitEdge, hed', hvis, hga, hgb, ha, hb, bind, Except.bind, hxor, hgi, hgo, hci,
      hco, hz, hmv, hme, Bool.false_eq_true, if_false], ?_, ?_, ?_, ?_⟩
  · constructor
    · simp only [List.map_append, List.map_cons, List.map_nil]
      rw [map_if_index (ix := Vert.index)]
      intro _; rfl
    · simp only [List.map_append, List.map_cons, List.map_nil]
      rw [map_if_index (ix := Edge.index)]
      intro _; rfl
    · simp only [List.map_map]
      apply List.map_congr_left
      intro s _
      simp [hg']
    · rfl
    · intro v f
      constructor
      · rintro ⟨x, hx, h1, h2⟩
        rcases List.mem_append.mp hx with hx | hx
        · obtain ⟨y, hy, rfl⟩ := List.mem_map.mp hx
          by_cases hyo : y.index = o
          · rw [if_pos hyo] at h1 h2
            rw [Refine.replaceAll_eq] at h2
            obtain ⟨f', hf', h3⟩ := List.mem_map.mp h2
            (try dsimp only at h1 h3)
            by_cases hfe : f' = e
            · rw [if_pos hfe] at h3
              exact Or.inr (Or.inl ⟨h1 ▸ hyo, h3.symm⟩)
            · rw [if_neg hfe] at h3
              exact Or.inl ⟨⟨y, hy, h1, h3 ▸ hf'⟩, fun h => hfe (h3.trans h.2)⟩
          · rw [if_neg hyo] at h1 h2
            exact Or.inl ⟨⟨y, hy, h1, h2⟩, fun h => hyo (h1.trans h.1)⟩
        · rw [List.mem_singleton] at hx
          subst hx
          refine Or.inr (Or.inr ⟨h1.symm, by simpa using h2⟩)
      · rintro (⟨⟨y, hy, h1, h2⟩, h3⟩ | ⟨rfl, rfl⟩ | ⟨rfl, h1⟩)
        · refine ⟨_, List.mem_append_left _ (List.mem_map.mpr ⟨y, hy, rfl⟩), ?_, ?_⟩
          · split <;> exact h1
          · split
            · rename_i hyo
              rw [Refine.replaceAll_eq]
              refine List.mem_map.mpr ⟨f, h2, if_neg fun h => h3 ⟨h1.symm.trans hyo, h⟩⟩
            · exact h2
        · obtain ⟨y, hy, h1, h2⟩ := hVE
          refine ⟨_, List.mem_append_left _ (List.mem_map.mpr ⟨y, hy, rfl⟩), ?_, ?_⟩
          · split <;> exact h1
          · rw [if_pos h1, Refine.replaceAll_eq]
            exact List.mem_map.mpr ⟨e, h2, if_pos rfl⟩
        · exact ⟨_, List.mem_append_right _ (List.mem_singleton.mpr rfl), rfl, by simpa using h1⟩
    · intro f v
      constructor
      · rintro ⟨x, hx, h1, h2⟩
        rcases List.mem_append.mp hx with hx | hx
        · obtain ⟨y, hy, rfl⟩ := List.mem_map.mp hx
          by_cases hye : y.index = e
          · rw [if_pos hye] at h1 h2
            have : y = ed' := edge_unique hs.unique.edges hy hed (hye.trans hi.symm)
            subst this
            (try dsimp only at h1 h2)
            rcases (hsetO v).mp h2 with h3 | h3
            · exact Or.inl ⟨⟨y, hy, h1, (hmem v).mpr (Or.inl h3)⟩, fun h => hio (h3 ▸ h.2)⟩
            · exact Or.inr (Or.inl ⟨h1.symm.trans hye, h3⟩)
          · rw [if_neg hye] at h1 h2
            exact Or.inl ⟨⟨y, hy, h1, h2⟩, fun h => hye (h1.trans h.1)⟩
        · rw [List.mem_singleton] at hx
          subst hx
          exact Or.inr (Or.inr ⟨h1.symm, (hsetI v).mp h2⟩)
      · rintro (⟨⟨y, hy, h1, h2⟩, h3⟩ | ⟨rfl, rfl⟩ | ⟨rfl, h1⟩)
        · refine ⟨_, List.mem_append_left _ (List.mem_map.mpr ⟨y, hy, rfl⟩), ?_, ?_⟩
          · split <;> exact h1
          · split
            · rename_i hye
              have : y = ed' := edge_unique hs.unique.edges hy hed (hye.trans hi.symm)
              subst this
              rcases (hmem v).mp h2 with h4 | h4
              · exact (hsetO v).mpr (Or.inl h4)
              · exact absurd ⟨h1.symm.trans hye, h4⟩ h3
            · exact h2
        · refine ⟨_, List.mem_append_left _ (List.mem_map.mpr ⟨ed', hed, rfl⟩), ?_, ?_⟩
          · split <;> exact hi
          · rw [if_pos hi]
            exact (hsetO v).mpr (Or.inr rfl)
        · exact ⟨_, List.mem_append_right _ (List.mem_singleton.mpr rfl), rfl, (hsetI v).mpr h1⟩
    · intro f s
      constructor
      · rintro ⟨x, hx, h1, h2⟩
        rcases List.mem_append.mp hx with hx | hx
        · obtain ⟨y, hy, rfl⟩ := List.mem_map.mp hx
          refine Or.inl ⟨y, hy, ?_, ?_⟩
          · split at h1 <;> exact h1
          · split at h2 <;> exact h2
        · rw [List.mem_singleton] at hx
          subst hx
          exact Or.inr ⟨h1.symm, ed', hed, hi, h2⟩
      · rintro (⟨y, hy, h1, h2⟩ | ⟨rfl, y, hy, h1, h2⟩)
        · refine ⟨_, List.mem_append_left _ (List.mem_map.mpr ⟨y, hy, rfl⟩), ?_, ?_⟩
          · split <;> exact h1
          · split <;> exact h2
        · have : y = ed' := edge_unique hs.unique.edges hy hed (h1.trans hi.symm)
          subst this
          exact ⟨_, List.mem_append_right _ (List.mem_singleton.mpr rfl), rfl, h2⟩
    · intro s f
      have hsym : ∀ y ∈ m.surfs, (y.index ∈ ed'.surfind ↔ SurfEdge m y.index e) := by
        intro y hy
        rw [← hs.sym.edgeSurf e y.index hHe ⟨y, hy, rfl⟩]
        constructor
        · intro h; exact ⟨ed', hed, hi, h⟩
        · rintro ⟨w, hw, h1, h2⟩
          have : w = ed' := edge_unique hs.unique.edges hw hed (h1.trans hi.symm)
          subst this; exact h2
      constructor
      · rintro ⟨x, hx, h1, h2⟩
        obtain ⟨y, hy, rfl⟩ := List.mem_map.mp hx
        rw [hg'] at h1 h2
        (try dsimp only at h1 h2)
        rcases List.mem_append.mp h2 with h2 | h2
        · exact Or.inl ⟨y, hy, h1, h2⟩
        · obtain ⟨h3, h4⟩ := List.mem_replicate.mp h2
          refine Or.inr ⟨h4, ?_⟩
          rw [← h1]
          exact (hsym y hy).mp (by
            by_contra h5
            exact h3 (List.count_eq_zero.mpr h5))
      · rintro (⟨y, hy, h1, h2⟩ | ⟨rfl, h⟩)
        · refine ⟨_, List.mem_map.mpr ⟨y, hy, rfl⟩, ?_, ?_⟩
          · rw [hg']; exact h1
          · rw [hg']; exact List.mem_append_left _ h2
        · have h' := h
          obtain ⟨y, hy, h1, h2⟩ := h
          refine ⟨_, List.mem_map.mpr ⟨y, hy, rfl⟩, ?_, ?_⟩
          · rw [hg']; exact h1
          · rw [hg']
            refine List.mem_append_right _ (List.mem_replicate.mpr ⟨?_, rfl⟩)
            intro h3
            exact List.count_eq_zero.mp h3 ((hsym y hy).mpr (h1 ▸ h'))
    · intro s c
      constructor
      · rintro ⟨x, hx, h1, h2⟩
        obtain ⟨y, hy, rfl⟩ := List.mem_map.mp hx
        rw [hg'] at h1 h2
        exact ⟨y, hy, h1, h2⟩
      · rintro ⟨y, hy, h1, h2⟩
        exact ⟨_, List.mem_map.mpr ⟨y, hy, rfl⟩, by rw [hg']; exact h1, by rw [hg']; exact h2⟩
  · intro ht x hx
    rcases List.mem_append.mp hx with hx | hx
    · obtain ⟨y, hy, rfl⟩ := List.mem_map.mp hx
      split
      · simpa using ht y hy
      · exact ht y hy
    · rw [List.mem_singleton] at hx
      subst hx
      simpa using ht ed' hed
  · intro x hx
    refine ⟨_, List.mem_append_left _ (List.mem_map.mpr ⟨x, hx, rfl⟩), ?_, ?_⟩ <;>
    · split <;> rfl
  · intro y hy
    rcases List.mem_append.mp hy with hy | hy
    · obtain ⟨x, hx, rfl⟩ := List.mem_map.mp hy
      refine Or.inl ⟨x, hx, ?_, ?_⟩ <;>
      · split <;> rfl
    · rw [List.mem_singleton] at hy
      subst hy
      exact Or.inr ⟨rfl, ci, hcim, co, hcom, hcii, hcoi, hz⟩

theorem has_of_map {α : Type} {ix : α → Int} {l l' : List α} {n : Int}
    (h : l'.map ix = l.map ix ++ [n]) (i : Int) :
    (∃ x ∈ l', ix x = i) ↔ (∃ x ∈ l, ix x = i) ∨ i = n := by
  have : i ∈ l'.map ix ↔ i ∈ l.map ix ++ [n] := by rw [h]
  simpa [eq_comm] using this

theorem has_of_map_eq {α : Type} {ix : α → Int} {l l' : List α}
    (h : l'.map ix = l.map ix) (i : Int) :
    (∃ x ∈ l', ix x = i) ↔ ∃ x ∈ l, ix x = i := by
  have : i ∈ l'.map ix ↔ i ∈ l.map ix := by rw [h]
  simpa [eq_comm] using this

/-- Splitting an edge keeps a mesh sound. -/
theorem sound_split {m m' : Mesh} {e o nv ne : Int} (hs : Sound m)
    (h : EdgeSplit m m' e o nv ne) (he : EdgeVert m e o) (hnv : ¬ HasVert m nv)
    (hne : ¬ HasEdge m ne) (hnv0 : 0 < nv) (hne0 : 0 < ne) : Sound m' := by
  have hV : ∀ i, HasVert m' i ↔ HasVert m i ∨ i = nv := has_of_map h.verts
  have hE : ∀ i, HasEdge m' i ↔ HasEdge m i ∨ i = ne := has_of_map h.edges
  have hS : ∀ i, HasSurf m' i ↔ HasSurf m i := has_of_map_eq h.surfs
  have hC : ∀ i, HasVolu m' i ↔ HasVolu m i := by intro i; simp only [HasVolu, h.volus]
  have hVS : ∀ c s, VoluSurf m' c s ↔ VoluSurf m c s := by
    intro c s; simp only [VoluSurf, h.volus]
  have hHe : HasEdge m e := by obtain ⟨x, hx, h1, _⟩ := he; exact ⟨x, hx, h1⟩
  have ho0 : o ≠ 0 := fun h0 => hs.zeroOutside.edgeVert e (h0 ▸ he)
  have hHo : HasVert m o := hs.noDangling.edgeVert e o he ho0
  have he0 : 0 < e := hs.pos.edges e hHe
  have hoe : VertEdge m o e := (hs.sym.vertEdge o e hHo hHe).mpr he
  have nVE : ∀ f, ¬ VertEdge m nv f := fun f ⟨x, hx, h1, _⟩ => hnv ⟨x, hx, h1⟩
  have nEV : ∀ v, ¬ EdgeVert m ne v := fun f ⟨x, hx, h1, _⟩ => hne ⟨x, hx, h1⟩
  have nES : ∀ s, ¬ EdgeSurf m ne s := fun f ⟨x, hx, h1, _⟩ => hne ⟨x, hx, h1⟩
  have nVE' : ∀ v, ¬ VertEdge m v ne := fun v h1 => hne (hs.noDangling.vertEdge v ne h1 hne0.ne')
  have nEV' : ∀ f, ¬ EdgeVert m f nv := fun v h1 => hnv (hs.noDangling.edgeVert v nv h1 hnv0.ne')
  have nSE : ∀ s, ¬ SurfEdge m s ne := fun s h1 => hne (hs.noDangling.surfEdge s ne h1)
  have ene : e ≠ ne := fun h1 => hne (h1 ▸ hHe)
  have onv : o ≠ nv := fun h1 => hnv (h1 ▸ hHo)
  refine ⟨⟨?_, ?_, ?_, ?_⟩, ⟨?_, ?_, ?_, ?_⟩, ⟨?_, ?_, ?_, ?_, ?_, ?_⟩, ⟨?_, ?_, ?_, ?_⟩,
    ⟨?_, ?_, ?_⟩⟩
  · rw [h.verts, List.nodup_append]
    refine ⟨hs.unique.verts, by simp, ?_⟩
    rintro a ha b hb rfl
    rw [List.mem_singleton] at hb
    subst hb
    obtain ⟨x, hx, h1⟩ := List.mem_map.mp ha
    exact hnv ⟨x, hx, h1⟩
  · rw [h.edges, List.nodup_append]
    refine ⟨hs.unique.edges, by simp, ?_⟩
    rintro a ha b hb rfl
    rw [List.mem_singleton] at hb
    subst hb
    obtain ⟨x, hx, h1⟩ := List.mem_map.mp ha
    exact hne ⟨x, hx, h1⟩
  · rw [h.surfs]; exact hs.unique.surfs
  · rw [h.volus]; exact hs.unique.volus
  · intro i hi
    rcases (hV i).mp hi with h1 | h1
    · exact hs.pos.verts i h1
    · rw [h1]; exact hnv0
  · intro i hi
    rcases (hE i).mp hi with h1 | h1
    · exact hs.pos.edges i h1
    · rw [h1]; exact hne0
  · intro i hi; exact hs.pos.surfs i ((hS i).mp hi)
  · intro i hi; exact hs.pos.volus i ((hC i).mp hi)
  · intro v f h1 h2
    rw [hE]
    rcases (h.vertEdge v f).mp h1 with h3 | h3 | h3
    · exact Or.inl (hs.noDangling.vertEdge v f h3.1 h2)
    · exact Or.inr h3.2
    · rcases h3.2 with h4 | h4
      · exact Or.inl (h4 ▸ hHe)
      · exact Or.inr h4
  · intro f v h1 h2
    rw [hV]
    rcases (h.edgeVert f v).mp h1 with h3 | h3 | h3
    · exact Or.inl (hs.noDangling.edgeVert f v h3.1 h2)
    · exact Or.inr h3.2
    · rcases h3.2 with h4 | h4
      · exact Or.inl (h4 ▸ hHo)
      · exact Or.inr h4
  · intro f s h1 h2
    rw [hS]
    rcases (h.edgeSurf f s).mp h1 with h3 | h3
    · exact hs.noDangling.edgeSurf f s h3 h2
    · exact hs.noDangling.edgeSurf e s h3.2 h2
  · intro s f h1
    rw [hE]
    rcases (h.surfEdge s f).mp h1 with h3 | h3
    · exact Or.inl (hs.noDangling.surfEdge s f h3)
    · exact Or.inr h3.1
  · intro s c h1 h2
    rw [hC]
    exact hs.noDangling.surfVolu s c ((h.surfVolu s c).mp h1) h2
  · intro c s h1 h2
    rw [hS]
    exact hs.noDangling.voluSurf c s ((hVS c s).mp h1) h2
  · intro v h1
    rcases (h.vertEdge v 0).mp h1 with h3 | h3 | h3
    · exact hs.zeroOutside.vertEdge v h3.1
    · omega
    · omega
  · intro f h1
    rcases (h.edgeVert f 0).mp h1 with h3 | h3 | h3
    · exact hs.zeroOutside.edgeVert f h3.1
    · omega
    · omega
  · intro s h1
    rcases (h.surfEdge s 0).mp h1 with h3 | h3
    · exact hs.zeroOutside.surfEdge s h3
    · omega
  · intro c h1; exact hs.zeroOutside.voluSurf c ((hVS c 0).mp h1)
  · intro v f h1 h2
    rw [h.vertEdge, h.edgeVert]
    rcases (hV v).mp h1 with h3 | h3
    · have hv : v ≠ nv := fun h5 => hnv (h5 ▸ h3)
      rcases (hE f).mp h2 with h4 | h4
      · have hf : f ≠ ne := fun h5 => hne (h5 ▸ h4)
        have := hs.sym.vertEdge v f h3 h4
        tauto
      · subst h4
        have := nVE' v
        have := nEV v
        have : f ≠ e := fun h5 => ene h5.symm
        tauto
    · subst h3
      have := nVE f
      have := nEV' f
      have : v ≠ o := fun h5 => onv h5.symm
      tauto
  · intro f s h1 h2
    rw [h.edgeSurf, h.surfEdge]
    have hs' := (hS s).mp h2
    have he' := hs.sym.edgeSurf e s hHe hs'
    rcases (hE f).mp h1 with h4 | h4
    · have hf : f ≠ ne := fun h5 => hne (h5 ▸ h4)
      have := hs.sym.edgeSurf f s h4 hs'
      tauto
    · subst h4
      have := nES s
      have := nSE s
      tauto
  · intro s c h1 h2
    rw [h.surfVolu, hVS]
    exact hs.sym.surfVolu s c ((hS s).mp h1) ((hC c).mp h2)

theorem vert_unique {m : Mesh} (hu : (m.verts.map Vert.index).Nodup) {x y : Vert}
    (hx : x ∈ m.verts) (hy : y ∈ m.verts) (h : x.index = y.index) : x = y :=
  List.inj_on_of_nodup_map hu hx hy h

theorem in_not_out {lb ub : Fin 3 → ℚ} {m : Mesh} (hu : (m.verts.map Vert.index).Nodup) {v : Int}
    (h1 : VertInside lb ub m v) (h2 : VertOutside lb ub m v) : False := by
  obtain ⟨x, hx, h3, h4⟩ := h1
  obtain ⟨y, hy, h5, h6⟩ := h2
  have := vert_unique hu hx hy (h3.trans h5.symm)
  subst this
  exact h4 h6

theorem in_or_out {lb ub : Fin 3 → ℚ} {m : Mesh} {v : Int} (h : HasVert m v) :
    VertInside lb ub m v ∨ VertOutside lb ub m v := by
  obtain ⟨x, hx, h1⟩ := h
  by_cases hb : Beyond lb ub x.coord
  · exact Or.inr ⟨x, hx, h1, hb⟩
  · exact Or.inl ⟨x, hx, h1, hb⟩

theorem mark_iff (lb ub : Fin 3 → ℚ) (x : List ℚ) :
    ([0, 1, 2].any fun j : Fin 3 =>
      decide (x.getD j 0 > ub j) || decide (x.getD j 0 < lb j)) = true ↔ Beyond lb ub x := by
  unfold Beyond
  rw [List.any_eq_true]
  constructor
  · rintro ⟨j, _, h⟩
    exact ⟨j, by simpa using h⟩
  · rintro ⟨j, h⟩
    refine ⟨j, ?_, by simpa using h⟩
    match j with
    | 0 => simp
    | 1 => simp
    | 2 => simp

theorem posOf_prefix {α : Type} {ix : α → Int} {l l' : List α} {xs : List Int} {k : Int}
    (h : l'.map ix = l.map ix ++ xs) (hk : ∃ a ∈ l, ix a = k) :
    posOf ix l' k = posOf ix l k := by
  rw [posOf_map, h, posOf_map l]
  obtain ⟨p, hp, _⟩ := posOf_mem (ix := id) (l := l.map ix) (k := k) (by
    obtain ⟨a, ha, h1⟩ := hk
    exact ⟨k, List.mem_map.mpr ⟨a, ha, h1⟩, rfl⟩)
  unfold posOf at hp ⊢
  rw [List.findIdx?_append]
  cases hf : List.findIdx? (fun a => id a == k) (l.map ix) with
  | none => rw [hf] at hp; simp at hp
  | some q => simp

theorem isOut_marks {lb ub : Fin 3 → ℚ} {m0 m : Mesh} {xs : List Int} {ys : List Bool} {v : Int}
    (hu : (m0.verts.map Vert.index).Nodup)
    (h : m.verts.map Vert.index = m0.verts.map Vert.index ++ xs) (hv : HasVert m0 v) :
    ∃ b, isOut m (marks lb ub m0 ++ ys) v = .ok b ∧ (b = true ↔ VertOutside lb ub m0 v) := by
  obtain ⟨p, hp, hlt, hix⟩ := posOf_mem (ix := Vert.index) hv
  unfold isOut
  rw [posOf_prefix h hv, hp]
  have hl : p < (marks lb ub m0).length := by simpa [marks] using hlt
  refine ⟨(marks lb ub m0)[p], ?_, ?_⟩
  · unfold vecGet
    rw [if_neg (by omega), Int.toNat_natCast, List.getElem?_append_left hl,
      List.getElem?_eq_getElem hl]
  · simp only [marks, List.getElem_map]
    rw [mark_iff]
    constructor
    · intro hb; exact ⟨m0.verts[p], List.getElem_mem hlt, hix, hb⟩
    · rintro ⟨y, hy, h1, h2⟩
      have := vert_unique hu hy (List.getElem_mem hlt) (h1.trans hix.symm)
      exact this ▸ h2

theorem ends_have {m : Mesh} (hs : Sound m) {f v : Int} (h : EdgeVert m f v) : HasVert m v :=
  hs.noDangling.edgeVert f v h (fun h0 => hs.zeroOutside.edgeVert f (h0 ▸ h))

/-- The edges found are those which go out of the box. -/
theorem cutEdges_ok {lb ub : Fin 3 → ℚ} {m : Mesh} (hs : Sound m) (ht : TwoVerts m) :
    ∃ es, cutEdges m (marks lb ub m) = .ok es ∧ es.Nodup ∧ ∀ f, f ∈ es ↔ Crosses lb ub m f := by
  classical
  have key : ∀ (l : List Edge) (acc : List Int), (∀ x ∈ l, x ∈ m.edges) →
      l.foldlM (m := Except Fault) (fun (acc : List Int) (x : Edge) => do
        let a ← vecGet x.vertind 0
        let b ← vecGet x.vertind 1
        let oa ← isOut m (marks lb ub m) a
        let ob ← isOut m (marks lb ub m) b
        .ok (if oa ^^ ob then acc ++ [x.index] else acc)) acc =
      .ok (acc ++ (l.filter fun x => decide (Crosses lb ub m x.index)).map Edge.index) := by
    intro l
    induction l with
    | nil => intro acc _; simp; rfl
    | cons x l ih =>
      intro acc hl
      have hx := hl x (by simp)
      obtain ⟨a, b, hab⟩ := List.length_eq_two.mp (ht x hx)
      have hEa : EdgeVert m x.index a := ⟨x, hx, rfl, by simp [hab]⟩
      have hEb : EdgeVert m x.index b := ⟨x, hx, rfl, by simp [hab]⟩
      obtain ⟨oa, hoa, hia⟩ := isOut_marks (lb := lb) (ub := ub) (m := m) (ys := []) (xs := [])
        hs.unique.verts (by simp) (ends_have hs hEa)
      obtain ⟨ob, hob, hib⟩ := isOut_marks (lb := lb) (ub := ub) (m := m) (ys := []) (xs := [])
        hs.unique.verts (by simp) (ends_have hs hEb)
      rw [List.append_nil] at hoa hob
      have hga : vecGet x.vertind 0 = .ok a := by simp [hab, vecGet]
      have hgb : vecGet x.vertind 1 = .ok b := by simp [hab, vecGet]
      have hc : (oa ^^ ob) = decide (Crosses lb ub m x.index) := by
        have hends : ∀ v, EdgeVert m x.index v → v = a ∨ v = b := by
          rintro v ⟨y, hy, h1, h2⟩
          have := edge_unique hs.unique.edges hy hx h1
          subst this
          simpa [hab] using h2
        have hi : ∀ v, HasVert m v → (VertInside lb ub m v ↔ ¬ VertOutside lb ub m v) :=
          fun v hv => ⟨fun h1 h2 => in_not_out hs.unique.verts h1 h2,
            fun h1 => (in_or_out hv).resolve_right h1⟩
        have hca : Crosses lb ub m x.index ↔
            ((oa = false ∧ ob = true) ∨ (oa = true ∧ ob = false)) := by
          have ha' := hi a (ends_have hs hEa)
          have hb' := hi b (ends_have hs hEb)
          constructor
          · rintro ⟨c, d, h1, h2, h3, h4⟩
            rcases hends c h1 with rfl | rfl <;> rcases hends d h2 with rfl | rfl
            · exact (in_not_out hs.unique.verts h3 h4).elim
            · exact Or.inl ⟨by simpa using mt hia.mp (ha'.mp h3), hib.mpr h4⟩
            · exact Or.inr ⟨hia.mpr h4, by simpa using mt hib.mp (hb'.mp h3)⟩
            · exact (in_not_out hs.unique.verts h3 h4).elim
          · rintro (⟨h1, h2⟩ | ⟨h1, h2⟩)
            · exact ⟨a, b, hEa, hEb, ha'.mpr (fun h => by simp [hia.mpr h] at h1), hib.mp h2⟩
            · exact ⟨b, a, hEb, hEa, hb'.mpr (fun h => by simp [hib.mpr h] at h2), hia.mp h1⟩
        by_cases hC : Crosses lb ub m x.index
        · rw [decide_eq_true hC]
          rcases hca.mp hC with h | h <;> simp [h]
        · rw [decide_eq_false hC]
          have := mt hca.mpr hC
          cases oa <;> cases ob <;> simp_all
      rw [List.foldlM_cons]
      simp only [hga, hgb, hoa, hob, bind, Except.bind]
      rw [hc]
      have := ih (if decide (Crosses lb ub m x.index) = true then acc ++ [x.index] else acc)
        (fun y hy => hl y (by simp [hy]))
      simp only [bind, Except.bind] at this
      rw [this]
      by_cases hC : Crosses lb ub m x.index <;> simp [hC]
  refine ⟨_, key m.edges [] (fun _ h => h), ?_, ?_⟩
  · rw [List.nil_append]
    exact hs.unique.edges.sublist (List.filter_sublist.map _)
  · intro f
    rw [List.nil_append, List.mem_map]
    constructor
    · rintro ⟨x, hx, rfl⟩
      simpa using (List.mem_filter.mp hx).2
    · intro h
      have h' := h
      obtain ⟨_, _, ⟨x, hx, h1, _⟩, _⟩ := h
      exact ⟨x, List.mem_filter.mpr ⟨hx, by simpa [h1] using h'⟩, h1⟩

/-- What holds when the edges `rest` are left to split and `k` have been. -/
structure Inv (place : List ℚ → List ℚ → Res (List ℚ)) (lb ub : Fin 3 → ℚ) (m0 : Mesh)
    (rest : List Int) (k : Nat) (m : Mesh) (vo : List Bool) : Prop where
  sound : Sound m
  two : TwoVerts m
  vIdx : m.verts.map Vert.index = m0.verts.map Vert.index ++
    (List.range k).map fun j : Nat => Mesh.maxIdx Vert.index m0.verts + 1 + (j : Int)
  eIdx : m.edges.map Edge.index = m0.edges.map Edge.index ++
    (List.range k).map fun j : Nat => Mesh.maxIdx Edge.index m0.edges + 1 + (j : Int)
  outs : vo = marks lb ub m0 ++ List.replicate k false
  surfs : m.surfs.map Surf.index = m0.surfs.map Surf.index
  volus : m.volus = m0.volus
  surfVolu : ∀ s c, SurfVolu m s c ↔ SurfVolu m0 s c
  noZero : ∀ f, ¬ EdgeSurf m f 0
  todo : ∀ f ∈ rest, ∀ v, EdgeVert m f v ↔ EdgeVert m0 f v
  cross : ∀ f a b, EdgeVert m f a → EdgeVert m f b → VertInside lb ub m0 a →
    VertOutside lb ub m0 b → f ∈ rest
  inner : ∀ f v, HasEdge m0 f → VertInside lb ub m0 v → (EdgeVert m f v ↔ EdgeVert m0 f v)
  kept : ∀ f v, HasEdge m0 f → ¬ Crosses lb ub m0 f → (EdgeVert m f v ↔ EdgeVert m0 f v)
  halves : ∀ e, Crosses lb ub m0 e → e ∉ rest → ∃ nv ne, Halved lb ub m0 m e nv ne
  surfEdge : ∀ s f, HasEdge m0 f → (SurfEdge m s f ↔ SurfEdge m0 s f)
  coord : ∀ x ∈ m0.verts, ∃ y ∈ m.verts, y.index = x.index ∧ y.coord = x.coord
  placed : ∀ y ∈ m.verts, HasVert m0 y.index ∨ ∃ f, ∃ a ∈ m0.verts, ∃ b ∈ m0.verts,
    EdgeVert m0 f a.index ∧ EdgeVert m0 f b.index ∧ ¬ Beyond lb ub a.coord ∧
    Beyond lb ub b.coord ∧ place a.coord b.coord = .ok y.coord ∧ EdgeVert m f y.index

theorem fresh_of {α : Type} {ix : α → Int} {l l' : List α} {k : Nat}
    (h : l'.map ix = l.map ix ++
      (List.range k).map fun j : Nat => Mesh.maxIdx ix l + 1 + (j : Int)) {x : α} (hx : x ∈ l') :
    ix x < Mesh.maxIdx ix l + 1 + (k : Int) := by
  have : ix x ∈ l'.map ix := List.mem_map.mpr ⟨x, hx, rfl⟩
  rw [h, List.mem_append] at this
  rcases this with h1 | h1
  · obtain ⟨y, hy, h2⟩ := List.mem_map.mp h1
    have := (Mesh.maxIdx_spec ix l).2 y hy
    omega
  · obtain ⟨j, hj, h2⟩ := List.mem_map.mp h1
    rw [List.mem_range] at hj
    omega

theorem split_other {m m' : Mesh} {e o nv ne f v : Int} (h : EdgeSplit m m' e o nv ne)
    (hf : f ≠ ne) (he : f ≠ e) : EdgeVert m' f v ↔ EdgeVert m f v := by
  rw [h.edgeVert]
  constructor
  · rintro (h1 | h1 | h1)
    · exact h1.1
    · exact absurd h1.1 he
    · exact absurd h1.1 hf
  · exact fun h1 => Or.inl ⟨h1, fun h2 => he h2.1⟩

theorem split_old {m m' : Mesh} {e o nv ne f v : Int} (h : EdgeSplit m m' e o nv ne)
    (hf : f ≠ ne) (hv : v ≠ nv) : EdgeVert m' f v ↔ EdgeVert m f v ∧ ¬ (f = e ∧ v = o) := by
  rw [h.edgeVert]
  constructor
  · rintro (h1 | h1 | h1)
    · exact h1
    · exact absurd h1.2 hv
    · exact absurd h1.1 hf
  · exact fun h1 => Or.inl h1

theorem split_new {m m' : Mesh} {e o nv ne v : Int} (h : EdgeSplit m m' e o nv ne)
    (hne : ¬ EdgeVert m ne v) (hene : e ≠ ne) (h1 : EdgeVert m' ne v) : v = o ∨ v = nv := by
  rcases (h.edgeVert ne v).mp h1 with h1 | h1 | h1
  · exact absurd h1.1 hne
  · exact absurd h1.1.symm hene
  · exact h1.2

/-- Splitting another edge keeps the two halves of one. -/
theorem halved_split {lb ub : Fin 3 → ℚ} {m0 m m' : Mesh} {e o nv ne d v w : Int}
    (h : EdgeSplit m m' e o nv ne) (hd : Halved lb ub m0 m d v w) (hde : d ≠ e)
    (hne : ¬ HasEdge m ne) (hnv : ¬ HasVert m nv) (ho : HasVert m0 o) (he : HasEdge m0 e)
    (hdm : HasEdge m d) : Halved lb ub m0 m' d v w := by
  have hvn : v ≠ nv := fun h1 => hnv (h1 ▸ hd.newVert.2)
  have hvo : v ≠ o := fun h1 => hd.newVert.1 (h1 ▸ ho)
  have hwn : w ≠ ne := fun h1 => hne (h1 ▸ hd.newEdge.2)
  have hwe : w ≠ e := fun h1 => hd.newEdge.1 (h1 ▸ he)
  have hdn : d ≠ ne := fun h1 => hne (h1 ▸ hdm)
  refine ⟨⟨hd.newVert.1, (has_of_map h.verts v).mpr (Or.inl hd.newVert.2)⟩,
    ⟨hd.newEdge.1, (has_of_map h.edges w).mpr (Or.inl hd.newEdge.2)⟩, ?_,
    fun x => (split_other h hwn hwe).trans (hd.outer x),
    fun x => (split_other h hdn hde).trans (hd.inner x), ?_⟩
  · intro f
    rw [← hd.meet, h.edgeVert]
    constructor
    · rintro (h1 | h1 | h1)
      · exact h1.1
      · exact absurd h1.2 hvn
      · exact absurd h1.2 (by simp [hvn, hvo])
    · exact fun h1 => Or.inl ⟨h1, fun h2 => hvo h2.2⟩
  · intro s
    rw [← hd.surf, h.surfEdge]
    exact ⟨fun h1 => h1.resolve_right fun h2 => hwn h2.1, Or.inl⟩

/-- An edge just split is two. -/
theorem halved_new {lb ub : Fin 3 → ℚ} {m0 m m' : Mesh} {e a b nv ne : Int} (hs : Sound m)
    (h : EdgeSplit m m' e b nv ne) (hev : ∀ x, EdgeVert m e x ↔ x = a ∨ x = b)
    (hev0 : ∀ x, EdgeVert m0 e x ↔ x = a ∨ x = b)
    (hin : ∀ x, x = a ∨ x = b → (VertInside lb ub m0 x ↔ x = a))
    (hout : ∀ x, x = a ∨ x = b → (VertOutside lb ub m0 x ↔ x = b)) (hab : a ≠ b)
    (hne : ¬ HasEdge m ne) (hnv : ¬ HasVert m nv) (hne0 : ¬ HasEdge m0 ne)
    (hnv0 : ¬ HasVert m0 nv) (hnvp : 0 < nv) (hee : e ≠ ne)
    (hsu : ∀ s, SurfEdge m s e ↔ SurfEdge m0 s e) :
    Halved lb ub m0 m' e nv ne := by
  have nEV : ∀ v, ¬ EdgeVert m ne v := fun f ⟨x, hx, h1, _⟩ => hne ⟨x, hx, h1⟩
  have nEV' : ∀ f, ¬ EdgeVert m f nv := fun v h1 => hnv (hs.noDangling.edgeVert v nv h1 hnvp.ne')
  have nSE : ∀ s, ¬ SurfEdge m s ne := fun s h1 => hne (hs.noDangling.surfEdge s ne h1)
  refine ⟨⟨hnv0, (has_of_map h.verts nv).mpr (Or.inr rfl)⟩,
    ⟨hne0, (has_of_map h.edges ne).mpr (Or.inr rfl)⟩, ?_, ?_, ?_, ?_⟩
  · intro f
    rw [h.edgeVert]
    constructor
    · rintro (h1 | h1 | h1)
      · exact absurd h1.1 (nEV' f)
      · exact Or.inl h1.1
      · exact Or.inr h1.1
    · rintro (h1 | h1)
      · exact Or.inr (Or.inl ⟨h1, rfl⟩)
      · exact Or.inr (Or.inr ⟨h1, Or.inr rfl⟩)
  · intro v
    rw [h.edgeVert, hev0]
    constructor
    · rintro (h1 | h1 | h1)
      · exact absurd h1.1 (nEV v)
      · exact absurd h1.1.symm hee
      · rcases h1.2 with h2 | h2
        · exact Or.inr ⟨Or.inr h2, (hout v (Or.inr h2)).mpr h2⟩
        · exact Or.inl h2
    · rintro (h1 | h1)
      · exact Or.inr (Or.inr ⟨rfl, Or.inr h1⟩)
      · exact Or.inr (Or.inr ⟨rfl, Or.inl ((hout v h1.1).mp h1.2)⟩)
  · intro v
    rw [h.edgeVert, hev0]
    constructor
    · rintro (h1 | h1 | h1)
      · have h2 := (hev v).mp h1.1
        refine Or.inr ⟨h2, (hin v h2).mpr (h2.resolve_right fun h3 => h1.2 ⟨rfl, h3⟩)⟩
      · exact Or.inl h1.2
      · exact absurd h1.1 hee
    · rintro (h1 | h1)
      · exact Or.inr (Or.inl ⟨rfl, h1⟩)
      · have h2 := (hin v h1.1).mp h1.2
        exact Or.inl ⟨(hev v).mpr h1.1, fun h3 => hab (h2.symm.trans h3.2)⟩
  · intro s
    rw [h.surfEdge, ← hsu]
    constructor
    · rintro (h1 | h1)
      · exact absurd h1 (nSE s)
      · exact h1.2
    · exact fun h1 => Or.inr ⟨rfl, h1⟩

theorem split_surf {m m' : Mesh} {e o nv ne f s : Int} (h : EdgeSplit m m' e o nv ne)
    (hf : f ≠ ne) : SurfEdge m' s f ↔ SurfEdge m s f := by
  rw [h.surfEdge]
  exact ⟨fun h1 => h1.resolve_right fun h2 => hf h2.1, Or.inl⟩

theorem inv_step {place : List ℚ → List ℚ → Res (List ℚ)} {lb ub : Fin 3 → ℚ} {m0 m : Mesh}
    {vo : List Bool} {e : Int} {rest : List Int} {k : Nat} (hs0 : Sound m0)
    (hpl : ∀ x y, ¬ Beyond lb ub x → Beyond lb ub y → ∃ z, place x y = .ok z)
    (hnd : (e :: rest).Nodup) (hcr : ∀ f ∈ e :: rest, Crosses lb ub m0 f)
    (h : Inv place lb ub m0 (e :: rest) k m vo) :
    ∃ m', splitEdge place (Mesh.maxIdx Vert.index m0.verts + 1 + (k : Int))
        (Mesh.maxIdx Edge.index m0.edges + 1 + (k : Int)) e (m, vo) = .ok (m', vo ++ [false]) ∧
      Inv place lb ub m0 rest (k + 1) m' (vo ++ [false]) := by
  obtain ⟨a, b, hEa0, hEb0, hIn, hOut⟩ := hcr e (by simp)
  have hEa := (h.todo e (by simp) a).mpr hEa0
  have hEb := (h.todo e (by simp) b).mpr hEb0
  have hab : a ≠ b := fun h1 => in_not_out hs0.unique.verts hIn (h1 ▸ hOut)
  have hVa0 := ends_have hs0 hEa0
  have hVb0 := ends_have hs0 hEb0
  obtain ⟨ed, hed, hei, hea⟩ := hEa
  obtain ⟨ed2, hed2, hei2, heb⟩ := hEb
  have := edge_unique h.sound.unique.edges hed2 hed (hei2.trans hei.symm)
  subst this
  obtain ⟨p, q, hpq⟩ := List.length_eq_two.mp (h.two ed2 hed2)
  obtain ⟨ba, hba, hba'⟩ := isOut_marks (lb := lb) (ub := ub) (ys := List.replicate k false)
    hs0.unique.verts h.vIdx hVa0
  obtain ⟨bb, hbb, hbb'⟩ := isOut_marks (lb := lb) (ub := ub) (ys := List.replicate k false)
    hs0.unique.verts h.vIdx hVb0
  rw [← h.outs] at hba hbb
  have hba0 : ba = false := by
    by_contra h1
    exact in_not_out hs0.unique.verts hIn (hba'.mp (by simpa using h1))
  have hbb0 : bb = true := hbb'.mpr hOut
  subst hba0 hbb0
  have hends : ∀ v, EdgeVert m e v → v = a ∨ v = b := by
    rintro v ⟨y, hy, h1, h2⟩
    have := edge_unique h.sound.unique.edges hy hed2 (h1.trans hei.symm)
    subst this
    rw [hpq] at hea heb h2
    simp only [List.mem_cons, List.not_mem_nil, or_false] at hea heb h2
    rcases hea with rfl | rfl <;> rcases heb with rfl | rfl <;> tauto
  obtain ⟨oa, hp, hq, hia, hob⟩ : ∃ oa, isOut m vo p = .ok oa ∧ isOut m vo q = .ok (!oa) ∧
      (if oa then q else p) = a ∧ (if oa then p else q) = b := by
    rw [hpq] at hea heb
    simp only [List.mem_cons, List.not_mem_nil, or_false] at hea heb
    rcases hea with rfl | rfl <;> rcases heb with rfl | rfl
    · exact absurd rfl hab
    · exact ⟨false, hba, hbb, rfl, rfl⟩
    · exact ⟨true, hbb, hba, rfl, rfl⟩
    · exact absurd rfl hab
  have hpqne : p ≠ q := by
    intro h1
    subst h1
    cases oa <;> simp_all
  have hco : ∀ x ∈ m.verts, HasVert m0 x.index → ∃ x0 ∈ m0.verts, x0.index = x.index ∧
      x0.coord = x.coord := by
    rintro x hx ⟨x0, hx0, h1⟩
    obtain ⟨y, hy, h2, h3⟩ := h.coord x0 hx0
    have := vert_unique h.sound.unique.verts hy hx (h2.trans h1)
    subst this
    exact ⟨x0, hx0, h1, h3.symm⟩
  have hinC : ∀ x0 ∈ m0.verts, x0.index = a → ¬ Beyond lb ub x0.coord := by
    intro x0 hx0 h1 h2
    exact in_not_out hs0.unique.verts hIn ⟨x0, hx0, h1, h2⟩
  have houtC : ∀ x0 ∈ m0.verts, x0.index = b → Beyond lb ub x0.coord := by
    intro x0 hx0 h1
    by_contra h2
    exact in_not_out hs0.unique.verts ⟨x0, hx0, h1, h2⟩ hOut
  obtain ⟨m', hm', hsp, htwo, hc1, hc2⟩ := splitEdge_ok (place := place)
    (nv := Mesh.maxIdx Vert.index m0.verts + 1 + (k : Int))
    (ne := Mesh.maxIdx Edge.index m0.edges + 1 + (k : Int)) h.sound hed2 hei hpq hp hq hpqne
    h.noZero (by
      intro x hx y hy h1 h2
      rw [hia] at h1
      rw [hob] at h2
      obtain ⟨x0, hx0, h3, h4⟩ := hco x hx (h1 ▸ hVa0)
      obtain ⟨y0, hy0, h5, h6⟩ := hco y hy (h2 ▸ hVb0)
      rw [← h4, ← h6]
      exact hpl _ _ (hinC x0 hx0 (h3.trans h1)) (houtC y0 hy0 (h5.trans h2)))
  rw [hob] at hsp
  rw [hia, hob] at hc2
  refine ⟨m', hm', ?_⟩
  obtain ⟨nv, hnv⟩ : ∃ nv, nv = Mesh.maxIdx Vert.index m0.verts + 1 + (k : Int) := ⟨_, rfl⟩
  obtain ⟨ne, hne⟩ : ∃ ne, ne = Mesh.maxIdx Edge.index m0.edges + 1 + (k : Int) := ⟨_, rfl⟩
  rw [← hnv, ← hne] at hsp
  rw [← hnv] at hc2
  have hfV : ¬ HasVert m nv := by
    rintro ⟨x, hx, h1⟩
    have := fresh_of h.vIdx hx
    omega
  have hfE : ¬ HasEdge m ne := by
    rintro ⟨x, hx, h1⟩
    have := fresh_of h.eIdx hx
    omega
  have hV0 : ∀ v, HasVert m0 v → HasVert m v := by
    rintro v ⟨x, hx, h1⟩
    obtain ⟨y, hy, h2, _⟩ := h.coord x hx
    exact ⟨y, hy, h2.trans h1⟩
  have hE0 : ∀ f, HasEdge m0 f → HasEdge m f := by
    rintro f ⟨x, hx, h1⟩
    have : f ∈ m.edges.map Edge.index := by
      rw [h.eIdx]
      exact List.mem_append_left _ (List.mem_map.mpr ⟨x, hx, h1⟩)
    obtain ⟨y, hy, h2⟩ := List.mem_map.mp this
    exact ⟨y, hy, h2⟩
  have nV0 : ∀ v, HasVert m0 v → v ≠ nv := fun v hv h1 => hfV (h1 ▸ hV0 v hv)
  have nE0 : ∀ f, HasEdge m0 f → f ≠ ne := fun f hf h1 => hfE (h1 ▸ hE0 f hf)
  have hHin : ∀ v, VertInside lb ub m0 v → HasVert m0 v := fun v ⟨x, hx, h1, _⟩ => ⟨x, hx, h1⟩
  have hHout : ∀ v, VertOutside lb ub m0 v → HasVert m0 v := fun v ⟨x, hx, h1, _⟩ => ⟨x, hx, h1⟩
  have hHcr : ∀ f, Crosses lb ub m0 f → HasEdge m0 f :=
    fun f ⟨_, _, ⟨x, hx, h1, _⟩, _⟩ => ⟨x, hx, h1⟩
  have nEVne : ∀ v, ¬ EdgeVert m ne v := fun v ⟨x, hx, h1, _⟩ => hfE ⟨x, hx, h1⟩
  have hm1 := (Mesh.maxIdx_spec Vert.index m0.verts).1
  have hm2 := (Mesh.maxIdx_spec Edge.index m0.edges).1
  refine ⟨sound_split h.sound hsp ((h.todo e (by simp) b).mpr hEb0) hfV hfE (by omega) (by omega),
    htwo h.two, ?_, ?_, ?_, hsp.surfs.trans h.surfs, hsp.volus.trans h.volus,
    fun s c => (hsp.surfVolu s c).trans (h.surfVolu s c), ?_, ?_, ?_, ?_, ?_, ?_, ?_, ?_, ?_⟩
  · rw [hsp.verts, h.vIdx, List.range_succ, List.map_append, hnv]
    simp
  · rw [hsp.edges, h.eIdx, List.range_succ, List.map_append, hne]
    simp
  · rw [h.outs, List.replicate_succ', List.append_assoc]
  · intro f h1
    rcases (hsp.edgeSurf f 0).mp h1 with h2 | h2
    · exact h.noZero f h2
    · exact h.noZero e h2.2
  · intro f hf v
    have h1 : f ≠ e := fun h1 => (List.nodup_cons.mp hnd).1 (h1 ▸ hf)
    have h2 := nE0 f (hHcr f (hcr f (by simp [hf])))
    exact (split_other hsp h2 h1).trans (h.todo f (by simp [hf]) v)
  · intro f a' b' h1 h2 h3 h4
    have hna := nV0 a' (hHin a' h3)
    have hnb := nV0 b' (hHout b' h4)
    by_cases hf : f = ne
    · rw [hf] at h1
      have : a' = b := (split_new hsp (nEVne a') (nE0 e (hHcr e (hcr e (by simp)))) h1).resolve_right
        hna
      exact (in_not_out hs0.unique.verts h3 (this ▸ hOut)).elim
    · have h5 : EdgeVert m f a' := ((split_old hsp hf hna).mp h1).1
      have h6 := (split_old hsp hf hnb).mp h2
      rcases List.mem_cons.mp (h.cross f a' b' h5 h6.1 h3 h4) with h7 | h7
      · rcases hends b' (h7 ▸ h6.1) with h8 | h8
        · exact (in_not_out hs0.unique.verts (h8 ▸ hIn) h4).elim
        · exact absurd ⟨h7, h8⟩ h6.2
      · exact h7
  · intro f v hf hv
    have h1 := nE0 f hf
    have h2 := nV0 v (hHin v hv)
    have h3 : v ≠ b := fun h3 => in_not_out hs0.unique.verts hv (h3 ▸ hOut)
    exact (split_old hsp h1 h2).trans ((and_iff_left fun h4 => h3 h4.2).trans (h.inner f v hf hv))
  · intro f v hf hv
    have h1 := nE0 f hf
    have h2 : f ≠ e := fun h2 => hv (h2 ▸ hcr e (by simp))
    exact (split_other hsp h1 h2).trans (h.kept f v hf hv)
  · intro d hd hdr
    by_cases hde : d = e
    · subst hde
      refine ⟨nv, ne, halved_new h.sound hsp (a := a) ?_ ?_ ?_ ?_ hab hfE hfV
        (fun h1 => nE0 ne h1 rfl) (fun h1 => nV0 nv h1 rfl) (by omega) (nE0 d (hHcr d hd))
        fun s => h.surfEdge s d (hHcr d hd)⟩
      · exact fun x => ⟨hends x, fun h1 => (h.todo d (by simp) x).mpr (by
          rcases h1 with h1 | h1
          · exact h1 ▸ hEa0
          · exact h1 ▸ hEb0)⟩
      · exact fun x => ⟨fun h1 => hends x ((h.todo d (by simp) x).mpr h1), fun h1 => by
          rcases h1 with h1 | h1
          · exact h1 ▸ hEa0
          · exact h1 ▸ hEb0⟩
      · exact fun x hx => ⟨fun h1 => hx.resolve_right fun h2 =>
          in_not_out hs0.unique.verts h1 (h2 ▸ hOut), fun h1 => h1 ▸ hIn⟩
      · exact fun x hx => ⟨fun h1 => hx.resolve_left fun h2 =>
          in_not_out hs0.unique.verts (h2 ▸ hIn) h1, fun h1 => h1 ▸ hOut⟩
    · obtain ⟨v, w, hvw⟩ := h.halves d hd (by simp [hde, hdr])
      exact ⟨v, w, halved_split hsp hvw hde hfE hfV hVb0 (hHcr e (hcr e (by simp)))
        (hE0 d (hHcr d hd))⟩
  · intro s f hf
    have h1 := nE0 f hf
    exact (split_surf hsp h1).trans (h.surfEdge s f hf)
  · intro x hx
    obtain ⟨y, hy, h1, h2⟩ := h.coord x hx
    obtain ⟨w, hw, h3, h4⟩ := hc1 y hy
    exact ⟨w, hw, h3.trans h1, h4.trans h2⟩
  · intro y hy
    by_cases hy0 : HasVert m0 y.index
    · exact Or.inl hy0
    · right
      rcases hc2 y hy with ⟨x, hx, h1, h2⟩ | ⟨h1, x, hx, w, hw, h2, h3, h4⟩
      · rcases h.placed x hx with h3 | ⟨f, c, hc, d, hd, h3, h4, h5, h6, h7, h8⟩
        · exact absurd (h1 ▸ h3) hy0
        · refine ⟨f, c, hc, d, hd, h3, h4, h5, h6, h2 ▸ h7, ?_⟩
          rw [hsp.edgeVert]
          refine Or.inl ⟨h1 ▸ h8, fun h9 => hy0 (h9.2 ▸ hVb0)⟩
      · obtain ⟨x0, hx0, h5, h6⟩ := hco x hx (h2 ▸ hVa0)
        obtain ⟨w0, hw0, h7, h8⟩ := hco w hw (h3 ▸ hVb0)
        refine ⟨e, x0, hx0, w0, hw0, ?_, ?_, hinC x0 hx0 (h5.trans h2),
          houtC w0 hw0 (h7.trans h3), ?_, ?_⟩
        · rw [h5, h2]; exact hEa0
        · rw [h7, h3]; exact hEb0
        · rw [h6, h8]; exact h4
        · rw [hsp.edgeVert]
          exact Or.inr (Or.inl ⟨rfl, h1⟩)

theorem inv_all {place : List ℚ → List ℚ → Res (List ℚ)} {lb ub : Fin 3 → ℚ} {m0 : Mesh}
    (hs0 : Sound m0)
    (hpl : ∀ x y, ¬ Beyond lb ub x → Beyond lb ub y → ∃ z, place x y = .ok z) :
    ∀ (rest : List Int) (k : Nat) (m : Mesh) (vo : List Bool), rest.Nodup →
      (∀ f ∈ rest, Crosses lb ub m0 f) → Inv place lb ub m0 rest k m vo →
      ∃ m' vo', splitAll place rest (Mesh.maxIdx Vert.index m0.verts + 1 + (k : Int))
          (Mesh.maxIdx Edge.index m0.edges + 1 + (k : Int)) (m, vo) = .ok (m', vo') ∧
        Inv place lb ub m0 [] (k + rest.length) m' vo' := by
  intro rest
  induction rest with
  | nil => intro k m vo _ _ h; exact ⟨m, vo, rfl, by simpa using h⟩
  | cons e rest ih =>
    intro k m vo hnd hcr h
    obtain ⟨m1, h1, h2⟩ := inv_step hs0 hpl hnd hcr h
    obtain ⟨m', vo', h3, h4⟩ := ih (k + 1) m1 (vo ++ [false]) (List.nodup_cons.mp hnd).2
      (fun f hf => hcr f (by simp [hf])) h2
    refine ⟨m', vo', ?_, ?_⟩
    · simp only [splitAll, h1, bind, Except.bind]
      rw [← h3]
      congr 1 <;> push_cast <;> ring
    · have : k + (e :: rest).length = k + 1 + rest.length := by simp; omega
      rw [this]; exact h4

theorem inv_marks {place : List ℚ → List ℚ → Res (List ℚ)} {lb ub : Fin 3 → ℚ} {m0 m : Mesh}
    {rest : List Int} {k : Nat} {vo : List Bool} (hs0 : Sound m0)
    (h : Inv place lb ub m0 rest k m vo) : MarksOutside lb ub m0 m vo := by
  have hlen : m.verts.length = m0.verts.length + k := by
    simpa using congrArg List.length h.vIdx
  refine ⟨by rw [h.outs, hlen]; simp [marks], ?_⟩
  intro i x hx
  have hix : (m.verts.map Vert.index)[i]? = some x.index := by simp [hx]
  rw [h.vIdx] at hix
  rw [h.outs]
  by_cases hi : i < m0.verts.length
  · rw [List.getElem?_append_left (by simpa using hi)] at hix
    rw [List.getElem?_append_left (by simpa [marks] using hi)]
    simp only [List.getElem?_map, List.getElem?_eq_getElem hi, Option.map_some,
      Option.some.injEq] at hix
    simp only [marks, List.getElem?_map, List.getElem?_eq_getElem hi, Option.map_some,
      Option.some.injEq]
    rw [mark_iff]
    constructor
    · intro hb; exact ⟨m0.verts[i], List.getElem_mem hi, hix, hb⟩
    · rintro ⟨y, hy, h1, h2⟩
      have := vert_unique hs0.unique.verts hy (List.getElem_mem hi) (h1.trans hix.symm)
      exact this ▸ h2
  · constructor
    · intro h1
      rw [List.getElem?_append_right (by simpa [marks] using hi)] at h1
      have := List.mem_of_getElem? h1
      simp at this
    · rintro ⟨y, hy, h1, _⟩
      rw [List.getElem?_append_right (by simpa using hi)] at hix
      obtain ⟨j, _, h2⟩ := List.mem_map.mp (List.mem_of_getElem? hix)
      have := (Mesh.maxIdx_spec Vert.index m0.verts).2 y hy
      omega

end RSVS.CutEdges
