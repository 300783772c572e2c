import Verif.Lemmas.TriangMaintain

/-! # Keeping the triangulation of the snake up to date -/

namespace RSVS.Props

open RSVS.Spec RSVS.Mesh RSVS.Order RSVS.Triang

/-- **C82.** Let triangles and centres fit together, and let the surfaces of the snake that are not
modified have their fans.  Then `MaintainTriangulateSnake` gives all surfaces of the snake their fans,
leaves no triangle of a surface that is gone and no centre without triangles, and keeps the centres of
the mesh.  New triangles get the cell of their surface, with the sign of the side it is on; the
triangles of surfaces that are not modified stay as they are.  The pieces of surfaces of the mesh that
the snake cuts have their fans.  The triangles of the mesh without cells get those of their surface, the
others stay as they are.  The active triangles of the mesh are those of the surfaces that
are wholly inside. -/
theorem C82_maintain {E : SnakeEnv} {cut : List TriSurf} {T T' : Triangulation}
    (hs : (E.conn.surfs.map Surf.index).Nodup) (hcut : (cut.map TriSurf.index).Nodup)
    (hstat : (T.stattri.map Triangle.index).Nodup) (hT : Tidy T.dynatri T.trivert)
    (hcell : ∀ t ∈ T.dynatri, ∀ s ∈ E.conn.surfs, s.index = t.parentsurf → E.isModif s.index = false →
      t.celltarg ≠ [])
    (hfan : ∀ s ∈ E.conn.surfs, E.isModif s.index = false → ∃ ord, orderedVerts E.conn s.edgeind = .ok ord ∧
      Fanned (ord.map fun v => (2, v)) s.index T.dynatri T.trivert)
    (h : maintain E cut T = .ok T') :
    Tidy T'.dynatri T'.trivert ∧ (∀ t ∈ T'.dynatri, t.celltarg ≠ []) ∧
    (∀ s ∈ E.conn.surfs, ∃ ord, orderedVerts E.conn s.edgeind = .ok ord ∧
      Fanned (ord.map fun v => (2, v)) s.index T'.dynatri T'.trivert) ∧
    (∀ t ∈ T'.dynatri, ∃ s ∈ E.conn.surfs, s.index = t.parentsurf ∧
      if E.isModif s.index then ∃ v v0, E.snaxVolu s.index = .ok v ∧ s.voluind.head? = some v0 ∧
        t.celltarg = [v] ∧ t.influence = [if v0 = 0 then 1 else -1]
      else t ∈ T.dynatri) ∧
    (∀ q, q.parentType = 1 → (q ∈ T'.trivert ↔ q ∈ T.trivert)) ∧
    (∃ fans, T'.intertri = fans.flatten ∧ (T'.intertri.map Triangle.index).Nodup ∧
      List.Forall₂ (fun c fan => (∀ t ∈ fan, t.parentsurf = c.index ∧ t.celltarg = c.voluind ∧
          t.influence = [-1, 1]) ∧
        ∃ p, FanOf c.pts (fan.map fun t => t.pointtype.zip t.pointind) (3, p) ∧
          (3 < c.pts.length → (⟨p, c.index, 3⟩ : TriPoint) ∈ T'.trivert)) cut fans) ∧
    List.Forall₂ (fun t t' => t'.index = t.index ∧ t'.parentsurf = t.parentsurf ∧
      t'.pointtype = t.pointtype ∧ t'.pointind = t.pointind ∧
      if t.celltarg = [] then E.meshVolu t.parentsurf = .ok t'.celltarg ∧ t'.influence = [-1, 1]
      else t' = t) T.stattri T'.stattri ∧
    T'.acttri.Nodup ∧
    (∀ a ∈ T'.acttri, ∃ t ∈ T'.stattri, t.index = a) ∧
    ∀ t ∈ T'.stattri, t.index ∈ T'.acttri ↔ WhollyIn E.vertIn cut T'.stattri t.parentsurf := by
  unfold maintain at h
  obtain ⟨d, hd, h⟩ := bind_ok_iff.mp h
  obtain ⟨i, hi, h⟩ := bind_ok_iff.mp h
  obtain ⟨st, hst, h⟩ := bind_ok_iff.mp h
  obtain ⟨it, hit, h⟩ := bind_ok_iff.mp h
  obtain ⟨dy, hdy, h⟩ := bind_ok_iff.mp h
  have hst := mapM_forall hst
  have hit := mapM_forall hit
  have hdy := mapM_forall hdy
  obtain ⟨act, hact, h⟩ : ∃ act, activeLoop E cut st [] st = .ok act ∧
      T' = { acttri := act, stattri := st, dynatri := dy, intertri := it, trivert := i.2, trisurf := cut } := by
    unfold setActive at h
    simp only at h
    cases ha : activeLoop E cut st [] st with
    | error e => rw [ha] at h; cases h
    | ok act => rw [ha] at h; cases h; exact ⟨act, rfl, rfl⟩
  subst h
  simp only
  -- the triangles of modified surfaces
  obtain ⟨ps, hps, h3, hd⟩ : ∃ ps : List Poly,
      (E.conn.surfs.filter fun s => E.isModif s.index).map (polyOfSurf E.conn 2) = ps.map .ok ∧
      (∀ p ∈ ps, 3 ≤ p.pts.length) ∧
      d = ((cleanDynaTri E.conn.surfs E.isModif T).dynatri ++
          (madeTris (maxIdx TriPoint.index (cleanDynaTri E.conn.surfs E.isModif T).trivert)
            (maxIdx Triangle.index (cleanDynaTri E.conn.surfs E.isModif T).dynatri) 0 ps).flatten,
        (cleanDynaTri E.conn.surfs E.isModif T).trivert ++
          madePoints 2 (maxIdx TriPoint.index (cleanDynaTri E.conn.surfs E.isModif T).trivert) 0 ps) := by
    split at hd
    · next hm =>
      refine ⟨[], by rw [hm]; rfl, by simp, ?_⟩
      rw [← Except.ok.inj hd]
      simp [madeTris, madePoints]
    · exact container_ok hd
  have hclean := clean_tidy (surfs := E.conn.surfs) (isModif := E.isModif) hT
  generalize hD0 : (cleanDynaTri E.conn.surfs E.isModif T).dynatri = D0 at *
  generalize hP0 : (cleanDynaTri E.conn.surfs E.isModif T).trivert = P0 at *
  have eD0 : D0 = T.dynatri.filter fun t => !staleTri E.conn.surfs E.isModif t := by
    rw [← hD0]; exact clean_dyna hT.triIdx
  have hpoly := map_ok_forall hps
  obtain ⟨hp1, hp2⟩ := forall₂_mem hpoly
  have hpar : (ps.map Poly.parent).Nodup := by
    rw [poly_parents hpoly]
    exact hs.sublist (List.filter_sublist.map _)
  have hp2' : ∀ p ∈ ps, ∀ a ∈ p.pts, a.1 = 2 := by
    intro p hp a ha
    obtain ⟨s, -, h⟩ := hp1 p hp
    obtain ⟨ord, -, e, -⟩ := polyOfSurf_ok h
    rw [e] at ha
    obtain ⟨v, -, rfl⟩ := List.mem_map.mp ha
    rfl
  -- the triangles of pieces
  obtain ⟨qs, hqs, hq3, hi⟩ := container_ok hi
  obtain rfl : cut.map polyOfTriSurf = qs := map_ok_inj hqs
  have hfans := made_fans 2 (maxIdx TriPoint.index P0) ps (maxIdx Triangle.index D0) 0 h3
  have hmadepar : ∀ t ∈ (madeTris (maxIdx TriPoint.index P0) (maxIdx Triangle.index D0) 0 ps).flatten,
      ∃ s ∈ E.conn.surfs, E.isModif s.index = true ∧ s.index = t.parentsurf ∧ t.celltarg = [] := by
    intro t ht
    obtain ⟨f, hf, htf⟩ := List.mem_flatten.mp ht
    obtain ⟨p, hp, hpa, -⟩ := (forall₂_mem hfans).1 f hf
    obtain ⟨s, hsm, hsp⟩ := hp1 p hp
    obtain ⟨hs1, hs2⟩ := List.mem_filter.mp hsm
    obtain ⟨-, -, -, e, e'⟩ := polyOfSurf_ok hsp
    exact ⟨s, hs1, hs2, by rw [(hpa t htf).1, e], by rw [(hpa t htf).2.1, e']⟩
  have htidy := dyna_tidy hclean h3 hp2'
  have hsame : List.Forall₂ SameTri d.1 dy := hdy.imp fun _ _ h => connectDyna_same h
  have hkept : ∀ t ∈ D0, t ∈ T.dynatri ∧ E.isModif t.parentsurf = false ∧
      ∃ s ∈ E.conn.surfs, s.index = t.parentsurf := by
    intro t ht
    rw [eD0] at ht
    obtain ⟨ht, hst⟩ := List.mem_filter.mp ht
    simp only [staleTri, Bool.not_or, Bool.not_not, Bool.and_eq_true, Bool.not_eq_true'] at hst
    obtain ⟨s, hs, e⟩ := List.any_eq_true.mp hst.1
    exact ⟨ht, hst.2, s, hs, beq_iff_eq.mp e⟩
  have hdyna : ∀ t ∈ dy, ∃ s ∈ E.conn.surfs, s.index = t.parentsurf ∧
      if E.isModif s.index then ∃ v v0, E.snaxVolu s.index = .ok v ∧ s.voluind.head? = some v0 ∧
        t.celltarg = [v] ∧ t.influence = [if v0 = 0 then 1 else -1]
      else t ∈ T.dynatri := by
    intro t ht
    obtain ⟨u, hu, hut⟩ := (forall₂_mem hdy).1 t ht
    rw [hd] at hu
    rcases List.mem_append.mp hu with hu | hu
    · obtain ⟨huT, hum, s, hs, e⟩ := hkept u hu
      have : u = t := by
        unfold connectDyna at hut
        rw [if_neg (by
          have := hcell u huT s hs e (by rw [e]; exact hum)
          intro h
          exact this (List.length_eq_zero_iff.mp h))] at hut
        exact Except.ok.inj hut
      subst this
      refine ⟨s, hs, e, ?_⟩
      rw [if_neg (by rw [e, hum]; simp)]
      exact huT
    · obtain ⟨s, hs1, hs2, e, hc⟩ := hmadepar u hu
      unfold connectDyna at hut
      rw [if_pos (by rw [hc]; rfl)] at hut
      obtain ⟨v, hv, hut⟩ := bind_ok_iff.mp hut
      obtain ⟨vs, hvs, hut⟩ := bind_ok_iff.mp hut
      cases h0 : vecGet vs 0 with
      | error e => rw [h0] at hut; cases hut
      | ok v0 =>
        rw [h0] at hut
        cases hut
        refine ⟨s, hs1, e, ?_⟩
        rw [if_pos hs2]
        refine ⟨v, v0, by rw [e]; exact hv, ?_, rfl, rfl⟩
        simp only at hvs
        cases hse : isearch Surf.index E.conn.surfs u.parentsurf with
        | error e => rw [hse] at hvs; cases hvs
        | ok s' =>
          rw [hse] at hvs
          cases hvs
          obtain ⟨hm, e'⟩ := elemAt_posOf hse
          rw [nodup_inj hs hs1 hm (by rw [e, e'])]
          unfold vecGet at h0
          cases hvi : s'.voluind with
          | nil => rw [hvi] at h0; simp at h0
          | cons a l => rw [hvi] at h0; simpa using h0
  refine ⟨?_, ?_, ?_, hdyna, ?_, ?_, ?_, ?_, ?_, ?_⟩
  · rw [hi]
    refine same_tidy (inter_tidy ?_ _) hsame
    rw [hd]
    exact htidy
  · intro t ht
    obtain ⟨s, hsm, e, h⟩ := hdyna t ht
    split at h
    · obtain ⟨v, v0, -, -, e, -⟩ := h
      rw [e]; simp
    · next hm => exact hcell t h s hsm e (by simpa using hm)
  · intro s hsm
    have hfilter : (dy.filter fun t => t.parentsurf == s.index).map (fun t => t.pointtype.zip t.pointind) =
        (D0.filter fun t => t.parentsurf == s.index).map corners ++
        (((madeTris (maxIdx TriPoint.index P0) (maxIdx Triangle.index D0) 0 ps).flatten).filter
          fun t => t.parentsurf == s.index).map corners := by
      rw [← List.map_append, ← List.filter_append]
      have := same_fan hsame s.index
      rw [hd] at this
      exact this
    cases hmod : E.isModif s.index with
    | false =>
      obtain ⟨ord, ho, c, hf, hpt⟩ := hfan s hsm hmod
      refine ⟨ord, ho, c, ?_, ?_⟩
      · rw [hfilter]
        have h1 : D0.filter (fun t => t.parentsurf == s.index) =
            T.dynatri.filter fun t => t.parentsurf == s.index := by
          rw [eD0, List.filter_filter]
          apply List.filter_congr
          intro t _
          cases hp : (t.parentsurf == s.index) with
          | false => rfl
          | true =>
            have hp := beq_iff_eq.mp hp
            simp only [staleTri, hp, hmod, Bool.or_false, Bool.not_not, Bool.true_and]
            exact List.any_eq_true.mpr ⟨s, hsm, beq_iff_eq.mpr rfl⟩
        have h2 : (madeTris (maxIdx TriPoint.index P0) (maxIdx Triangle.index D0) 0 ps).flatten.filter
            (fun t => t.parentsurf == s.index) = [] := by
          rw [List.filter_eq_nil_iff]
          intro t ht e
          obtain ⟨s', -, h, e', -⟩ := hmadepar t ht
          rw [e', beq_iff_eq.mp e, hmod] at h
          cases h
        rw [h1, h2, List.map_nil, List.append_nil]
        exact hf
      · intro hl
        have hq := hpt hl
        obtain ⟨t, ht, e, -⟩ := hT.used _ hq rfl
        have hk : (⟨c, s.index, 2⟩ : TriPoint) ∈ P0 := by
          rw [← hP0]
          refine clean_point hT hq (Or.inr ⟨rfl, t, ht, e, ?_⟩)
          have e : t.parentsurf = s.index := e
          simp only [staleTri, e, hmod, Bool.or_false, Bool.not_eq_false']
          exact List.any_eq_true.mpr ⟨s, hsm, beq_iff_eq.mpr rfl⟩
        rw [hi, hd]
        exact List.mem_append_left _ (List.mem_append_left _ hk)
    | true =>
      obtain ⟨p, hp, hsp⟩ := hp2 s (List.mem_filter.mpr ⟨hsm, hmod⟩)
      obtain ⟨ord, ho, e1, e2, -⟩ := polyOfSurf_ok hsp
      obtain ⟨-, c, hf, hpt⟩ := fans_filter hfans (fun p fan h t ht => (h.1 t ht).1) hpar hp
      refine ⟨ord, ho, c, ?_, ?_⟩
      · rw [hfilter]
        have h1 : D0.filter (fun t => t.parentsurf == s.index) = [] := by
          rw [List.filter_eq_nil_iff]
          intro t ht e
          have := (hkept t ht).2.1
          rw [beq_iff_eq.mp e, hmod] at this
          cases this
        rw [h1, List.map_nil, List.nil_append, ← e1, ← e2]
        exact hf
      · intro hl
        rw [hi, hd]
        refine List.mem_append_left _ (List.mem_append_right _ ?_)
        rw [← e2]
        exact hpt (by rw [e1]; exact hl)
  · intro q hq1
    rw [hi, hd]
    simp only [List.mem_append]
    constructor
    · rintro ((h | h) | h)
      · rw [← hP0] at h
        exact ((clean_points hT.ptIdx q).mp h).1
      · have := ((made_points 2 _ ps 0).2 q h).2.1
        omega
      · have := ((made_points 3 _ _ 0).2 q h).2.1
        omega
    · intro h
      left; left
      rw [← hP0]
      exact clean_point hT h (Or.inl hq1)
  · have hit' : it = i.1 := by
      refine forall₂_id hit ?_
      intro t ht u hu
      rw [hi] at ht
      simp only [List.nil_append] at ht
      obtain ⟨f, hf, htf⟩ := List.mem_flatten.mp ht
      obtain ⟨p, hp, hpa, -⟩ := (forall₂_mem (made_fans 3 _ _ _ 0 hq3)).1 f hf
      obtain ⟨c, hc, rfl⟩ := List.mem_map.mp hp
      obtain ⟨e1, e2, e3⟩ := hpa t htf
      unfold connectInter at hu
      cases hse : isearch TriSurf.index cut t.parentsurf with
      | error e => rw [hse] at hu; cases hu
      | ok c' =>
        rw [hse] at hu
        cases hu
        obtain ⟨hm, e'⟩ := elemAt_posOf hse
        have : c = c' := nodup_inj hcut hc hm (by rw [e', e1]; rfl)
        subst this
        obtain ⟨a1, a2, a3, a4, a5, a6⟩ := t
        simp only at e1 e2 e3
        subst e2 e3
        rfl
    rw [hit', hi]
    refine ⟨_, rfl, ?_, ?_⟩
    · rw [List.nil_append, made_index]
      exact List.nodup_range.map fun a b hab => by simpa using hab
    · have := made_fans 3 (maxIdx TriPoint.index d.2) _ (maxIdx Triangle.index []) 0 hq3
      rw [List.forall₂_map_left_iff] at this
      refine this.imp ?_
      rintro c fan ⟨h1, p, h2, h4⟩
      exact ⟨h1, p, h2, fun hl => List.mem_append_right _ (h4 hl)⟩
  · refine hst.imp ?_
    intro t u hc
    obtain ⟨h1, h2, h3, h4⟩ := connectStat_same hc
    refine ⟨h1, h2, h3, h4, ?_⟩
    unfold connectStat at hc
    split_ifs with h0
    · rw [if_pos (by rw [h0]; rfl)] at hc
      cases hv : E.meshVolu t.parentsurf with
      | error e => rw [hv] at hc; cases hc
      | ok v => rw [hv] at hc; cases hc; exact ⟨rfl, rfl⟩
    · rw [if_neg (fun h => h0 (List.length_eq_zero_iff.mp h))] at hc
      exact (Except.ok.inj hc).symm
  · refine (active_mem E cut st st [] act hact).2 ?_
    have : st.map Triangle.index = T.stattri.map Triangle.index :=
      same_index (hst.imp fun a b h => by
        obtain ⟨h1, h2, h3, h4⟩ := connectStat_same h
        exact ⟨h1, h2, by rw [corners, corners, h3, h4]⟩)
    rw [this]
    exact hstat
  · intro a ha
    obtain ⟨u, hu, e, -⟩ := ((active_mem E cut st st [] act hact).1 a).mp ha
    exact ⟨u, hu, e⟩
  · intro t ht
    have hm := active_mem E cut st st [] act hact
    have hn : (st.map Triangle.index).Nodup := by
      have : st.map Triangle.index = T.stattri.map Triangle.index :=
        same_index (hst.imp fun a b h => by
          obtain ⟨h1, h2, h3, h4⟩ := connectStat_same h
          exact ⟨h1, h2, by rw [corners, corners, h3, h4]⟩)
      rw [this]
      exact hstat
    constructor
    · intro ha
      obtain ⟨u, hu, e, -, v, hv, hva⟩ := (hm.1 _).mp ha
      rw [nodup_inj hn hu ht e] at hv
      obtain ⟨h1, w, h2, h4⟩ := active_iff.mp hva
      have hp : v.parentsurf = t.parentsurf := by simpa using List.find?_some hv
      exact ⟨by rw [← hp]; exact h1, v, w, hv, h2, h4⟩
    · rintro ⟨h1, v, w, hv, h2, h4⟩
      have hp : v.parentsurf = t.parentsurf := by simpa using List.find?_some hv
      exact (hm.1 _).mpr ⟨t, ht, rfl, by simp, v, hv, active_iff.mpr ⟨by rw [hp]; exact h1, w, h2, h4⟩⟩

/-- The triangulation is that of the snake. -/
def UpToDate (E : SnakeEnv) (T : Triangulation) : Prop :=
  (T.stattri.map Triangle.index).Nodup ∧ Tidy T.dynatri T.trivert ∧ (∀ t ∈ T.dynatri, t.celltarg ≠ []) ∧
    (∀ s ∈ E.conn.surfs, ∃ ord, orderedVerts E.conn s.edgeind = .ok ord ∧
      Fanned (ord.map fun v => (2, v)) s.index T.dynatri T.trivert) ∧
    ∀ t ∈ T.dynatri, ∃ s ∈ E.conn.surfs, s.index = t.parentsurf

/-- The surfaces of the later snake that are not modified have the polygon they had before. -/
def Tracked (E E' : SnakeEnv) : Prop :=
  ∀ s ∈ E'.conn.surfs, E'.isModif s.index = false → ∃ s0 ∈ E.conn.surfs, s0.index = s.index ∧
    orderedVerts E'.conn s.edgeind = orderedVerts E.conn s0.edgeind

/-- **C82, all steps.** If the snake tracks what it modifies, the triangulation is that of the snake after
every sequence of steps, beginning with any triangles and centres that fit together if all surfaces
are modified at first. -/
theorem C82_run {E : SnakeEnv} {cut : List TriSurf} {steps : List (SnakeEnv × List TriSurf)}
    {T T' : Triangulation} (hstat : (T.stattri.map Triangle.index).Nodup)
    (hT : Tidy T.dynatri T.trivert) (hE : ∀ s ∈ E.conn.surfs, E.isModif s.index = true)
    (hn : ∀ e ∈ (E, cut) :: steps, (e.1.conn.surfs.map Surf.index).Nodup ∧ (e.2.map TriSurf.index).Nodup)
    (hch : List.IsChain Tracked (E :: steps.map Prod.fst))
    (h : ((E, cut) :: steps).foldlM (fun T e => maintain e.1 e.2 T) T = .ok T') :
    UpToDate ((E :: steps.map Prod.fst).getLast (List.cons_ne_nil _ _)) T' := by
  have first : ∀ {E cut T T'}, (E.conn.surfs.map Surf.index).Nodup → (cut.map TriSurf.index).Nodup →
      (T.stattri.map Triangle.index).Nodup → Tidy T.dynatri T.trivert →
      (∀ t ∈ T.dynatri, ∀ s ∈ E.conn.surfs, s.index = t.parentsurf → E.isModif s.index = false →
        t.celltarg ≠ []) →
      (∀ s ∈ E.conn.surfs, E.isModif s.index = false → ∃ ord, orderedVerts E.conn s.edgeind = .ok ord ∧
        Fanned (ord.map fun v => (2, v)) s.index T.dynatri T.trivert) →
      maintain E cut T = .ok T' → UpToDate E T' := by
    intro E cut T T' h1 h2 h3 h4 h5 h6 h7
    obtain ⟨g1, g2, g3, g4, -, -, g5, -⟩ := C82_maintain h1 h2 h3 h4 h5 h6 h7
    refine ⟨?_, g1, g2, g3, fun t ht => ?_⟩
    · rw [same_index (g5.imp fun a b h => ⟨h.1, h.2.1, by rw [corners, corners, h.2.2.1, h.2.2.2.1]⟩)]
      exact h3
    · obtain ⟨s, hs, e, -⟩ := g4 t ht
      exact ⟨s, hs, e⟩
  have next : ∀ (steps : List (SnakeEnv × List TriSurf)) (E : SnakeEnv) (T T' : Triangulation), UpToDate E T →
      (∀ e ∈ steps, (e.1.conn.surfs.map Surf.index).Nodup ∧ (e.2.map TriSurf.index).Nodup) →
      List.IsChain Tracked (E :: steps.map Prod.fst) →
      steps.foldlM (fun T e => maintain e.1 e.2 T) T = .ok T' →
      UpToDate ((E :: steps.map Prod.fst).getLast (List.cons_ne_nil _ _)) T' := by
    intro steps
    induction steps with
    | nil =>
      intro E T T' hU _ _ h
      obtain rfl : T = T' := Except.ok.inj h
      exact hU
    | cons e l ih =>
      intro E T T' hU hn hch h
      rw [List.foldlM_cons] at h
      obtain ⟨T1, h1, h⟩ := bind_ok_iff.mp h
      rw [List.map_cons, List.isChain_cons_cons] at hch
      obtain ⟨u1, u2, u3, u4, -⟩ := hU
      have hn1 := hn e List.mem_cons_self
      have := ih e.1 T1 T' (first hn1.1 hn1.2 u1 u2 (fun t ht _ _ _ _ => u3 t ht) (by
          intro s hs hm
          obtain ⟨s0, hs0, e1, e2⟩ := hch.1 s hs hm
          obtain ⟨ord, ho, hf⟩ := u4 s0 hs0
          exact ⟨ord, e2.trans ho, e1 ▸ hf⟩) h1)
        (fun e he => hn e (List.mem_cons_of_mem _ he)) hch.2 h
      simpa using this
  rw [List.foldlM_cons] at h
  obtain ⟨T1, h1, h⟩ := bind_ok_iff.mp h
  have hn1 := hn _ List.mem_cons_self
  refine next steps E T1 T' (first hn1.1 hn1.2 hstat hT ?_ ?_ h1)
    (fun e he => hn e (List.mem_cons_of_mem _ he)) hch h
  · intro t _ s hs _ hm
    rw [hE s hs] at hm
    cases hm
  · intro s hs hm
    rw [hE s hs] at hm
    cases hm

/-- A pyramid as a snake, of which the surfaces of `modif` are modified. -/
def pyramidEnv (modif : List Int) : SnakeEnv where
  conn :=
    { verts := []
      edges := [(1, 2), (2, 3), (3, 4), (4, 1), (1, 5), (2, 5), (3, 5), (4, 5)].zipIdx.map fun p =>
        { index := (p.2 : Int) + 1, vertind := [p.1.1, p.1.2], surfind := [] }
      surfs := [[1, 2, 3, 4], [1, 6, 5], [2, 7, 6], [3, 8, 7], [4, 5, 8]].zipIdx.map fun p =>
        { index := (p.2 : Int) + 1, edgeind := p.1, voluind := if p.2 = 0 then [0, 1] else [1, 0] }
      volus := [] }
  isModif := fun s => modif.contains s
  snaxVolu := fun _ => .ok 7
  meshVolu := fun _ => .ok [0, 7]
  vertIn := fun v => .ok (v == 1)

/-- Two triangles of two surfaces of the mesh, of which the second has a centre in `trivert`. -/
def pyramidStart : Triangulation where
  acttri := []
  stattri := [⟨1, [1, 1, 1], [1, 2, 3], 10, [0, 7], [-1, 1]⟩, ⟨2, [1, 1, 3], [4, 5, 1], 20, [], []⟩]
  dynatri := []
  intertri := []
  trivert := [⟨1, 20, 1⟩]
  trisurf := []

/-- A piece of a surface of the mesh that the snake cuts. -/
def pyramidCut : List TriSurf := [⟨1, [(1, 4), (2, 1), (2, 2), (1, 5)], [0, 7], 20⟩]

/-- The hypotheses are met by two steps of the pyramid, the second with two modified surfaces.  After
them there are eight triangles of the snake and four of the piece, and one of the mesh is active. -/
example : ∃ T', [(pyramidEnv [1, 2, 3, 4, 5], pyramidCut), (pyramidEnv [1, 3], pyramidCut)].foldlM
      (fun T e => maintain e.1 e.2 T) pyramidStart = .ok T' ∧
    UpToDate (pyramidEnv [1, 3]) T' ∧ T'.dynatri.length = 8 ∧ T'.intertri.length = 4 ∧
    T'.trivert.length = 3 ∧ T'.acttri = [1] := by
  have h : ∃ T', [(pyramidEnv [1, 2, 3, 4, 5], pyramidCut), (pyramidEnv [1, 3], pyramidCut)].foldlM
        (fun T e => maintain e.1 e.2 T) pyramidStart = .ok T' ∧ T'.dynatri.length = 8 ∧
      T'.intertri.length = 4 ∧ T'.trivert.length = 3 ∧ T'.acttri = [1] := by
    exact ⟨([(pyramidEnv [1, 2, 3, 4, 5], pyramidCut), (pyramidEnv [1, 3], pyramidCut)].foldlM
      (fun T e => maintain e.1 e.2 T) pyramidStart).toOption.getD pyramidStart,
      by decide +kernel, by decide +kernel, by decide +kernel, by decide +kernel, by decide +kernel⟩
  obtain ⟨T', h, hl⟩ := h
  refine ⟨T', h, ?_, hl⟩
  refine C82_run (E := pyramidEnv [1, 2, 3, 4, 5]) (steps := [(pyramidEnv [1, 3], pyramidCut)])
    (by decide +kernel) ⟨by decide +kernel, by decide +kernel, fun _ h => absurd h (by simp [pyramidStart]), by decide +kernel⟩
    (by decide +kernel) ?_ ?_ h
  · intro e he
    rcases List.mem_cons.mp he with rfl | he
    · exact ⟨by decide +kernel, by decide +kernel⟩
    · rw [List.mem_singleton] at he
      subst he
      exact ⟨by decide +kernel, by decide +kernel⟩
  · rw [List.map_cons, List.isChain_cons_cons]
    exact ⟨fun s hs _ => ⟨s, hs, rfl, rfl⟩, List.isChain_singleton _⟩

end RSVS.Props
