import Verif.Lemmas.Triangulate
import Verif.Spec.TriangMaintain

namespace RSVS.Triang

open RSVS.Spec RSVS.Mesh RSVS.Order

theorem mapM_forall {α β : Type} {f : α → Res β} : ∀ {l : List α} {r : List β},
    l.mapM f = .ok r → List.Forall₂ (fun a b => f a = .ok b) l r
  | [], r, h => by
    cases h
    exact List.Forall₂.nil
  | a :: l, r, h => by
    rw [List.mapM_cons] at h
    obtain ⟨b, hb, h⟩ := bind_ok_iff.mp h
    obtain ⟨bs, hbs, h⟩ := bind_ok_iff.mp h
    cases h
    exact List.Forall₂.cons hb (mapM_forall hbs)

theorem map_ok_forall {α β : Type} {f : α → Res β} : ∀ {l : List α} {r : List β},
    l.map f = r.map .ok → List.Forall₂ (fun a b => f a = .ok b) l r
  | [], [], _ => List.Forall₂.nil
  | a :: l, b :: r, h => by
    rw [List.map_cons, List.map_cons, List.cons.injEq] at h
    exact List.Forall₂.cons h.1 (map_ok_forall h.2)

/-- The polygon of a surface of the snake. -/
theorem polyOfSurf_ok {m : Mesh} {s : Surf} {p : Poly} (h : polyOfSurf m 2 s = .ok p) :
    ∃ ord, orderedVerts m s.edgeind = .ok ord ∧ p.pts = ord.map (fun v => (2, v)) ∧
      p.parent = s.index ∧ p.celltarg = [] := by
  unfold polyOfSurf at h
  cases ho : orderedVerts m s.edgeind with
  | error e => rw [ho] at h; cases h
  | ok ord => rw [ho] at h; cases h; exact ⟨ord, rfl, rfl, rfl, rfl⟩

theorem poly_parents {m : Mesh} {l : List Surf} {ps : List Poly}
    (h : List.Forall₂ (fun s p => polyOfSurf m 2 s = .ok p) l ps) :
    ps.map Poly.parent = l.map Surf.index := by
  induction h with
  | nil => rfl
  | cons h _ ih =>
    obtain ⟨-, -, -, e, -⟩ := polyOfSurf_ok h
    rw [List.map_cons, List.map_cons, e, ih]

theorem map_ok_inj {α β : Type} {f : α → β} {l : List α} {r : List β}
    (h : l.map (fun a => (.ok (f a) : Res β)) = r.map .ok) : l.map f = r := by
  have g := map_ok_forall h
  clear h
  induction g with
  | nil => rfl
  | cons g _ ih => rw [List.map_cons, Except.ok.inj g, ih]

/-- What the connectivity leaves alone. -/
def SameTri (t u : Triangle) : Prop :=
  u.index = t.index ∧ u.parentsurf = t.parentsurf ∧ corners u = corners t

theorem same_index {l r : List Triangle} (h : List.Forall₂ SameTri l r) :
    r.map Triangle.index = l.map Triangle.index := by
  induction h with
  | nil => rfl
  | cons h _ ih => rw [List.map_cons, List.map_cons, h.1, ih]

theorem same_fan {l r : List Triangle} (h : List.Forall₂ SameTri l r) (s : Int) :
    (r.filter fun t => t.parentsurf == s).map corners =
      (l.filter fun t => t.parentsurf == s).map corners := by
  induction h with
  | nil => rfl
  | @cons a b _ _ h _ ih =>
    rw [List.filter_cons, List.filter_cons, h.2.1]
    split
    · rw [List.map_cons, List.map_cons, h.2.2, ih]
    · exact ih

theorem forall₂_mem {α β : Type} {R : α → β → Prop} {l : List α} {r : List β}
    (h : List.Forall₂ R l r) : (∀ b ∈ r, ∃ a ∈ l, R a b) ∧ ∀ a ∈ l, ∃ b ∈ r, R a b := by
  induction h with
  | nil => simp
  | cons h _ ih =>
    refine ⟨?_, ?_⟩
    · intro b hb
      rcases List.mem_cons.mp hb with rfl | hb
      · exact ⟨_, List.mem_cons_self, h⟩
      · obtain ⟨a, ha, g⟩ := ih.1 b hb
        exact ⟨a, List.mem_cons_of_mem _ ha, g⟩
    · intro b hb
      rcases List.mem_cons.mp hb with rfl | hb
      · exact ⟨_, List.mem_cons_self, h⟩
      · obtain ⟨a, ha, g⟩ := ih.2 b hb
        exact ⟨a, List.mem_cons_of_mem _ ha, g⟩

theorem nodup_inj {α : Type} {ix : α → Int} {l : List α} (h : (l.map ix).Nodup) {a b : α}
    (ha : a ∈ l) (hb : b ∈ l) (e : ix a = ix b) : a = b := by
  induction l with
  | nil => cases ha
  | cons c l ih =>
    rw [List.map_cons, List.nodup_cons] at h
    rcases List.mem_cons.mp ha with ea | ha'
    · rcases List.mem_cons.mp hb with eb | hb'
      · rw [ea, eb]
      · exact absurd (ea ▸ e ▸ List.mem_map_of_mem hb') h.1
    · rcases List.mem_cons.mp hb with eb | hb'
      · exact absurd (eb ▸ e ▸ List.mem_map_of_mem ha') h.1
      · exact ih h.2 ha' hb'

/-- Each centre is that of some triangle. -/
theorem made_used (ty maxV : Int) : ∀ (ps : List Poly) (nx : Int) (i : Nat),
    ∀ q ∈ madePoints ty maxV i ps, ∃ t ∈ (madeTris maxV nx i ps).flatten,
      t.parentsurf = q.parentsurf ∧ (3, q.index) ∈ corners t
  | [], _, _ => by simp [madePoints]
  | p :: ps, nx, i => by
    intro q hq
    rw [madePoints] at hq
    rw [madeTris, List.flatten_cons]
    rcases List.mem_append.mp hq with hq | hq
    · unfold pointsOf at hq
      split_ifs at hq with h3
      · rw [List.mem_singleton] at hq
        subst hq
        refine ⟨fanTriangle p (maxV + i + 2) nx 0, List.mem_append_left _ ?_, rfl, ?_⟩
        · unfold trisOf
          rw [if_pos h3]
          exact List.mem_map_of_mem (List.mem_range.mpr (by omega))
        · simp [corners, fanTriangle]
      · cases hq
    · obtain ⟨t, ht, h⟩ := made_used ty maxV ps (nx + (trisOf p nx (maxV + i + 2)).length) (i + 1) q hq
      exact ⟨t, List.mem_append_right _ ht, h⟩

/-- Of the triangles of polygons of different surfaces those of one surface are its fan. -/
theorem fans_filter {R : Poly → List Triangle → Prop} {ps : List Poly} {fans : List (List Triangle)}
    (h : List.Forall₂ R ps fans) (hp : ∀ p fan, R p fan → ∀ t ∈ fan, t.parentsurf = p.parent)
    (hn : (ps.map Poly.parent).Nodup) {p : Poly} (hm : p ∈ ps) :
    R p (fans.flatten.filter fun t => t.parentsurf == p.parent) := by
  induction h with
  | nil => cases hm
  | @cons a b l r hab hlr ih =>
    rw [List.map_cons, List.nodup_cons] at hn
    have none : ∀ s, s ∉ l.map Poly.parent → r.flatten.filter (fun t => t.parentsurf == s) = [] := by
      intro s hs
      rw [List.filter_eq_nil_iff]
      intro t ht
      obtain ⟨f, hf, htf⟩ := List.mem_flatten.mp ht
      obtain ⟨q, hq, hR⟩ := (forall₂_mem hlr).1 f hf
      intro e
      apply hs
      rw [← (beq_iff_eq.mp e), hp q f hR t htf]
      exact List.mem_map_of_mem hq
    rw [List.flatten_cons, List.filter_append]
    rcases List.mem_cons.mp hm with rfl | hm
    · rw [none _ hn.1, List.append_nil, List.filter_eq_self.mpr]
      · exact hab
      · intro t ht
        exact beq_iff_eq.mpr (hp p b hab t ht)
    · have : b.filter (fun t => t.parentsurf == p.parent) = [] := by
        rw [List.filter_eq_nil_iff]
        intro t ht e
        apply hn.1
        rw [← hp a b hab t ht, beq_iff_eq.mp e]
        exact List.mem_map_of_mem hm
      rw [this, List.nil_append]
      exact ih hn.2 hm

/-- The corners of a fan. -/
theorem fan_corner {α : Type} {pts : List α} {tris : List (List α)} {c : α} (h : FanOf pts tris c) :
    ∀ t ∈ tris, ∀ a ∈ t, a ∈ pts ∨ (a = c ∧ 3 < pts.length) := by
  intro t ht a ha
  rcases h with ⟨-, rfl⟩ | ⟨h3, rfl⟩
  · rw [List.mem_singleton] at ht
    exact Or.inl (ht ▸ ha)
  · obtain ⟨e, he, rfl⟩ := List.mem_map.mp ht
    have h1 : e.1 ∈ pts := (List.of_mem_zip (a := e.1) (b := e.2) he).1
    have h2 : e.2 ∈ pts := List.mem_rotate.mp (List.of_mem_zip (a := e.1) (b := e.2) he).2
    simp only [List.mem_cons, List.not_mem_nil, or_false] at ha
    rcases ha with rfl | rfl | rfl
    · exact Or.inl h1
    · exact Or.inl h2
    · exact Or.inr ⟨rfl, h3⟩

/-! ### The steps of `MaintainTriangulateSnake` -/

theorem clean_dyna {surfs : List Surf} {isModif : Int → Bool} {T : Triangulation}
    (h : (T.dynatri.map Triangle.index).Nodup) :
    (cleanDynaTri surfs isModif T).dynatri = T.dynatri.filter fun t => !staleTri surfs isModif t := by
  show removeIdx _ _ _ = _
  unfold removeIdx
  apply List.filter_congr
  intro t ht
  congr 1
  rw [Bool.eq_iff_iff, List.contains_iff_mem, List.mem_map]
  constructor
  · rintro ⟨u, hu, e⟩
    obtain ⟨hu, hs⟩ := List.mem_filter.mp hu
    rwa [← nodup_inj h hu ht e]
  · intro hs
    exact ⟨t, List.mem_filter.mpr ⟨ht, hs⟩, rfl⟩

theorem clean_points {surfs : List Surf} {isModif : Int → Bool} {T : Triangulation}
    (h : (T.trivert.map TriPoint.index).Nodup) (q : TriPoint) :
    q ∈ (cleanDynaTri surfs isModif T).trivert ↔ q ∈ T.trivert ∧ q.parentType ≠ 3 ∧
      ∀ t ∈ T.dynatri, staleTri surfs isModif t = true → (3, q.index) ∉ corners t := by
  show q ∈ removeIdx _ _ _ ↔ _
  unfold removeIdx
  rw [List.mem_filter]
  refine and_congr_right fun hq => ?_
  rw [Bool.not_eq_true', ← Bool.not_eq_true, List.contains_iff_mem, List.mem_append, not_or, and_comm]
  refine and_congr ?_ ?_
  · constructor
    · intro hn e
      exact hn (List.mem_map_of_mem (List.mem_filter.mpr ⟨hq, beq_iff_eq.mpr e⟩))
    · intro hn hm
      obtain ⟨u, hu, e⟩ := List.mem_map.mp hm
      obtain ⟨hu, h3⟩ := List.mem_filter.mp hu
      rw [nodup_inj h hu hq e] at h3
      exact hn (beq_iff_eq.mp h3)
  · constructor
    · intro hn t ht hs hc
      refine hn (List.mem_flatMap.mpr ⟨t, List.mem_filter.mpr ⟨ht, hs⟩, ?_⟩)
      exact List.mem_map.mpr ⟨_, List.mem_filter.mpr ⟨hc, rfl⟩, rfl⟩
    · intro hn hm
      obtain ⟨t, ht, hm⟩ := List.mem_flatMap.mp hm
      obtain ⟨ht, hs⟩ := List.mem_filter.mp ht
      obtain ⟨a, ha, e⟩ := List.mem_map.mp hm
      obtain ⟨ha, h3⟩ := List.mem_filter.mp ha
      refine hn t ht hs ?_
      rw [← e, ← beq_iff_eq.mp h3]
      exact ha

/-- The centres that stay are those of triangles that stay. -/
theorem clean_point {surfs : List Surf} {isModif : Int → Bool} {T : Triangulation}
    (hT : Tidy T.dynatri T.trivert) {q : TriPoint} (hq : q ∈ T.trivert)
    (h : q.parentType = 1 ∨ (q.parentType = 2 ∧ ∃ t ∈ T.dynatri, t.parentsurf = q.parentsurf ∧
      staleTri surfs isModif t = false)) :
    q ∈ (cleanDynaTri surfs isModif T).trivert := by
  rw [clean_points hT.ptIdx]
  refine ⟨hq, ?_, ?_⟩
  · rcases h with h | ⟨h, -⟩ <;> omega
  · intro t ht hs hc
    have hp := hT.centre t ht _ hc
    have := nodup_inj hT.ptIdx hp hq rfl
    rcases h with h | ⟨-, u, hu, e, hns⟩
    · rw [← this] at h
      simp at h
    · rw [← this] at e
      unfold staleTri at hs hns
      rw [e] at hns
      simp only at hns
      rw [hns] at hs
      cases hs

theorem clean_tidy {surfs : List Surf} {isModif : Int → Bool} {T : Triangulation}
    (hT : Tidy T.dynatri T.trivert) :
    Tidy (cleanDynaTri surfs isModif T).dynatri (cleanDynaTri surfs isModif T).trivert := by
  have hd := clean_dyna (surfs := surfs) (isModif := isModif) hT.triIdx
  refine ⟨?_, ?_, ?_, ?_⟩
  · rw [hd]
    exact hT.triIdx.sublist (List.filter_sublist.map _)
  · exact hT.ptIdx.sublist (List.filter_sublist.map _)
  · intro t ht c hc
    rw [hd] at ht
    obtain ⟨ht, hs⟩ := List.mem_filter.mp ht
    refine clean_point hT (hT.centre t ht c hc) (Or.inr ⟨rfl, t, ht, rfl, ?_⟩)
    simpa using hs
  · intro q hq h2
    rw [clean_points hT.ptIdx] at hq
    obtain ⟨t, ht, e, hc⟩ := hT.used q hq.1 h2
    refine ⟨t, ?_, e, hc⟩
    rw [hd]
    refine List.mem_filter.mpr ⟨ht, ?_⟩
    cases hs : staleTri surfs isModif t with
    | false => rfl
    | true => exact absurd hc (hq.2.2 t ht hs)

/-- The triangulation of polygons of the snake keeps triangles and points in order. -/
theorem dyna_tidy {ps : List Poly} {D : List Triangle} {P : List TriPoint} (hT : Tidy D P)
    (h3 : ∀ p ∈ ps, 3 ≤ p.pts.length) (h2 : ∀ p ∈ ps, ∀ a ∈ p.pts, a.1 = 2) :
    Tidy (D ++ (madeTris (maxIdx TriPoint.index P) (maxIdx Triangle.index D) 0 ps).flatten)
      (P ++ madePoints 2 (maxIdx TriPoint.index P) 0 ps) := by
  obtain ⟨-, hP⟩ := maxIdx_spec TriPoint.index P
  obtain ⟨-, hD⟩ := maxIdx_spec Triangle.index D
  obtain ⟨hn, hm⟩ := made_points 2 (maxIdx TriPoint.index P) ps 0
  have hix := made_index (maxIdx TriPoint.index P) ps (maxIdx Triangle.index D) 0
  refine ⟨?_, ?_, ?_, ?_⟩
  · rw [List.map_append, List.nodup_append]
    refine ⟨hT.triIdx, ?_, ?_⟩
    · rw [hix]
      exact List.nodup_range.map fun a b hab => by simpa using hab
    · intro a ha b hb
      obtain ⟨t', ht', rfl⟩ := List.mem_map.mp ha
      rw [hix] at hb
      obtain ⟨k, -, e⟩ := List.mem_map.mp hb
      have := hD t' ht'
      omega
  · rw [List.map_append, List.nodup_append]
    refine ⟨hT.ptIdx, hn, ?_⟩
    intro a ha b hb
    obtain ⟨q', hq', rfl⟩ := List.mem_map.mp ha
    obtain ⟨q, hq, rfl⟩ := List.mem_map.mp hb
    have := (hm q hq).1
    have := hP q' hq'
    push_cast at *
    omega
  · intro t ht c hc
    rcases List.mem_append.mp ht with ht | ht
    · exact List.mem_append_left _ (hT.centre t ht c hc)
    · obtain ⟨f, hf, htf⟩ := List.mem_flatten.mp ht
      obtain ⟨p, hp, hpar, c', hfan, hpt⟩ := (forall₂_mem (made_fans 2 _ ps _ 0 h3)).1 f hf
      rcases fan_corner hfan _ (List.mem_map_of_mem htf) _ hc with h | ⟨h, hl⟩
      · have := h2 p hp _ h
        simp at this
      · obtain rfl : c = c' := by simpa using h
        rw [(hpar t htf).1]
        exact List.mem_append_right _ (hpt hl)
  · intro q hq hq2
    rcases List.mem_append.mp hq with hq | hq
    · obtain ⟨t, ht, h⟩ := hT.used q hq hq2
      exact ⟨t, List.mem_append_left _ ht, h⟩
    · obtain ⟨t, ht, h⟩ := made_used 2 (maxIdx TriPoint.index P) ps (maxIdx Triangle.index D) 0 q hq
      exact ⟨t, List.mem_append_right _ ht, h⟩

theorem inter_tidy {D : List Triangle} {P : List TriPoint} (hT : Tidy D P) (ps : List Poly) :
    Tidy D (P ++ madePoints 3 (maxIdx TriPoint.index P) 0 ps) := by
  obtain ⟨-, hP⟩ := maxIdx_spec TriPoint.index P
  obtain ⟨hn, hm⟩ := made_points 3 (maxIdx TriPoint.index P) ps 0
  refine ⟨hT.triIdx, ?_, fun t ht c hc => List.mem_append_left _ (hT.centre t ht c hc), ?_⟩
  · rw [List.map_append, List.nodup_append]
    refine ⟨hT.ptIdx, hn, ?_⟩
    intro a ha b hb
    obtain ⟨q', hq', rfl⟩ := List.mem_map.mp ha
    obtain ⟨q, hq, rfl⟩ := List.mem_map.mp hb
    have := (hm q hq).1
    have := hP q' hq'
    push_cast at *
    omega
  · intro q hq hq2
    rcases List.mem_append.mp hq with hq | hq
    · exact hT.used q hq hq2
    · have := (hm q hq).2.1
      omega

theorem same_tidy {D D' : List Triangle} {P : List TriPoint} (hT : Tidy D P)
    (h : List.Forall₂ SameTri D D') : Tidy D' P := by
  obtain ⟨h1, h2⟩ := forall₂_mem h
  refine ⟨by rw [same_index h]; exact hT.triIdx, hT.ptIdx, ?_, ?_⟩
  · intro t ht c hc
    obtain ⟨u, hu, -, e, e'⟩ := h1 t ht
    rw [e]
    exact hT.centre u hu c (by rw [← corners, ← e']; exact hc)
  · intro q hq hq2
    obtain ⟨t, ht, e, hc⟩ := hT.used q hq hq2
    obtain ⟨u, hu, -, e1, e2⟩ := h2 t ht
    exact ⟨u, hu, e1.trans e, by rw [← corners, e2]; exact hc⟩

/-! ### Surfaces of the mesh that are wholly inside -/

theorem active_mem (E : SnakeEnv) (ts : List TriSurf) (all : List Triangle) :
    ∀ (l : List Triangle) (seen : List Int) (r : List Int), activeLoop E ts all seen l = .ok r →
      (∀ a, a ∈ r ↔ ∃ u ∈ all, u.index = a ∧ u.parentsurf ∉ seen ∧
        ∃ t, l.find? (fun t => t.parentsurf == u.parentsurf) = some t ∧ activeSurf E ts t = .ok true) ∧
      ((all.map Triangle.index).Nodup → r.Nodup)
  | [], seen, r, h => by
    cases h
    simp
  | t :: l, seen, r, h => by
    rw [activeLoop] at h
    split at h
    · next hs =>
      obtain ⟨h1, h2⟩ := active_mem E ts all l seen r h
      refine ⟨fun a => (h1 a).trans ?_, h2⟩
      refine exists_congr fun u => and_congr_right fun _ => and_congr_right fun _ =>
        and_congr_right fun hu => ?_
      rw [List.find?_cons_of_neg]
      intro e
      exact hu (beq_iff_eq.mp e ▸ hs)
    · next hs =>
      obtain ⟨b, hb, h⟩ := bind_ok_iff.mp h
      cases hl : activeLoop E ts all (t.parentsurf :: seen) l with
      | error e => rw [hl] at h; cases h
      | ok r' =>
        rw [hl] at h
        obtain rfl : _ = r := Except.ok.inj h
        obtain ⟨h1, h2⟩ := active_mem E ts all l (t.parentsurf :: seen) r' hl
        refine ⟨fun a => ?_, fun hn => ?_⟩
        · rw [List.mem_append, h1]
          constructor
          · rintro (ha | ⟨u, hu, e, hus, v, hv, hva⟩)
            · split at ha
              · next hbt =>
                obtain ⟨u, hu, e⟩ := List.mem_map.mp ha
                obtain ⟨hu, hp⟩ := List.mem_filter.mp hu
                have hp := beq_iff_eq.mp hp
                refine ⟨u, hu, e, by rw [hp]; exact hs, t, ?_, by rw [hb, hbt]⟩
                rw [List.find?_cons_of_pos]
                exact beq_iff_eq.mpr hp.symm
              · cases ha
            · refine ⟨u, hu, e, fun hm => hus (List.mem_cons_of_mem _ hm), v, ?_, hva⟩
              rw [List.find?_cons_of_neg]
              · exact hv
              · intro e'
                exact hus (beq_iff_eq.mp e' ▸ List.mem_cons_self)
          · rintro ⟨u, hu, e, hus, v, hv, hva⟩
            by_cases hp : t.parentsurf = u.parentsurf
            · left
              rw [List.find?_cons_of_pos (by simpa using hp)] at hv
              obtain rfl := Option.some.inj hv
              obtain rfl : b = true := Except.ok.inj (hb.symm.trans hva)
              rw [if_pos rfl]
              exact List.mem_map.mpr ⟨u, List.mem_filter.mpr ⟨hu, beq_iff_eq.mpr hp.symm⟩, e⟩
            · right
              rw [List.find?_cons_of_neg (by simpa using hp)] at hv
              refine ⟨u, hu, e, ?_, v, hv, hva⟩
              intro hm
              rcases List.mem_cons.mp hm with h | h
              · exact hp h.symm
              · exact hus h
        · rw [List.nodup_append]
          refine ⟨?_, h2 hn, ?_⟩
          · split
            · exact hn.sublist (List.filter_sublist.map _)
            · exact List.nodup_nil
          · intro a ha b' hb' e
            split at ha
            · obtain ⟨u, hu, e1⟩ := List.mem_map.mp ha
              obtain ⟨hu, hp⟩ := List.mem_filter.mp hu
              obtain ⟨w, hw, e2, hws, -⟩ := (h1 b').mp hb'
              have := nodup_inj hn hu hw (by rw [e1, e2, e])
              subst this
              exact hws (beq_iff_eq.mp hp ▸ List.mem_cons_self)
            · cases ha

theorem active_iff {E : SnakeEnv} {ts : List TriSurf} {t : Triangle} :
    activeSurf E ts t = .ok true ↔ (∀ c ∈ ts, c.parentsurfmesh ≠ t.parentsurf) ∧
      ∃ v, (t.pointtype.zip t.pointind).find? (fun p => p.1 == 1) = some (1, v) ∧
        E.vertIn v = .ok true := by
  unfold activeSurf
  split
  · next h =>
    obtain ⟨c, hc, e⟩ := List.any_eq_true.mp h
    constructor
    · intro h; cases h
    · rintro ⟨h, -⟩
      exact absurd (beq_iff_eq.mp e) (h c hc)
  · next h =>
    have hcut : ∀ c ∈ ts, c.parentsurfmesh ≠ t.parentsurf := by
      intro c hc e
      exact h (List.any_eq_true.mpr ⟨c, hc, beq_iff_eq.mpr e⟩)
    cases hf : (t.pointtype.zip t.pointind).find? (fun p => p.1 == 1) with
    | none => simp
    | some p =>
      obtain ⟨a, v⟩ := p
      have ha : a = 1 := by simpa using List.find?_some hf
      subst ha
      simp only [Option.some.injEq, Prod.mk.injEq, true_and, exists_eq_left']
      exact ⟨fun h => ⟨hcut, h⟩, fun h => h.2⟩

theorem connectDyna_same {sv sw} {t u : Triangle} (h : connectDyna sv sw t = .ok u) : SameTri t u := by
  unfold connectDyna at h
  split at h
  · obtain ⟨v, -, h⟩ := bind_ok_iff.mp h
    obtain ⟨vs, -, h⟩ := bind_ok_iff.mp h
    cases hv : vecGet vs 0 with
    | error e => rw [hv] at h; cases h
    | ok v0 => rw [hv] at h; cases h; exact ⟨rfl, rfl, rfl⟩
  · cases h; exact ⟨rfl, rfl, rfl⟩

theorem connectStat_same {mv} {t u : Triangle} (h : connectStat mv t = .ok u) :
    u.index = t.index ∧ u.parentsurf = t.parentsurf ∧ u.pointtype = t.pointtype ∧
      u.pointind = t.pointind := by
  unfold connectStat at h
  split at h
  · cases hv : mv t.parentsurf with
    | error e => rw [hv] at h; cases h
    | ok v => rw [hv] at h; cases h; exact ⟨rfl, rfl, rfl, rfl⟩
  · cases h; exact ⟨rfl, rfl, rfl, rfl⟩

theorem forall₂_map {α β : Type} {f : α → Res β} {g : α → β} (hg : ∀ a b, f a = .ok b → g a = b)
    {l : List α} {r : List β} (h : List.Forall₂ (fun a b => f a = .ok b) l r) : r = l.map g := by
  induction h with
  | nil => rfl
  | cons h _ ih => rw [List.map_cons, hg _ _ h, ← ih]

theorem forall₂_id {α : Type} {f : α → Res α} {l r : List α}
    (h : List.Forall₂ (fun a b => f a = .ok b) l r) (hf : ∀ a ∈ l, ∀ b, f a = .ok b → b = a) : r = l := by
  induction h with
  | nil => rfl
  | cons h _ ih =>
    rw [hf _ List.mem_cons_self _ h, ih fun a ha => hf a (List.mem_cons_of_mem _ ha)]

end RSVS.Triang
