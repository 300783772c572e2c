import Verif.Lemmas.Coarsen
import Verif.Lemmas.Refine
import Verif.Lemmas.SpawnRemove
import Verif.Spec.MergeVolu

/-!
# Lemmas for the merge of volumes
-/

namespace RSVS.MergeVolu

open RSVS.Spec RSVS.Mesh RSVS.SpawnRemove

variable {m n : Mesh} {ρ : Int → Int} {rmv : List Int}

/-- The mesh with volumes renamed. -/
structure St (m : Mesh) (rmv : List Int) (n : Mesh) (ρ : Int → Int) : Prop where
  ren : VolusRenamed m n ρ
  zero : ρ 0 = 0
  has : ∀ s c, SurfVolu m s c → c ≠ 0 → 0 < ρ c ∧ HasVolu m (ρ c)
  inChain : ∀ c, VoluChain m rmv c (ρ c)
  lists : ∀ c s, VoluSurf n c s → ∃ c0, VoluSurf m c0 s ∧ VoluChain m rmv c c0

theorem voluChain_symm {c c' : Int} (h : VoluChain m rmv c c') : VoluChain m rmv c' c := by
  induction h with
  | refl => exact .refl
  | tail _ h2 ih =>
    obtain ⟨v, hv, h3, h4⟩ := h2
    exact Relation.ReflTransGen.head ⟨v, hv, h4, h3⟩ ih

theorem voluChain_mono {r' : List Int} (hs : ∀ v ∈ rmv, v ∈ r') {c c' : Int} (h : VoluChain m rmv c c') : VoluChain m r' c c' := by
  induction h with
  | refl => exact .refl
  | tail _ h2 ih =>
    obtain ⟨v, hv, h3⟩ := h2
    exact Relation.ReflTransGen.tail ih ⟨v, hs v hv, h3⟩

theorem hasVolu_iff (h : n.volus.map (fun c => { c with surfind := [] }) = m.volus.map fun c => { c with surfind := [] }) :
    n.volus.map Volu.index = m.volus.map Volu.index := by
  have := congrArg (List.map Volu.index) h
  simpa [List.map_map, Function.comp_def] using this

theorem mem_index {l l' : List Volu} (h : l.map Volu.index = l'.map Volu.index) {c : Int} (hc : ∃ x ∈ l', x.index = c) : ∃ x ∈ l, x.index = c := by
  obtain ⟨x, hx, rfl⟩ := hc
  have : x.index ∈ l.map Volu.index := by rw [h]; exact List.mem_map_of_mem hx
  obtain ⟨y, hy, e⟩ := List.mem_map.mp this
  exact ⟨y, hy, e⟩

theorem surfIdx (h : St m rmv n ρ) : n.surfs.map Surf.index = m.surfs.map Surf.index := by
  rw [h.ren.surfs, List.map_map]
  rfl

theorem surfVolu_iff (h : St m rmv n ρ) {s c : Int} : SurfVolu n s c ↔ ∃ c0, SurfVolu m s c0 ∧ ρ c0 = c := by
  constructor
  · rintro ⟨x, hx, rfl, hc⟩
    rw [h.ren.surfs] at hx
    obtain ⟨y, hy, rfl⟩ := List.mem_map.mp hx
    obtain ⟨c0, h0, e⟩ := List.mem_map.mp hc
    exact ⟨c0, ⟨y, hy, rfl, h0⟩, e⟩
  · rintro ⟨c0, ⟨y, hy, rfl, h0⟩, rfl⟩
    refine ⟨{ y with voluind := y.voluind.map ρ }, ?_, rfl, List.mem_map_of_mem h0⟩
    rw [h.ren.surfs]
    exact List.mem_map_of_mem hy

/-- One volume is called like another. -/
theorem switch_step (hr : VoluReady m rmv) (h : St m rmv n ρ) {old new : Int} (h0 : old ≠ 0) (ho : HasVolu m old) (hn : HasVolu m new) (hp : 0 < new)
    (hch : VoluChain m rmv old new) :
    ∃ n', n.switchVolu old new = .ok n' ∧ St m rmv n' fun x => if ρ x = old then new else ρ x := by
  have hvi := hasVolu_iff h.ren.volus
  have hvn : (n.volus.map Volu.index).Nodup := by rw [hvi]; exact hr.unique.volus
  obtain ⟨ov, hov, hoi⟩ := mem_index hvi ho
  obtain ⟨extra, h1, h2⟩ := Refine.switchVolu_eq (m := n) (old := old) (new := new) (ov := ov) (by rw [surfIdx h]; exact hr.unique.surfs) hvn hov hoi
    (fun k hk => h.ren.known old k ⟨ov, hov, hoi, hk⟩) (mem_index hvi hn)
    (by
      intro s hs hso
      obtain ⟨w, hw, hwi, hws⟩ := h.ren.back s.index old ⟨s, hs, rfl, hso⟩ h0
      rwa [inj_of_nodup hvn hw hov (hwi.trans hoi.symm)] at hws)
  refine ⟨_, h1, ⟨⟨h.ren.verts, h.ren.edges, h.ren.dim, ?_, ?_, ?_, ?_⟩, ?_, ?_, ?_, ?_⟩⟩
  · show n.surfs.map _ = _
    rw [h.ren.surfs, List.map_map]
    refine List.map_congr_left ?_
    intro s _
    simp only [Function.comp_apply, Refine.replaceAll_eq, List.map_map]
    rfl
  · show (n.volus.map _).map _ = _
    rw [← h.ren.volus, List.map_map]
    refine List.map_congr_left ?_
    intro c _
    simp only [Function.comp_apply]
    split <;> rfl
  · rintro s c ⟨x, hx, rfl, hc⟩ hc0
    obtain ⟨y, hy, rfl⟩ := List.mem_map.mp hx
    rcases mem_replaceAll.mp hc with ⟨hc1, _⟩ | ⟨rfl, hc1⟩
    · obtain ⟨w, hw, hwi, hws⟩ := h.ren.back y.index c ⟨y, hy, rfl, hc1⟩ hc0
      refine ⟨_, List.mem_map_of_mem hw, ?_, ?_⟩
      · split <;> exact hwi
      · split
        · exact List.mem_append.mpr (Or.inl hws)
        · exact hws
    · obtain ⟨w, hw, hwi⟩ := mem_index hvi hn
      refine ⟨_, List.mem_map_of_mem hw, ?_, ?_⟩
      · split <;> exact hwi
      · rw [if_pos hwi]
        exact List.mem_append.mpr (Or.inr ((h2 _).mpr ⟨y, hy, rfl, hc1⟩))
  · rintro c s ⟨x, hx, rfl, hs⟩
    obtain ⟨w, hw, rfl⟩ := List.mem_map.mp hx
    have : ∃ y ∈ n.surfs, y.index = s := by
      split at hs
      · rcases List.mem_append.mp hs with hs | hs
        · exact h.ren.known w.index s ⟨w, hw, rfl, hs⟩
        · obtain ⟨y, hy, e, _⟩ := (h2 s).mp hs
          exact ⟨y, hy, e⟩
      · exact h.ren.known w.index s ⟨w, hw, rfl, hs⟩
    obtain ⟨y, hy, e⟩ := this
    exact ⟨_, List.mem_map_of_mem hy, e⟩
  · show (if ρ 0 = old then new else ρ 0) = 0
    rw [h.zero, if_neg (Ne.symm h0)]
  · intro s c hc hc0
    show 0 < (if ρ c = old then new else ρ c) ∧ HasVolu m (if ρ c = old then new else ρ c)
    split
    · exact ⟨hp, hn⟩
    · exact h.has s c hc hc0
  · intro c
    show VoluChain m rmv c (if ρ c = old then new else ρ c)
    split
    · rename_i e
      exact (e ▸ h.inChain c).trans hch
    · exact h.inChain c
  · rintro c s ⟨x, hx, rfl, hs⟩
    obtain ⟨w, hw, rfl⟩ := List.mem_map.mp hx
    split at hs
    · rename_i e
      rw [if_pos e]
      rcases List.mem_append.mp hs with hs | hs
      · exact h.lists w.index s ⟨w, hw, rfl, hs⟩
      · obtain ⟨y, hy, rfl, hyo⟩ := (h2 s).mp hs
        obtain ⟨c0, b1, b2⟩ := (surfVolu_iff h).mp ⟨y, hy, rfl, hyo⟩
        refine ⟨c0, hr.back _ _ b1 ?_, ?_⟩
        · rintro rfl
          exact h0 (b2.symm.trans h.zero)
        · show VoluChain m rmv w.index c0
          rw [e]
          exact (voluChain_symm hch).trans (voluChain_symm (b2 ▸ h.inChain c0))
    · rename_i e
      rw [if_neg e]
      exact h.lists w.index s ⟨w, hw, rfl, hs⟩

/-- Some volumes are called like another. -/
theorem switch_all (hr : VoluReady m rmv) {new : Int} (hn : HasVolu m new) (hp : 0 < new) : ∀ (rs : List Int) (n : Mesh) (ρ : Int → Int), St m rmv n ρ →
    (∀ r ∈ rs, r ≠ 0 ∧ HasVolu m r ∧ VoluChain m rmv r new) →
    ∃ n', rs.foldlM (m := Except Fault) (fun (m : Mesh) (c : Int) => m.switchVolu c new) n = .ok n' ∧ St m rmv n' fun x => if ρ x ∈ rs then new else ρ x
  | [], n, ρ, h, _ => ⟨n, rfl, by simpa using h⟩
  | r :: rs, n, ρ, h, hq => by
    obtain ⟨n1, h1, h2⟩ := switch_step hr h (hq r (by simp)).1 (hq r (by simp)).2.1 hn hp (hq r (by simp)).2.2
    obtain ⟨n2, h3, h4⟩ := switch_all hr hn hp rs n1 _ h2 (fun q h => hq q (by simp [h]))
    refine ⟨n2, ?_, ?_⟩
    · rw [List.foldlM_cons, h1]
      exact h3
    · have : (fun x => if (if ρ x = r then new else ρ x) ∈ rs then new else if ρ x = r then new else ρ x) = fun x => if ρ x ∈ r :: rs then new else ρ x := by
        funext x
        by_cases hx : ρ x = r
        · simp [hx]
        · simp [hx]
      rw [this] at h4
      exact h4

/-- The names around a vertex. -/
theorem around_ok (hr : VoluReady m rmv) (h : St m rmv n ρ) {v : Int} (hv : v ∈ rmv) :
    ∃ t, volusAround n v = .ok t ∧ t.Pairwise (· < ·) ∧ ∀ x, x ∈ t ↔ ∃ c, (∃ e s, VertEdge m v e ∧ EdgeSurf m e s ∧ SurfVolu m s c) ∧ ρ c = x := by
  obtain ⟨x, h1, hx, hxi⟩ := elemAt_posOf_ok (ix := Vert.index) (hr.verts v hv)
  have hxe : ∀ e, e ∈ x.edgeind ↔ VertEdge m v e := by
    intro e
    constructor
    · intro he; exact ⟨x, hx, hxi, he⟩
    · rintro ⟨y, hy, hyi, he⟩
      rwa [inj_of_nodup hr.unique.verts hy hx (hyi.trans hxi.symm)] at he
  obtain ⟨ss, h2, h3⟩ := Refine.concatField_ok (ix := Edge.index) (field := Edge.surfind) (l := n.edges) (ks := x.edgeind)
    (by rw [h.ren.edges]; intro k hk; exact hr.edges v hv k ((hxe k).mp hk)) (by rw [h.ren.edges]; exact hr.unique.edges)
  have hss : ∀ s, s ∈ ss ↔ ∃ e, VertEdge m v e ∧ EdgeSurf m e s := by
    intro s
    rw [h3 s, h.ren.edges]
    constructor
    · rintro ⟨a, ha, h4, h5⟩; exact ⟨a.index, (hxe _).mp h4, a, ha, rfl, h5⟩
    · rintro ⟨e, h4, a, ha, rfl, h5⟩; exact ⟨a, ha, (hxe _).mpr h4, h5⟩
  obtain ⟨vs, h4, h5⟩ := Refine.concatField_ok (ix := Surf.index) (field := Surf.voluind) (l := n.surfs) (ks := ss)
    (by
      intro k hk
      obtain ⟨e, a1, a2⟩ := (hss k).mp hk
      obtain ⟨y, hy, rfl⟩ := hr.surfs v hv e k a1 a2
      rw [h.ren.surfs]
      exact ⟨_, List.mem_map_of_mem hy, rfl⟩) (by rw [surfIdx h]; exact hr.unique.surfs)
  refine ⟨sortUnique vs, ?_, sortUnique_strict _, ?_⟩
  · unfold volusAround isearch
    rw [h.ren.verts, h1, ok_bind, h2, ok_bind, h4]
    rfl
  · intro y
    rw [mem_sortUnique, h5 y]
    constructor
    · rintro ⟨a, ha, h6, h7⟩
      obtain ⟨e, a1, a2⟩ := (hss _).mp h6
      obtain ⟨c0, a3, a4⟩ := (surfVolu_iff h).mp ⟨a, ha, rfl, h7⟩
      exact ⟨c0, ⟨e, _, a1, a2, a3⟩, a4⟩
    · rintro ⟨c, ⟨e, s, a1, a2, a3⟩, rfl⟩
      obtain ⟨a, ha, rfl, h7⟩ := (surfVolu_iff h).mpr ⟨c, a3, rfl⟩
      exact ⟨a, ha, (hss _).mpr ⟨e, a1, a2⟩, h7⟩

/-- One vertex. -/
theorem step_ok (hr : VoluReady m rmv) (h : St m rmv n ρ) {v : Int} (hv : v ∈ rmv) (E : List VoluEdit) :
    ∃ (n' : Mesh) (t : List Int) (keep : Int) (E' : List VoluEdit), voluStep (n, E) v = .ok (n', E ++ E') ∧
      (∀ x, x ∈ t ↔ ∃ c, Around m v c ∧ ρ c = x) ∧ (∀ x ∈ t, keep ∈ t ∧ keep ≤ x) ∧
      St m rmv n' (fun x => if ρ x ∈ t then keep else ρ x) ∧ (E' = [] ∨ ∃ rs, rs ≠ [] ∧ E' = [⟨keep, rs⟩]) ∧
      (E'.flatMap VoluEdit.rmv).Nodup ∧ ∀ x, x ∈ E'.flatMap VoluEdit.rmv ↔ x ∈ t ∧ x ≠ keep := by
  obtain ⟨t, h1, h2, h3⟩ := around_ok hr h hv
  -- what is known of the names
  have hpos : ∀ x ∈ t, x = 0 ∨ 0 < x ∧ HasVolu m x := by
    intro x hx
    obtain ⟨c, ⟨e, s, _, _, a3⟩, rfl⟩ := (h3 x).mp hx
    by_cases hc : c = 0
    · left; rw [hc, h.zero]
    · right; exact h.has s c a3 hc
  have hmem : ∀ x, (x ∈ t ∧ x ≠ 0) ↔ ∃ c, Around m v c ∧ ρ c = x := by
    intro x
    constructor
    · rintro ⟨hx, h0⟩
      obtain ⟨c, hc, rfl⟩ := (h3 x).mp hx
      refine ⟨c, ⟨?_, hc⟩, rfl⟩
      rintro rfl
      exact h0 h.zero
    · rintro ⟨c, ⟨hc0, e, s, a1, a2, a3⟩, rfl⟩
      exact ⟨(h3 _).mpr ⟨c, ⟨e, s, a1, a2, a3⟩, rfl⟩, ne_of_gt (h.has s c a3 hc0).1⟩
  -- a list of names without 0
  have go : ∀ (u : List Int), u.Pairwise (· < ·) → (∀ x, x ∈ u ↔ ∃ c, Around m v c ∧ ρ c = x) → (∀ x ∈ u, 0 < x ∧ HasVolu m x) →
      ((∀ a b r, u = a :: b :: r → voluStep (n, E) v =
        ((b :: r).foldlM (m := Except Fault) (fun (m : Mesh) (c : Int) => m.switchVolu c a) n).map fun m => (m, E ++ [⟨a, b :: r⟩])) ∧
       ((∀ a b r, u ≠ a :: b :: r) → voluStep (n, E) v = .ok (n, E))) →
      ∃ (n' : Mesh) (t : List Int) (keep : Int) (E' : List VoluEdit), voluStep (n, E) v = .ok (n', E ++ E') ∧
        (∀ x, x ∈ t ↔ ∃ c, Around m v c ∧ ρ c = x) ∧ (∀ x ∈ t, keep ∈ t ∧ keep ≤ x) ∧
        St m rmv n' (fun x => if ρ x ∈ t then keep else ρ x) ∧ (E' = [] ∨ ∃ rs, rs ≠ [] ∧ E' = [⟨keep, rs⟩]) ∧
        (E'.flatMap VoluEdit.rmv).Nodup ∧ ∀ x, x ∈ E'.flatMap VoluEdit.rmv ↔ x ∈ t ∧ x ≠ keep := by
    intro u hu hum hup ⟨s1, s2⟩
    match u, hu, hum, hup, s1, s2 with
    | [], _, hum, _, _, s2 =>
      refine ⟨n, [], 0, [], ?_, hum, by simp, by simpa using h, Or.inl rfl, by simp, by simp⟩
      rw [s2 (by simp), List.append_nil]
    | [a], _, hum, _, _, s2 =>
      refine ⟨n, [a], a, [], ?_, hum, by simp, ?_, Or.inl rfl, by simp, by simp⟩
      · rw [s2 (by simp), List.append_nil]
      · have : (fun x => if ρ x ∈ [a] then a else ρ x) = ρ := by
          funext x
          simp only [List.mem_singleton]
          split
          · rename_i e; exact e.symm
          · rfl
        rw [this]
        exact h
    | a :: b :: r, hu, hum, hup, s1, _ =>
      obtain ⟨n', g1, g2⟩ := switch_all hr (hup a (by simp)).2 (hup a (by simp)).1 (b :: r) n ρ h
        (fun q hq => ⟨ne_of_gt (hup q (by simp only [List.mem_cons] at hq ⊢; tauto)).1, (hup q (by simp only [List.mem_cons] at hq ⊢; tauto)).2, by
          obtain ⟨x, hx, rfl⟩ := (hum q).mp (by simp only [List.mem_cons] at hq ⊢; tauto)
          obtain ⟨y, hy, e⟩ := (hum a).mp (by simp)
          rw [← e]
          exact (voluChain_symm (h.inChain x)).trans (.head ⟨v, hv, hx, hy⟩ (h.inChain y))⟩)
      obtain ⟨p1, p2⟩ := List.pairwise_cons.mp hu
      refine ⟨n', a :: b :: r, a, [⟨a, b :: r⟩], ?_, hum, ?_, ?_, Or.inr ⟨b :: r, by simp, rfl⟩, ?_, ?_⟩
      · rw [s1 a b r rfl, g1]
        rfl
      · intro x hx
        refine ⟨by simp, ?_⟩
        rcases List.mem_cons.mp hx with rfl | hx
        · exact le_refl _
        · exact le_of_lt (p1 x hx)
      · have : (fun x => if ρ x ∈ a :: b :: r then a else ρ x) = fun x => if ρ x ∈ b :: r then a else ρ x := by
          funext x
          by_cases hx : ρ x = a
          · simp [hx]
          · simp [hx]
        rw [this]
        exact g2
      · simp only [List.flatMap_cons, List.flatMap_nil, List.append_nil]
        exact p2.imp (fun hlt => ne_of_lt hlt)
      · intro x
        simp only [List.flatMap_cons, List.flatMap_nil, List.append_nil]
        constructor
        · intro hx
          exact ⟨by simp only [List.mem_cons] at hx ⊢; tauto, ne_of_gt (p1 x hx)⟩
        · rintro ⟨hx, hne⟩
          rcases List.mem_cons.mp hx with rfl | hx
          · exact absurd rfl hne
          · exact hx
  have hfil : ∀ l : List Int, (∀ x ∈ l, 0 < x) → (l.filter fun c => decide (c > 0)) = l := by
    intro l hl
    rw [List.filter_eq_self]
    intro x hx
    simpa using hl x hx
  by_cases h0 : 0 ∈ t
  · -- 0 comes first
    obtain ⟨u, rfl⟩ : ∃ u, t = 0 :: u := by
      match t, h0, h2, hpos with
      | a :: u, h0, h2, hpos =>
        obtain ⟨p1, _⟩ := List.pairwise_cons.mp h2
        rcases List.mem_cons.mp h0 with rfl | h0
        · exact ⟨u, rfl⟩
        · have := p1 0 h0
          rcases hpos a (by simp) with h | h <;> omega
    obtain ⟨p1, p2⟩ := List.pairwise_cons.mp h2
    have hum : ∀ x, x ∈ u ↔ ∃ c, Around m v c ∧ ρ c = x := by
      intro x
      rw [← hmem x]
      constructor
      · intro hx; exact ⟨by simp [hx], ne_of_gt (p1 x hx)⟩
      · rintro ⟨hx, hne⟩
        rcases List.mem_cons.mp hx with rfl | hx
        · exact absurd rfl hne
        · exact hx
    have hup : ∀ x ∈ u, 0 < x ∧ HasVolu m x := by
      intro x hx
      have := p1 x hx
      rcases hpos x (by simp [hx]) with h | h
      · omega
      · exact h
    refine go u p2 hum hup ⟨?_, ?_⟩
    · rintro a b r rfl
      have hf := hfil (b :: r) (fun x hx => (hup x (by simp only [List.mem_cons] at hx ⊢; tauto)).1)
      have hg : vecGet ((0 : Int) :: a :: b :: r) 0 = .ok 0 := rfl
      have hg1 : vecGet ((0 : Int) :: a :: b :: r) ((1 : Nat) : Int) = .ok a := rfl
      unfold voluStep
      simp only [h1]
      rw [ok_bind, if_pos (by simp), hg, ok_bind]
      simp only [if_true]
      rw [if_pos (by simp), hg1, ok_bind]
      simp only [List.drop_succ_cons, List.drop_zero]
      rw [hf, if_pos (by simp)]
    · intro hno
      unfold voluStep
      simp only [h1]
      rw [ok_bind]
      match u, hno with
      | [], _ => rfl
      | [a], _ => rfl
      | a :: b :: r, hno => exact absurd rfl (hno a b r)
  · have hum : ∀ x, x ∈ t ↔ ∃ c, Around m v c ∧ ρ c = x := by
      intro x
      rw [← hmem x]
      exact ⟨fun hx => ⟨hx, by rintro rfl; exact h0 hx⟩, fun hx => hx.1⟩
    have hup : ∀ x ∈ t, 0 < x ∧ HasVolu m x := by
      intro x hx
      rcases hpos x hx with rfl | h
      · exact absurd hx h0
      · exact h
    refine go t h2 hum hup ⟨?_, ?_⟩
    · rintro a b r rfl
      have hf := hfil (b :: r) (fun x hx => (hup x (by simp only [List.mem_cons] at hx ⊢; tauto)).1)
      have ha : a ≠ 0 := ne_of_gt (hup a (by simp)).1
      unfold voluStep
      simp only [h1]
      have hg : vecGet (a :: b :: r) 0 = .ok a := rfl
      have hg1 : vecGet (a :: b :: r) ((0 : Nat) : Int) = .ok a := rfl
      rw [ok_bind, if_pos (by simp), hg, ok_bind]
      simp only [if_neg ha]
      rw [if_pos (by simp), hg1, ok_bind]
      simp only [List.drop_succ_cons, List.drop_zero, Nat.zero_add]
      rw [hf, if_pos (by simp)]
    · intro hno
      unfold voluStep
      simp only [h1]
      rw [ok_bind]
      match t, hno with
      | [], _ => rfl
      | [a], _ => rfl
      | a :: b :: r, hno => exact absurd rfl (hno a b r)

/-- What holds after the vertices of `pre`. -/
structure Inv (m : Mesh) (rmv pre : List Int) (n : Mesh) (ρ : Int → Int) (E : List VoluEdit) : Prop where
  st : St m rmv n ρ
  chain : ∀ c, VoluChain m pre c (ρ c)
  same : ∀ v ∈ pre, ∀ c c', Around m v c → Around m v c' → ρ c = ρ c'
  le : ∀ c, ρ c ≤ c
  removed : ∀ c, c ∈ E.flatMap VoluEdit.rmv ↔ ρ c ≠ c
  nodup : (E.flatMap VoluEdit.rmv).Nodup
  edits : ∀ d ∈ E, d.rmv ≠ [] ∧ ∀ c ∈ d.rmv, d.keep < c ∧ VoluChain m pre d.keep c

theorem Inv.const {pre : List Int} {E : List VoluEdit} (h : Inv m rmv pre n ρ E) {c c' : Int} (hc : VoluChain m pre c c') : ρ c = ρ c' := by
  induction hc with
  | refl => rfl
  | tail _ h2 ih =>
    obtain ⟨v, hv, h3, h4⟩ := h2
    exact ih.trans (h.same v hv _ _ h3 h4)

theorem inv_step (hr : VoluReady m rmv) {pre : List Int} {E : List VoluEdit} (h : Inv m rmv pre n ρ E) {v : Int} (hv : v ∈ rmv) :
    ∃ n' ρ' E', voluStep (n, E) v = .ok (n', E') ∧ Inv m rmv (pre ++ [v]) n' ρ' E' := by
  obtain ⟨n', t, keep, E', h1, h2, h3, h4, h5, h6, h7⟩ := step_ok hr h.st hv E
  have hmono : ∀ {c c' : Int}, VoluChain m pre c c' → VoluChain m (pre ++ [v]) c c' := fun hc => voluChain_mono (fun w hw => by simp [hw]) hc
  have hidem : ∀ c, ρ (ρ c) = ρ c := fun c => (h.const (h.chain c)).symm
  have hin : ∀ x ∈ t, ρ x = x := by
    intro x hx
    obtain ⟨a, _, rfl⟩ := (h2 x).mp hx
    exact hidem a
  have hto : ∀ x ∈ t, VoluChain m (pre ++ [v]) x keep := by
    intro x hx
    obtain ⟨a, ha, rfl⟩ := (h2 x).mp hx
    obtain ⟨b, hb, e⟩ := (h2 keep).mp (h3 _ hx).1
    rw [← e]
    exact (voluChain_symm (hmono (h.chain a))).trans (.head ⟨v, by simp, ha, hb⟩ (hmono (h.chain b)))
  have hle : ∀ c, (if ρ c ∈ t then keep else ρ c) ≤ ρ c := by
    intro c
    split
    · rename_i hc; exact (h3 _ hc).2
    · exact le_refl _
  refine ⟨n', _, E ++ E', h1, ⟨h4, ?_, ?_, ?_, ?_, ?_, ?_⟩⟩
  · intro c
    show VoluChain m (pre ++ [v]) c (if ρ c ∈ t then keep else ρ c)
    split
    · rename_i hc; exact (hmono (h.chain c)).trans (hto _ hc)
    · exact hmono (h.chain c)
  · intro w hw c c' hc hc'
    show (if ρ c ∈ t then keep else ρ c) = if ρ c' ∈ t then keep else ρ c'
    rcases List.mem_append.mp hw with hw | hw
    · rw [h.same w hw c c' hc hc']
    · obtain rfl := List.mem_singleton.mp hw
      rw [if_pos ((h2 _).mpr ⟨c, hc, rfl⟩), if_pos ((h2 _).mpr ⟨c', hc', rfl⟩)]
  · intro c
    exact le_trans (hle c) (h.le c)
  · intro c
    rw [List.flatMap_append, List.mem_append, h.removed c, h7 c]
    show _ ↔ (if ρ c ∈ t then keep else ρ c) ≠ c
    constructor
    · rintro (hc | ⟨hc, hk⟩)
      · have := hle c
        have := h.le c
        omega
      · rw [if_pos (by rwa [hin c hc])]
        exact Ne.symm hk
    · intro hc
      by_cases e : ρ c = c
      · right
        rw [e] at hc
        by_cases ht : c ∈ t
        · rw [if_pos ht] at hc
          exact ⟨ht, Ne.symm hc⟩
        · rw [if_neg ht] at hc
          exact absurd rfl hc
      · exact Or.inl e
  · rw [List.flatMap_append, List.nodup_append]
    refine ⟨h.nodup, h6, ?_⟩
    rintro a ha b hb rfl
    exact (h.removed a).mp ha (hin a ((h7 a).mp hb).1)
  · intro d hd
    rcases List.mem_append.mp hd with hd | hd
    · exact ⟨(h.edits d hd).1, fun c hc => ⟨((h.edits d hd).2 c hc).1, hmono ((h.edits d hd).2 c hc).2⟩⟩
    · rcases h5 with rfl | ⟨rs, hrs, rfl⟩
      · cases hd
      · obtain rfl := List.mem_singleton.mp hd
        refine ⟨hrs, ?_⟩
        intro c hc
        obtain ⟨h8, h9⟩ := (h7 c).mp (by simpa using hc)
        exact ⟨lt_of_le_of_ne (h3 c h8).2 (Ne.symm h9), voluChain_symm (hto c h8)⟩

theorem inv_fold (hr : VoluReady m rmv) : ∀ (rest pre : List Int) (n : Mesh) (ρ : Int → Int) (E : List VoluEdit), (∀ v ∈ rest, v ∈ rmv) → Inv m rmv pre n ρ E →
    ∃ n' ρ' E', rest.foldlM (m := Except Fault) voluStep (n, E) = .ok (n', E') ∧ Inv m rmv (pre ++ rest) n' ρ' E'
  | [], pre, n, ρ, E, _, h => ⟨n, ρ, E, rfl, by simpa using h⟩
  | v :: rest, pre, n, ρ, E, hs, h => by
    obtain ⟨n1, ρ1, E1, h1, h2⟩ := inv_step hr h (hs v (by simp))
    obtain ⟨n2, ρ2, E2, h3, h4⟩ := inv_fold hr rest (pre ++ [v]) n1 ρ1 E1 (fun w hw => hs w (by simp [hw])) h2
    refine ⟨n2, ρ2, E2, ?_, by simpa using h4⟩
    rw [List.foldlM_cons, h1]
    exact h3

theorem st_refl (hr : VoluReady m rmv) : St m rmv m id := by
  refine ⟨⟨rfl, rfl, rfl, ?_, rfl, hr.back, hr.known⟩, rfl, ?_, fun _ => .refl, fun c s h => ⟨c, h, .refl⟩⟩
  · simp
  · intro s c hc h0
    rcases hr.volus s c hc with h | h
    · exact absurd h h0
    · exact h

/-- The whole loop. -/
theorem merge_ok (hr : VoluReady m rmv) : ∃ m' name E, modifyMergVolu m rmv = .ok (m', E) ∧ Inv m rmv rmv m' name E := by
  have h0 : Inv m rmv [] m id [] := ⟨st_refl hr, fun _ => .refl, by simp, fun _ => le_refl _, by simp, by simp, by simp⟩
  obtain ⟨n, ρ, E, h1, h2⟩ := inv_fold hr rmv [] m id [] (fun _ h => h) h0
  exact ⟨n, ρ, E, h1, by simpa using h2⟩

end RSVS.MergeVolu
