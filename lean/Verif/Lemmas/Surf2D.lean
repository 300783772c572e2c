import Verif.Lemmas.Coarsen
import Verif.Lemmas.Refine
import Verif.Lemmas.SpawnRemove
import Verif.Spec.Surf2D

/-!
# Lemmas for the merge of surfaces of a flat snake and the check of edges
-/

namespace RSVS.Surf2D

open RSVS.Spec RSVS.Mesh RSVS.SpawnRemove

variable {m n : Mesh} {ρ : Int → Int}

/-- The mesh with surfaces renamed. -/
structure St (m n : Mesh) (ρ : Int → Int) : Prop where
  ren : SurfsRenamed m n ρ
  zero : ρ 0 = 0
  has : ∀ e s, EdgeSurf m e s → s ≠ 0 → 0 < ρ s ∧ HasSurf m (ρ s)
  inChain : ∀ s, SharedChain m s (ρ s)

theorem sharedChain_symm {s s' : Int} (h : SharedChain m s s') : SharedChain m s' s := by
  induction h with
  | refl => exact .refl
  | tail _ h2 ih =>
    obtain ⟨v, h3, h4⟩ := h2
    exact Relation.ReflTransGen.head ⟨v, h4, h3⟩ ih

theorem surfIdx (h : St m n ρ) : n.surfs.map Surf.index = m.surfs.map Surf.index := by
  have := congrArg (List.map Surf.index) h.ren.surfs
  simpa [List.map_map, Function.comp_def] using this

theorem edgeIdx (h : St m n ρ) : n.edges.map Edge.index = m.edges.map Edge.index := by
  rw [h.ren.edges, List.map_map]
  rfl

theorem mem_index {l l' : List Surf} (h : l.map Surf.index = l'.map Surf.index) {c : Int} (hc : ∃ x ∈ l', x.index = c) : ∃ x ∈ l, x.index = c := by
  obtain ⟨x, hx, rfl⟩ := hc
  have : x.index ∈ l.map Surf.index := by rw [h]; exact List.mem_map_of_mem hx
  obtain ⟨y, hy, e⟩ := List.mem_map.mp this
  exact ⟨y, hy, e⟩

theorem edgeSurf_iff (h : St m n ρ) {e s : Int} : EdgeSurf n e s ↔ ∃ s0, EdgeSurf m e s0 ∧ ρ s0 = s := by
  constructor
  · rintro ⟨x, hx, rfl, hc⟩
    rw [h.ren.edges] at hx
    obtain ⟨y, hy, rfl⟩ := List.mem_map.mp hx
    obtain ⟨c0, h0, e⟩ := List.mem_map.mp hc
    exact ⟨c0, ⟨y, hy, rfl, h0⟩, e⟩
  · rintro ⟨c0, ⟨y, hy, rfl, h0⟩, rfl⟩
    refine ⟨{ y with surfind := y.surfind.map ρ }, ?_, rfl, List.mem_map_of_mem h0⟩
    rw [h.ren.edges]
    exact List.mem_map_of_mem hy

/-- One surface is called like another. -/
theorem switch_step (hr : FlatReady m) (h : St m n ρ) {old new : Int} (h0 : old ≠ 0) (ho : HasSurf m old) (hn : HasSurf m new) (hp : 0 < new)
    (hch : SharedChain m old new) :
    ∃ n', n.switchSurf old new = .ok n' ∧ St m n' fun x => if ρ x = old then new else ρ x := by
  have hvi := surfIdx h
  have hvn : (n.surfs.map Surf.index).Nodup := by rw [hvi]; exact hr.surfs
  obtain ⟨ov, hov, hoi⟩ := mem_index hvi ho
  obtain ⟨extra, h1, h2⟩ := Refine.switchSurf_eq (m := n) (old := old) (new := new) (os := ov) (by rw [edgeIdx h]; exact hr.edges) hvn
    (h.ren.volus.trans hr.flat) hov hoi
    (fun k hk => h.ren.known old k ⟨ov, hov, hoi, hk⟩) (mem_index hvi hn)
    (by
      intro s hs hso
      obtain ⟨w, hw, hwi, hws⟩ := h.ren.back s.index old ⟨s, hs, rfl, hso⟩ h0
      rwa [inj_of_nodup hvn hw hov (hwi.trans hoi.symm)] at hws)
  refine ⟨_, h1, ⟨⟨h.ren.verts, h.ren.volus, h.ren.dim, ?_, ?_, ?_, ?_, ?_, ?_, ?_⟩, ?_, ?_, ?_⟩⟩
  · show n.edges.map _ = _
    rw [h.ren.edges, List.map_map]
    refine List.map_congr_left ?_
    intro s _
    simp only [Function.comp_apply, Refine.replaceAll_eq, List.map_map]
    rfl
  · show (n.surfs.map _).map _ = _
    rw [← h.ren.surfs, List.map_map]
    refine List.map_congr_left ?_
    intro c _
    simp only [Function.comp_apply]
    split <;> rfl
  · intro s hs
    obtain ⟨w, hw, rfl⟩ := List.mem_map.mp hs
    split
    · exact Or.inr rfl
    · exact h.ren.unordered w hw
  · rintro e c ⟨x, hx, rfl, hc⟩ hc0
    obtain ⟨y, hy, rfl⟩ := List.mem_map.mp hx
    rcases mem_replaceAll.mp hc with ⟨hc1, _⟩ | ⟨rfl, hc1⟩
    · obtain ⟨w, hw, hwi, hws⟩ := h.ren.back y.index c ⟨y, hy, rfl, hc1⟩ hc0
      refine ⟨_, List.mem_map_of_mem hw, ?_, ?_⟩
      · split <;> exact hwi
      · split
        · exact List.mem_append.mpr (Or.inl hws)
        · exact hws
    · obtain ⟨w, hw, hwi⟩ := mem_index hvi hn
      refine ⟨_, List.mem_map_of_mem hw, ?_, ?_⟩
      · split <;> exact hwi
      · rw [if_pos hwi]
        exact List.mem_append.mpr (Or.inr ((h2 _).mpr ⟨y, hy, rfl, hc1⟩))
  · rintro c s ⟨x, hx, rfl, hs⟩
    obtain ⟨w, hw, rfl⟩ := List.mem_map.mp hx
    have : ∃ y ∈ n.edges, y.index = s := by
      split at hs
      · rcases List.mem_append.mp hs with hs | hs
        · exact h.ren.known w.index s ⟨w, hw, rfl, hs⟩
        · obtain ⟨y, hy, e, _⟩ := (h2 s).mp hs
          exact ⟨y, hy, e⟩
      · exact h.ren.known w.index s ⟨w, hw, rfl, hs⟩
    obtain ⟨y, hy, e⟩ := this
    exact ⟨_, List.mem_map_of_mem hy, e⟩
  · rintro c s ⟨x, hx, rfl, hs⟩
    obtain ⟨w, hw, rfl⟩ := List.mem_map.mp hx
    split at hs
    · rename_i e
      rw [if_pos e]
      rcases List.mem_append.mp hs with hs | hs
      · exact h.ren.lists w.index s ⟨w, hw, rfl, hs⟩
      · obtain ⟨y, hy, rfl, hyo⟩ := (h2 s).mp hs
        obtain ⟨c0, b1, b2⟩ := (edgeSurf_iff h).mp ⟨y, hy, rfl, hyo⟩
        refine ⟨c0, hr.back _ _ b1 ?_, ?_⟩
        · rintro rfl
          exact h0 (b2.symm.trans h.zero)
        · show SharedChain m w.index c0
          rw [e]
          exact (sharedChain_symm hch).trans (sharedChain_symm (b2 ▸ h.inChain c0))
    · rename_i e
      rw [if_neg e]
      exact h.ren.lists w.index s ⟨w, hw, rfl, hs⟩
  · intro s e hs
    obtain ⟨w, hw, rfl, hwe⟩ := h.ren.keeps s e hs
    refine ⟨_, List.mem_map_of_mem hw, ?_, ?_⟩
    · split <;> rfl
    · split
      · exact List.mem_append.mpr (Or.inl hwe)
      · exact hwe
  · show (if ρ 0 = old then new else ρ 0) = 0
    rw [h.zero, if_neg (Ne.symm h0)]
  · intro s c hc hc0
    show 0 < (if ρ c = old then new else ρ c) ∧ HasSurf m (if ρ c = old then new else ρ c)
    split
    · exact ⟨hp, hn⟩
    · exact h.has s c hc hc0
  · intro c
    show SharedChain m c (if ρ c = old then new else ρ c)
    split
    · rename_i e
      exact (e ▸ h.inChain c).trans hch
    · exact h.inChain c

/-- Some surfaces are called like another. -/
theorem switch_all (hr : FlatReady m) {new : Int} (hn : HasSurf m new) (hp : 0 < new) : ∀ (rs : List Int) (n : Mesh) (ρ : Int → Int), St m n ρ →
    (∀ r ∈ rs, r ≠ 0 ∧ HasSurf m r ∧ SharedChain m r new) →
    ∃ n', rs.foldlM (m := Except Fault) (fun (m : Mesh) (c : Int) => m.switchSurf c new) n = .ok n' ∧ St m n' fun x => if ρ x ∈ rs then new else ρ x
  | [], n, ρ, h, _ => ⟨n, rfl, by simpa using h⟩
  | r :: rs, n, ρ, h, hq => by
    obtain ⟨n1, h1, h2⟩ := switch_step hr h (hq r (by simp)).1 (hq r (by simp)).2.1 hn hp (hq r (by simp)).2.2
    obtain ⟨n2, h3, h4⟩ := switch_all hr hn hp rs n1 _ h2 (fun q h => hq q (by simp [h]))
    refine ⟨n2, ?_, ?_⟩
    · rw [List.foldlM_cons, h1]
      exact h3
    · have : (fun x => if (if ρ x = r then new else ρ x) ∈ rs then new else if ρ x = r then new else ρ x) = fun x => if ρ x ∈ r :: rs then new else ρ x := by
        funext x
        by_cases hx : ρ x = r
        · simp [hx]
        · simp [hx]
      rw [this] at h4
      exact h4

/-- The search once a surface is kept. -/
theorem pick_found : ∀ (l : List Int) (p : Pick), p.nAbove ≠ 0 →
    (l.foldl pickStep p).keep = p.keep ∧ (l.foldl pickStep p).rmv = p.rmv ++ l.filter fun s => decide (s ≠ 0 ∧ s ≠ p.keep)
  | [], p, _ => by simp
  | s :: l, p, hp => by
    rw [List.foldl_cons]
    by_cases hs : s ≠ 0 ∧ s ≠ p.keep
    · have e : pickStep p s = ⟨p.nAbove + if s > 0 then 1 else 0, p.keep, p.rmv ++ [s]⟩ := by
        unfold pickStep
        simp only [if_neg hp, if_pos hs]
      obtain ⟨h1, h2⟩ := pick_found l (pickStep p s) (by rw [e]; show p.nAbove + _ ≠ 0; omega)
      rw [h1, h2, e]
      refine ⟨rfl, ?_⟩
      rw [List.filter_cons_of_pos (by simpa using hs)]
      simp
    · have e : pickStep p s = ⟨p.nAbove + if s > 0 then 1 else 0, p.keep, p.rmv⟩ := by
        unfold pickStep
        simp only [if_neg hp, if_neg hs]
      obtain ⟨h1, h2⟩ := pick_found l (pickStep p s) (by rw [e]; show p.nAbove + _ ≠ 0; omega)
      rw [h1, h2, e]
      refine ⟨rfl, ?_⟩
      rw [List.filter_cons_of_neg (by simpa using hs)]

/-- The search from the start. -/
theorem pick_ok : ∀ (l : List Int) (p : Pick), p.nAbove = 0 → p.rmv = [] → (∀ s ∈ l, 0 ≤ s) → (∃ s ∈ l, 0 < s) →
    ((l.foldl pickStep p).keep ∈ l ∧ 0 < (l.foldl pickStep p).keep) ∧
      ∀ x, x ∈ (l.foldl pickStep p).rmv ↔ x ∈ l ∧ x ≠ 0 ∧ x ≠ (l.foldl pickStep p).keep
  | [], _, _, _, _, h => by simp at h
  | s :: l, p, hp, hm, hl, hx => by
    rw [List.foldl_cons]
    by_cases hs : 0 < s
    · have e : pickStep p s = ⟨1, s, []⟩ := by
        unfold pickStep
        simp only [hp, hm, if_true, gt_iff_lt, if_pos hs]
      obtain ⟨h1, h2⟩ := pick_found l (pickStep p s) (by rw [e]; simp)
      rw [h1, h2, e]
      refine ⟨⟨by simp, hs⟩, ?_⟩
      intro x
      simp only [List.nil_append, List.mem_filter, List.mem_cons, decide_eq_true_eq]
      constructor
      · rintro ⟨a, b⟩; exact ⟨Or.inr a, b⟩
      · rintro ⟨a | a, b, c⟩
        · exact absurd a c
        · exact ⟨a, b, c⟩
    · have hs0 : s = 0 := by have := hl s (by simp); omega
      have e : pickStep p s = ⟨0, 0, []⟩ := by
        unfold pickStep
        simp only [hp, hm, if_true, hs0]
        rfl
      obtain ⟨⟨h1, h2⟩, h3⟩ := pick_ok l (pickStep p s) (by rw [e]) (by rw [e]) (fun x hx => hl x (by simp [hx])) (by
        obtain ⟨x, hx, h⟩ := hx
        rcases List.mem_cons.mp hx with rfl | hx
        · exact absurd h hs
        · exact ⟨x, hx, h⟩)
      refine ⟨⟨by simp [h1], h2⟩, ?_⟩
      intro x
      rw [h3 x, List.mem_cons]
      constructor
      · rintro ⟨a, b⟩; exact ⟨Or.inr a, b⟩
      · rintro ⟨a | a, b, c⟩
        · exact absurd (a.trans hs0) b
        · exact ⟨a, b, c⟩

/-- What holds after the first `k` edges. -/
structure Inv (m : Mesh) (k : Nat) (n : Mesh) (ρ : Int → Int) (E : List SurfEdit) : Prop where
  st : St m n ρ
  idem : ∀ s, ρ (ρ s) = ρ s
  same : ∀ i < k, ∀ x, m.edges[i]? = some x → ∀ s ∈ x.surfind, ∀ s' ∈ x.surfind, s ≠ 0 → s' ≠ 0 → ρ s = ρ s'
  removed : ∀ s, s ∈ E.flatMap SurfEdit.rmv ↔ ρ s ≠ s
  apart : E.Pairwise fun d d' => ∀ s ∈ d.rmv, s ∉ d'.rmv ∧ s ≠ d'.keep
  edits : ∀ d ∈ E, 0 < d.keep ∧ ∀ s ∈ d.rmv, s ≠ d.keep ∧ SharedChain m d.keep s

theorem two_of_filter {l : List Int} {p : Int → Bool} (h : ¬ (l.filter p).length > 1) {a b : Int} (ha : a ∈ l) (hb : b ∈ l) (pa : p a) (pb : p b) : a = b := by
  have h1 : a ∈ l.filter p := List.mem_filter.mpr ⟨ha, pa⟩
  have h2 : b ∈ l.filter p := List.mem_filter.mpr ⟨hb, pb⟩
  match hf : l.filter p, h, h1, h2 with
  | [], _, h1, _ => simp at h1
  | [c], _, h1, h2 =>
    rw [List.mem_singleton.mp h1, List.mem_singleton.mp h2]
  | c :: d :: r, h, _, _ => simp at h

theorem inv_step (hr : FlatReady m) {k : Nat} {E : List SurfEdit} (h : Inv m k n ρ E) (hk : k < m.edges.length) :
    ∃ n' ρ' E', surfStep (n, E) k = .ok (n', E') ∧ Inv m (k + 1) n' ρ' E' := by
  set y := m.edges[k] with hy
  have hym : y ∈ m.edges := List.getElem_mem hk
  have hget : elemAt n.edges (k : Int) = .ok { y with surfind := y.surfind.map ρ } := by
    unfold elemAt
    rw [if_neg (by omega), Int.toNat_natCast, h.st.ren.edges, List.getElem?_map, List.getElem?_eq_getElem hk]
    rfl
  set l := y.surfind.map ρ with hl
  have hpos : ∀ x ∈ l, x = 0 ∨ 0 < x ∧ HasSurf m x := by
    intro x hx
    obtain ⟨s, hs, rfl⟩ := List.mem_map.mp hx
    by_cases hc : s = 0
    · left; rw [hc, h.st.zero]
    · right; exact h.st.has y.index s ⟨y, hym, rfl, hs⟩ hc
  have hidl : ∀ x ∈ l, ρ x = x := by
    intro x hx
    obtain ⟨s, hs, rfl⟩ := List.mem_map.mp hx
    exact h.idem s
  have hchain : ∀ x ∈ l, ∀ x' ∈ l, x ≠ 0 → x' ≠ 0 → SharedChain m x x' := by
    intro x hx x' hx' h0 h0'
    obtain ⟨s, hs, rfl⟩ := List.mem_map.mp hx
    obtain ⟨s', hs', rfl⟩ := List.mem_map.mp hx'
    refine (sharedChain_symm (h.st.inChain s)).trans (.head ⟨y.index, ⟨?_, y, hym, rfl, hs⟩, ?_, y, hym, rfl, hs'⟩ (h.st.inChain s'))
    · rintro rfl; exact h0 h.st.zero
    · rintro rfl; exact h0' h.st.zero
  -- nothing to do
  have stay : ¬ (l.filter fun s => decide (s > 0)).length > 1 → surfStep (n, E) k = .ok (n, E) →
      ∃ n' ρ' E', surfStep (n, E) k = .ok (n', E') ∧ Inv m (k + 1) n' ρ' E' := by
    intro hf hst
    refine ⟨n, ρ, E, hst, ⟨h.st, h.idem, ?_, h.removed, h.apart, h.edits⟩⟩
    intro i hi x hx s hs s' hs' h0 h0'
    rcases Nat.lt_succ_iff_lt_or_eq.mp hi with hi | rfl
    · exact h.same i hi x hx s hs s' hs' h0 h0'
    · rw [List.getElem?_eq_getElem hk] at hx
      obtain rfl := Option.some.inj hx
      have g : ∀ q ∈ y.surfind, q ≠ 0 → decide (ρ q > 0) = true := by
        intro q hq hq0
        simpa using (h.st.has y.index q ⟨y, hym, rfl, hq⟩ hq0).1
      exact two_of_filter (p := fun s => decide (s > 0)) hf (List.mem_map_of_mem hs) (List.mem_map_of_mem hs') (g s hs h0) (g s' hs' h0')
  by_cases hf : (l.filter fun s => decide (s > 0)).length > 1
  · have hlen : l.length > 1 := lt_of_lt_of_le hf (List.length_filter_le _ _)
    obtain ⟨⟨p1, p2⟩, p3⟩ := pick_ok l {} rfl rfl (fun s hs => by rcases hpos s hs with h | h <;> omega) (by
      obtain ⟨c, hc⟩ : ∃ c, c ∈ l.filter fun s => decide (s > 0) := List.exists_mem_of_length_pos (by omega)
      obtain ⟨a, b⟩ := List.mem_filter.mp hc
      exact ⟨c, a, by simpa using b⟩)
    set p := l.foldl pickStep {} with hp
    have hkeep : HasSurf m p.keep := by
      rcases hpos _ p1 with h | h
      · omega
      · exact h.2
    obtain ⟨n', g1, g2⟩ := switch_all hr hkeep p2 p.rmv n ρ h.st (by
      intro r hr'
      obtain ⟨a, b, c⟩ := (p3 r).mp hr'
      refine ⟨b, ?_, hchain r a _ p1 b (ne_of_gt p2)⟩
      rcases hpos r a with h | h
      · exact absurd h b
      · exact h.2)
    have hstep : surfStep (n, E) k = .ok (n', E ++ [⟨p.keep, p.rmv⟩]) := by
      unfold surfStep
      simp only [hget]
      rw [ok_bind]
      simp only
      rw [if_pos hlen, if_pos hf, g1]
      rfl
    refine ⟨n', _, _, hstep, ⟨g2, ?_, ?_, ?_, ?_, ?_⟩⟩
    · intro s
      show (if ρ (if ρ s ∈ p.rmv then p.keep else ρ s) ∈ p.rmv then p.keep else ρ (if ρ s ∈ p.rmv then p.keep else ρ s)) = _
      have hkr : p.keep ∉ p.rmv := fun hc => ((p3 _).mp hc).2.2 rfl
      by_cases hs : ρ s ∈ p.rmv
      · simp only [if_pos hs, hidl _ p1, if_neg hkr]
      · simp only [if_neg hs, h.idem]
    · intro i hi x hx s hs s' hs' h0 h0'
      show (if ρ s ∈ p.rmv then p.keep else ρ s) = if ρ s' ∈ p.rmv then p.keep else ρ s'
      rcases Nat.lt_succ_iff_lt_or_eq.mp hi with hi | rfl
      · rw [h.same i hi x hx s hs s' hs' h0 h0']
      · rw [List.getElem?_eq_getElem hk] at hx
        obtain rfl := Option.some.inj hx
        have g : ∀ q ∈ y.surfind, q ≠ 0 → (if ρ q ∈ p.rmv then p.keep else ρ q) = p.keep := by
          intro q hq hq0
          have := (h.st.has y.index q ⟨y, hym, rfl, hq⟩ hq0).1
          split
          · rfl
          · rename_i hn
            by_contra hne
            exact hn ((p3 _).mpr ⟨List.mem_map_of_mem hq, by omega, hne⟩)
        rw [g s hs h0, g s' hs' h0']
    · intro s
      show _ ↔ (if ρ s ∈ p.rmv then p.keep else ρ s) ≠ s
      rw [List.flatMap_append, List.mem_append, h.removed s]
      simp only [List.flatMap_cons, List.flatMap_nil, List.append_nil]
      constructor
      · rintro (hs | hs)
        · split
          · intro he
            rw [← he] at hs
            exact hs (hidl _ p1)
          · exact hs
        · obtain ⟨a, b, c⟩ := (p3 s).mp hs
          rw [if_pos (by rw [hidl s a]; exact hs)]
          exact Ne.symm c
      · intro hs
        by_cases e : ρ s = s
        · right
          rw [e] at hs
          by_contra hn
          rw [if_neg hn] at hs
          exact hs rfl
        · exact Or.inl e
    · rw [List.pairwise_append]
      refine ⟨h.apart, List.pairwise_singleton _ _, ?_⟩
      intro d hd d' hd' s hs
      obtain rfl := List.mem_singleton.mp hd'
      have hne := (h.removed s).mp (List.mem_flatMap.mpr ⟨d, hd, hs⟩)
      refine ⟨fun hc => hne (hidl s ((p3 s).mp hc).1), ?_⟩
      rintro rfl
      exact hne (hidl _ p1)
    · intro d hd
      rcases List.mem_append.mp hd with hd | hd
      · exact h.edits d hd
      · obtain rfl := List.mem_singleton.mp hd
        refine ⟨p2, ?_⟩
        intro s hs
        obtain ⟨a, b, c⟩ := (p3 s).mp hs
        exact ⟨c, hchain _ p1 s a (ne_of_gt p2) b⟩
  · refine stay hf ?_
    unfold surfStep
    simp only [hget]
    rw [ok_bind]
    simp only
    rw [if_neg hf]
    split <;> rfl

theorem inv_fold (hr : FlatReady m) : ∀ (c k : Nat) (n : Mesh) (ρ : Int → Int) (E : List SurfEdit), k + c = m.edges.length → Inv m k n ρ E →
    ∃ n' ρ' E', (List.range' k c).foldlM (m := Except Fault) surfStep (n, E) = .ok (n', E') ∧ Inv m m.edges.length n' ρ' E'
  | 0, k, n, ρ, E, hc, h => ⟨n, ρ, E, rfl, by rw [← hc]; simpa using h⟩
  | c + 1, k, n, ρ, E, hc, h => by
    obtain ⟨n1, ρ1, E1, h1, h2⟩ := inv_step hr h (by omega)
    obtain ⟨n2, ρ2, E2, h3, h4⟩ := inv_fold hr c (k + 1) n1 ρ1 E1 (by omega) h2
    refine ⟨n2, ρ2, E2, ?_, h4⟩
    rw [List.range'_succ, List.foldlM_cons, h1]
    exact h3

theorem st_refl (hr : FlatReady m) : St m m id := by
  refine ⟨⟨rfl, rfl, rfl, ?_, rfl, fun _ h => Or.inl h, hr.back, hr.known, fun s e h => ⟨s, h, .refl⟩, fun _ _ h => h⟩, rfl, ?_, fun _ => .refl⟩
  · simp
  · intro e s hc h0
    rcases hr.listed e s hc with h | h
    · exact absurd h h0
    · exact h

/-- The whole loop. -/
theorem merge_ok (hr : FlatReady m) : ∃ m' name E, modifyMergSurf2D m = .ok (m', E) ∧ Inv m m.edges.length m' name E := by
  have h0 : Inv m 0 m id [] := ⟨st_refl hr, fun _ => rfl, fun i hi => absurd hi (by omega), by simp, List.Pairwise.nil, by simp⟩
  obtain ⟨n, ρ, E, h1, h2⟩ := inv_fold hr m.edges.length 0 m id [] (by omega) h0
  refine ⟨n, ρ, E, ?_, h2⟩
  unfold modifyMergSurf2D
  rw [List.range_eq_range']
  exact h1

theorem Inv.beside {E : List SurfEdit} (h : Inv m m.edges.length n ρ E) (hr : FlatReady m) {e s s' : Int} (hs : SideOf m e s) (hs' : SideOf m e s') : ρ s = ρ s' := by
  obtain ⟨h0, x, hx, rfl, hxs⟩ := hs
  obtain ⟨h0', y, hy, hyi, hys⟩ := hs'
  obtain rfl := inj_of_nodup hr.edges hy hx hyi
  obtain ⟨i, hi, he⟩ := List.getElem_of_mem hx
  exact h.same i hi y (by rw [List.getElem?_eq_getElem hi, he]) s hxs s' hys h0 h0'

theorem Inv.const {E : List SurfEdit} (h : Inv m m.edges.length n ρ E) (hr : FlatReady m) {s s' : Int} (hc : SharedChain m s s') : ρ s = ρ s' := by
  induction hc with
  | refl => rfl
  | tail _ h2 ih =>
    obtain ⟨e, h3, h4⟩ := h2
    exact ih.trans (h.beside hr h3 h4)

theorem stay_fold : ∀ (l : List Nat), (∀ i ∈ l, ∃ h : i < m.edges.length, (m.edges[i].surfind.filter fun s => decide (s > 0)).length ≤ 1) →
    ∀ E, l.foldlM (m := Except Fault) surfStep (m, E) = .ok (m, E)
  | [], _, _ => rfl
  | i :: l, hl, E => by
    obtain ⟨hi, hf⟩ := hl i (by simp)
    have hget : elemAt m.edges (i : Int) = .ok m.edges[i] := by
      unfold elemAt
      rw [if_neg (by omega), Int.toNat_natCast, List.getElem?_eq_getElem hi]
    have : surfStep (m, E) i = .ok (m, E) := by
      unfold surfStep
      simp only [hget]
      rw [ok_bind]
      split
      · rw [if_neg (by omega)]
      · rfl
    rw [List.foldlM_cons, this]
    exact stay_fold l (fun j hj => hl j (by simp [hj])) E

/-! ### The check of the edges to remove -/

theorem differs_iff : ∀ {l : List Int}, differs l = false ↔ ∀ a ∈ l, ∀ b ∈ l, a = b
  | [] => by simp [differs]
  | k :: l => by
    simp only [differs, List.any_eq_false, decide_eq_true_eq, not_not]
    constructor
    · intro h a ha b hb
      rw [← h a ha, ← h b hb]
    · intro h a ha
      exact h k (by simp) a ha

theorem short_same {l : List Int} (h : ¬ l.length > 1) : ∀ a ∈ l, ∀ b ∈ l, a = b := by
  match l, h with
  | [], _ => simp
  | [a], _ => simp
  | a :: b :: r, h => simp at h

theorem check_fold (hu : (m.edges.map Edge.index).Nodup) : ∀ (l : List Int) (R : List Int), (∀ e ∈ l, HasEdge m e) →
    ∃ R', l.foldlM (m := Except Fault) (checkStep m) R = .ok R' ∧ ∀ e, e ∈ R' ↔ e ∈ R ∨ e ∈ l ∧ (∃ x ∈ m.edges, x.index = e ∧ 1 < x.vertind.length) ∧ OneVertex m e ∧ OneSurface m e
  | [], R, _ => ⟨R, rfl, by simp⟩
  | e :: l, R, hl => by
    obtain ⟨x, h1, hx, hxi⟩ := elemAt_posOf_ok (ix := Edge.index) (hl e (by simp))
    have hv : OneVertex m e ↔ ∀ a ∈ x.vertind, ∀ b ∈ x.vertind, a = b := by
      constructor
      · intro h a ha b hb; exact h a b ⟨x, hx, hxi, ha⟩ ⟨x, hx, hxi, hb⟩
      · rintro h a b ⟨y, hy, hyi, ha⟩ ⟨z, hz, hzi, hb⟩
        rw [inj_of_nodup hu hy hx (hyi.trans hxi.symm)] at ha
        rw [inj_of_nodup hu hz hx (hzi.trans hxi.symm)] at hb
        exact h a ha b hb
    have hs : OneSurface m e ↔ ∀ a ∈ x.surfind, ∀ b ∈ x.surfind, a = b := by
      constructor
      · intro h a ha b hb; exact h a b ⟨x, hx, hxi, ha⟩ ⟨x, hx, hxi, hb⟩
      · rintro h a b ⟨y, hy, hyi, ha⟩ ⟨z, hz, hzi, hb⟩
        rw [inj_of_nodup hu hy hx (hyi.trans hxi.symm)] at ha
        rw [inj_of_nodup hu hz hx (hzi.trans hxi.symm)] at hb
        exact h a ha b hb
    have h2 : (∃ y ∈ m.edges, y.index = e ∧ 1 < y.vertind.length) ↔ 1 < x.vertind.length := by
      constructor
      · rintro ⟨y, hy, hyi, h⟩
        rwa [inj_of_nodup hu hy hx (hyi.trans hxi.symm)] at h
      · intro h; exact ⟨x, hx, hxi, h⟩
    have key : ∃ R1, checkStep m R e = .ok R1 ∧ ∀ a, a ∈ R1 ↔ a ∈ R ∨ a = e ∧ 1 < x.vertind.length ∧ OneVertex m e ∧ OneSurface m e := by
      unfold checkStep
      rw [h1]
      refine ⟨_, rfl, ?_⟩
      intro a
      have hsurf : (if x.surfind.length > 1 then differs x.surfind else false) = false ↔ OneSurface m e := by
        rw [hs]
        split
        · exact differs_iff
        · rename_i h; exact ⟨fun _ => short_same h, fun _ => rfl⟩
      have hvert : (if x.vertind.length > 1 then differs x.vertind else true) = false ↔ 1 < x.vertind.length ∧ OneVertex m e := by
        rw [hv]
        split
        · rename_i h; rw [differs_iff]; exact ⟨fun g => ⟨h, g⟩, fun g => g.2⟩
        · rename_i h; exact ⟨fun g => absurd g (by simp), fun g => absurd g.1 h⟩
      have hcond : (!((if x.surfind.length > 1 then differs x.surfind else false) || if x.vertind.length > 1 then differs x.vertind else true)) = true ↔
          OneSurface m e ∧ 1 < x.vertind.length ∧ OneVertex m e := by
        rw [Bool.not_eq_true', Bool.or_eq_false_iff, hsurf, hvert]
      show (a ∈ ite ((!((if x.surfind.length > 1 then differs x.surfind else false) || if x.vertind.length > 1 then differs x.vertind else true)) = true) _ _) ↔ _
      by_cases hc : OneSurface m e ∧ 1 < x.vertind.length ∧ OneVertex m e
      · rw [if_pos (hcond.mpr hc), List.mem_append, List.mem_singleton]
        exact ⟨fun h => h.imp_right fun h => ⟨h, hc.2.1, hc.2.2, hc.1⟩, fun h => h.imp_right fun h => h.1⟩
      · rw [if_neg (fun h => hc (hcond.mp h))]
        exact ⟨Or.inl, fun h => h.elim id fun h => absurd ⟨h.2.2.2, h.2.1, h.2.2.1⟩ hc⟩
    obtain ⟨R1, k1, k2⟩ := key
    obtain ⟨R2, k3, k4⟩ := check_fold hu l R1 (fun a ha => hl a (by simp [ha]))
    refine ⟨R2, ?_, ?_⟩
    · rw [List.foldlM_cons, k1]
      exact k3
    · intro a
      rw [k4 a, k2 a, List.mem_cons]
      constructor
      · rintro ((h | ⟨rfl, h⟩) | h)
        · exact Or.inl h
        · exact Or.inr ⟨Or.inl rfl, h2.mpr h.1, h.2⟩
        · exact Or.inr ⟨Or.inr h.1, h.2⟩
      · rintro (h | ⟨rfl | h, g⟩)
        · exact Or.inl (Or.inl h)
        · exact Or.inl (Or.inr ⟨rfl, h2.mp g.1, g.2⟩)
        · exact Or.inr ⟨h, g⟩

end RSVS.Surf2D
