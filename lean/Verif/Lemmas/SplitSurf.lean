import Verif.Lemmas.ForceClose
import Verif.Props.Order
import Verif.Model.SplitSurf
import Verif.Spec.SplitSurf

/-!
# Lemmas for the ordering of all surfaces
-/

namespace RSVS.SplitSurf

open RSVS RSVS.Mesh RSVS.Spec RSVS.Order

/-! ### Splitting in steps -/

theorem forall₂_edge_index {l l' : List Edge} (h : List.Forall₂ (fun x y => ∃ s, y = { x with surfind := s }) l l') :
    l'.map Edge.index = l.map Edge.index := by
  induction h with
  | nil => rfl
  | cons h _ ih => obtain ⟨s, rfl⟩ := h; simp [ih]

theorem forall₂_edge_mem {l l' : List Edge} (h : List.Forall₂ (fun x y => ∃ s, y = { x with surfind := s }) l l') :
    (∀ x ∈ l, ∃ y ∈ l', y.index = x.index ∧ y.vertind = x.vertind) ∧ ∀ y ∈ l', ∃ x ∈ l, y.index = x.index ∧ y.vertind = x.vertind := by
  induction h with
  | nil => simp
  | cons h _ ih =>
    obtain ⟨s, rfl⟩ := h
    constructor
    · intro x hx
      rcases List.mem_cons.1 hx with rfl | hx
      · exact ⟨_, List.mem_cons_self, rfl, rfl⟩
      · obtain ⟨y, hy, h⟩ := ih.1 x hx
        exact ⟨y, List.mem_cons_of_mem _ hy, h⟩
    · intro y hy
      rcases List.mem_cons.1 hy with rfl | hy
      · exact ⟨_, List.mem_cons_self, rfl, rfl⟩
      · obtain ⟨x, hx, h⟩ := ih.2 y hy
        exact ⟨x, List.mem_cons_of_mem _ hx, h⟩

theorem forall₂_surfind_refl {α : Type} {R : α → α → Prop} (h : ∀ x, R x x) : ∀ l : List α, List.Forall₂ R l l
  | [] => .nil
  | x :: l => .cons (h x) (forall₂_surfind_refl h l)

theorem forall₂_trans {α : Type} {R : α → α → Prop} (h : ∀ x y z, R x y → R y z → R x z) :
    ∀ {l l' l'' : List α}, List.Forall₂ R l l' → List.Forall₂ R l' l'' → List.Forall₂ R l l''
  | _, _, _, .nil, .nil => .nil
  | _, _, _, .cons a b, .cons c d => .cons (h _ _ _ a c) (forall₂_trans h b d)

theorem splitBy_trans {m r t : Mesh} {a b : Int → Int} (h : SplitBy m r a) (h' : SplitBy r t b) : SplitBy m t (a ∘ b) where
  verts := h'.verts.trans h.verts
  edges := forall₂_trans (by rintro x y z ⟨s, rfl⟩ ⟨s', rfl⟩; exact ⟨s', rfl⟩) h.edges h'.edges
  volus := forall₂_trans (by rintro x y z ⟨s, rfl⟩ ⟨s', rfl⟩; exact ⟨s', rfl⟩) h.volus h'.volus
  dim := h'.dim.trans h.dim
  keeps := fun s hs => by
    obtain ⟨h1, h2⟩ := h.keeps s hs
    obtain ⟨h3, h4⟩ := h'.keeps s h1
    exact ⟨h3, by simp only [Function.comp]; rw [h4, h2]⟩
  comes := fun g hg => by
    obtain ⟨f', hf', h1, h2⟩ := h'.comes g hg
    obtain ⟨f, hf, h3, h4⟩ := h.comes f' hf'
    refine ⟨f, hf, by simp only [Function.comp]; rw [h3, h1], ?_⟩
    rw [h4] at h2
    exact h2
  shares := fun f hf e => by
    rw [h.shares f hf e]
    constructor
    · rintro ⟨f', hf', h1, h2⟩
      obtain ⟨g, hg, h3, h4⟩ := (h'.shares f' hf' e).1 h2
      exact ⟨g, hg, by simp only [Function.comp]; rw [h3, h1], h4⟩
    · rintro ⟨g, hg, h1, h2⟩
      obtain ⟨f', hf', h3, _⟩ := h'.comes g hg
      exact ⟨f', hf', by rw [h3]; exact h1, (h'.shares f' hf' e).2 ⟨g, hg, h3.symm, h2⟩⟩
  once := fun g hg k hk hs e h1 h2 => by
    obtain ⟨f, hf, h3, _⟩ := h'.comes g hg
    obtain ⟨f', hf', h4, _⟩ := h'.comes k hk
    have e1 := (h'.shares f hf e).2 ⟨g, hg, h3.symm, h1⟩
    have e2 := (h'.shares f' hf' e).2 ⟨k, hk, h4.symm, h2⟩
    have := h.once f hf f' hf' (by rw [h3, h4]; exact hs) e e1 e2
    subst this
    exact h'.once g hg k hk (h3.symm.trans h4) e h1 h2

theorem splitBy_joins {m r : Mesh} {a : Int → Int} (h : SplitBy m r a) (e v w : Int) : EdgeJoins r e v w ↔ EdgeJoins m e v w := by
  obtain ⟨h1, h2⟩ := forall₂_edge_mem h.edges
  constructor
  · rintro ⟨x, hx, hxi, hxv⟩
    obtain ⟨y, hy, hyi, hyv⟩ := h2 x hx
    exact ⟨y, hy, hyi ▸ hxi, hyv ▸ hxv⟩
  · rintro ⟨x, hx, hxi, hxv⟩
    obtain ⟨y, hy, hyi, hyv⟩ := h1 x hx
    exact ⟨y, hy, hyi.trans hxi, by rw [hyv]; exact hxv⟩

theorem splitBy_two {m r : Mesh} {a : Int → Int} (h : SplitBy m r a) (h2 : TwoVerts m) : TwoVerts r := fun y hy => by
  obtain ⟨x, hx, -, hv⟩ := (forall₂_edge_mem h.edges).2 y hy
  rw [hv]
  exact h2 x hx

theorem splitBy_rings {m r : Mesh} {a : Int → Int} (h : SplitBy m r a) {l : List Int} (hl : Rings m l) : Rings r l := by
  obtain ⟨es, xs, h1, h2, h3, h4⟩ := hl
  have key : ∀ {es : List Int} {xs : List Edge}, List.Forall₂ (fun (e : Int) (x : Edge) => x ∈ m.edges ∧ x.index = e) es xs →
      ∃ ys, List.Forall₂ (fun (e : Int) (x : Edge) => x ∈ r.edges ∧ x.index = e) es ys ∧ ys.flatMap Edge.vertind = xs.flatMap Edge.vertind := by
    intro es xs h3
    induction h3 with
    | nil => exact ⟨[], .nil, rfl⟩
    | cons hd _ ih =>
      obtain ⟨ys, i1, i2⟩ := ih
      obtain ⟨y, hy, hyi, hyv⟩ := (forall₂_edge_mem h.edges).1 _ hd.1
      exact ⟨y :: ys, .cons ⟨hy, hyi.trans hd.2⟩ i1, by simp [i2, hyv]⟩
  obtain ⟨ys, h5, h6⟩ := key h3
  exact ⟨es, ys, h1, h2, h5, by rw [h6]; exact h4⟩

theorem splitBy_loop {m r : Mesh} {a : Int → Int} (h : SplitBy m r a) {f : Surf} : OneLoop r f ↔ OneLoop m f := by
  unfold OneLoop
  have : IsLoop (EdgeJoins r) f.edgeind ↔ IsLoop (EdgeJoins m) f.edgeind :=
    ⟨isLoop_congr fun e _ v w => (splitBy_joins h e v w).1, isLoop_congr fun e _ v w => (splitBy_joins h e v w).2⟩
  rw [this]

/-! ### The edges of one surface -/

theorem edge_choice (m : Mesh) : ∃ pk : Int → Edge, ∀ e, HasEdge m e → pk e ∈ m.edges ∧ (pk e).index = e := by
  have h : ∀ e, ∃ x : Edge, HasEdge m e → x ∈ m.edges ∧ x.index = e := fun e => by
    by_cases h : HasEdge m e
    · obtain ⟨x, hx⟩ := h
      exact ⟨x, fun _ => hx⟩
    · exact ⟨⟨0, [], [], false⟩, fun h' => absurd h' h⟩
  choose pk hpk using h
  exact ⟨pk, hpk⟩

theorem rings_iff {m : Mesh} (hm : Sound m) {pk : Int → Edge} (hpk : ∀ e, HasEdge m e → pk e ∈ m.edges ∧ (pk e).index = e) {l es : List Int}
    (hes : es.Nodup) (hl : ∀ e, e ∈ es ↔ e ∈ l) (hh : ∀ e ∈ l, HasEdge m e) :
    Rings m l ↔ TwoRegular (es.flatMap fun e => (pk e).vertind) := by
  have hxs : ∀ {as : List Int} {xs : List Edge}, List.Forall₂ (fun (e : Int) (x : Edge) => x ∈ m.edges ∧ x.index = e) as xs →
      xs.flatMap Edge.vertind = as.flatMap fun e => (pk e).vertind := by
    intro as xs h
    induction h with
    | nil => rfl
    | @cons e x _ _ hd _ ih =>
      obtain ⟨h1, h2⟩ := hpk e ⟨x, hd⟩
      have : pk e = x := inj_of_nodup hm.unique.edges h1 hd.1 (h2.trans hd.2.symm)
      simp [ih, this]
  constructor
  · rintro ⟨as, xs, h1, h2, h3, h4⟩
    rw [hxs h3] at h4
    have hp : as.Perm es := (List.perm_ext_iff_of_nodup h1 hes).2 fun e => by rw [h2, hl]
    have hq := hp.flatMap_right fun e => (pk e).vertind
    intro v hv
    rw [← hq.count_eq]
    exact h4 v (hq.mem_iff.2 hv)
  · intro h
    refine ⟨es, es.map pk, hes, hl, ?_, by rw [List.flatMap_map]; exact h⟩
    have : ∀ as : List Int, (∀ e ∈ as, HasEdge m e) →
        List.Forall₂ (fun (e : Int) (x : Edge) => x ∈ m.edges ∧ x.index = e) as (as.map pk) := by
      intro as
      induction as with
      | nil => exact fun _ => .nil
      | cons e as ih => exact fun h => .cons (hpk e (h e (by simp))) (ih fun a ha => h a (by simp [ha]))
    exact this es fun e he => hh e ((hl e).1 he)

theorem concat_pick {m : Mesh} (hm : Sound m) {pk : Int → Edge} (hpk : ∀ e, HasEdge m e → pk e ∈ m.edges ∧ (pk e).index = e) (l : List Int)
    (h : ∀ e ∈ l, HasEdge m e) :
    concatField m.edges Edge.vertind (posList Edge.index m.edges l) = .ok (l.flatMap fun e => (pk e).vertind) := by
  have key : ∀ (l acc : List Int), (∀ e ∈ l, HasEdge m e) → List.foldlM (m := Except Fault) (fun acc p => do
      let a ← elemAt m.edges p
      pure (acc ++ Edge.vertind a)) acc (posList Edge.index m.edges l) = .ok (acc ++ l.flatMap fun e => (pk e).vertind) := by
    intro l
    induction l with
    | nil => intro acc _; simp [posList]; rfl
    | cons e l ih =>
      intro acc h
      obtain ⟨x, h1, h3, h4⟩ := elemAt_posOf_ok (ix := Edge.index) (l := m.edges) (k := e) (h e (by simp))
      obtain ⟨h5, h6⟩ := hpk e (h e (by simp))
      have : x = pk e := inj_of_nodup hm.unique.edges h3 h5 (h4.trans h6.symm)
      subst this
      show List.foldlM (m := Except Fault) _ acc (posOf Edge.index m.edges e :: posList Edge.index m.edges l) = _
      rw [List.foldlM_cons, h1]
      have := ih (acc ++ (pk e).vertind) fun a ha => h a (by simp [ha])
      simp only [List.flatMap_cons, ← List.append_assoc]
      exact this
  have := key l [] h
  simpa [concatField] using this

/-- Ordering a surface made of loops: the list of the first loop, and what is left is made of loops. -/
theorem surf_order {tab : List Int → Table} (ht : ∀ l, IsTable l (tab l)) {m : Mesh} (hm : Sound m) (h2 : TwoVerts m) {f : Surf}
    (hf : f ∈ m.surfs) (hr : Rings m f.edgeind) (hne : f.edgeind ≠ []) :
    ∃ r t, surfOrderEdges tab m f = .ok (r, t) ∧ IsLoop (EdgeJoins m) r ∧ r.Nodup ∧ r ≠ [] ∧ (∀ e ∈ r, e ∈ f.edgeind) ∧
      ((t = 0 ∧ ∀ e ∈ f.edgeind, e ∈ r) ∨
       (t = 1 ∧ (∃ e ∈ f.edgeind, e ∉ r) ∧ Rings m ((sortUnique f.edgeind).filter fun e => !r.contains e))) := by
  obtain ⟨pk, hpk⟩ := edge_choice m
  have hh : ∀ e ∈ f.edgeind, HasEdge m e := fun e he => hm.noDangling.surfEdge f.index e ⟨f, hf, rfl, he⟩
  have hh' : ∀ e ∈ sortUnique f.edgeind, HasEdge m e := fun e he => hh e (mem_sortUnique.1 he)
  have hreg := (rings_iff hm hpk (nodup_sortUnique f.edgeind) (fun e => mem_sortUnique) hh).1 hr
  obtain ⟨e2v, h1, h3⟩ := edgesOf_reads hm h2 hf
  have he2 : e2v = (sortUnique f.edgeind).flatMap fun e => (pk e).vertind := by
    have := concat_pick hm hpk _ hh'
    rw [h1] at this
    exact Except.ok.inj this
  rw [surfOrderEdges_eq h1]
  cases hs : sortUnique f.edgeind with
  | nil =>
    obtain ⟨e, he⟩ := List.exists_mem_of_ne_nil _ hne
    have := (mem_sortUnique (l := f.edgeind)).2 he
    rw [hs] at this
    exact absurd this List.not_mem_nil
  | cons e0 es =>
    obtain ⟨r, t, g1, g2, g3, g4, g5, g6⟩ := Props.C23_several_loops e0 es e2v (tab e2v) (hs ▸ nodup_sortUnique f.edgeind)
      (hs ▸ h3.1) (he2 ▸ hreg) (ht e2v) true
    rw [← hs] at g1 g2 g5 g6 ⊢
    have hsub : ∀ e ∈ r, e ∈ f.edgeind := fun e he => mem_sortUnique.1 ((g5 e).1 he).1
    refine ⟨r, t, g1, isLoop_congr (fun e he a b hj => ((edgeJoins_iff hm h3).mp hj).2) g2, g3, ?_, hsub, ?_⟩
    · rintro rfl
      simp at g4
    · rcases g6 with ⟨rfl, g6⟩ | ⟨rfl, e', g6, g7⟩
      · exact Or.inl ⟨rfl, fun e he => g6.mem_iff.2 (mem_sortUnique.2 he)⟩
      · refine Or.inr ⟨rfl, ⟨e', mem_sortUnique.1 g6, g7⟩, ?_⟩
        have hnd := (nodup_sortUnique f.edgeind).filter fun e => !r.contains e
        rw [rings_iff hm hpk hnd (fun e => Iff.rfl) fun e he => hh' e (List.mem_filter.1 he).1]
        have hperm : (sortUnique f.edgeind).Perm (r ++ (sortUnique f.edgeind).filter fun e => !r.contains e) := by
          refine (List.perm_ext_iff_of_nodup (nodup_sortUnique _) ?_).2 fun e => ?_
          · refine List.nodup_append'.2 ⟨g3, hnd, fun e he he' => ?_⟩
            simp only [List.mem_filter, List.contains_eq_mem, Bool.not_eq_true', decide_eq_false_iff_not] at he'
            exact he'.2 he
          · simp only [List.mem_append, List.mem_filter, List.contains_eq_mem, Bool.not_eq_true', decide_eq_false_iff_not]
            constructor
            · intro he
              by_cases h : e ∈ r
              · exact Or.inl h
              · exact Or.inr ⟨he, h⟩
            · rintro (h | h)
              · exact mem_sortUnique.2 (hsub e h)
              · exact h.1
        intro v hv
        obtain ⟨e, he, hve⟩ := List.mem_flatMap.1 hv
        simp only [List.mem_filter, List.contains_eq_mem, Bool.not_eq_true', decide_eq_false_iff_not] at he
        have hzero : v ∉ r.flatMap fun e => (pk e).vertind := by
          intro hv'
          obtain ⟨e1, he1, hve1⟩ := List.mem_flatMap.1 hv'
          have hjo : ∀ e ∈ sortUnique f.edgeind, v ∈ (pk e).vertind → ∃ a, Joins (sortUnique f.edgeind) e2v e v a := by
            intro e he hve
            obtain ⟨k1, k2⟩ := hpk e (hh' e he)
            have hl := h2 _ k1
            match hpv : (pk e).vertind, hl with
            | [a, b], _ =>
              rw [hpv] at hve
              simp only [List.mem_cons, List.not_mem_nil, or_false] at hve
              rcases hve with rfl | rfl
              · exact ⟨b, (edgeJoins_iff hm h3).2 ⟨he, pk e, k1, k2, Or.inl hpv⟩⟩
              · exact ⟨a, (edgeJoins_iff hm h3).2 ⟨he, pk e, k1, k2, Or.inr hpv⟩⟩
          obtain ⟨a, ha⟩ := hjo e1 (mem_sortUnique.2 (hsub e1 he1)) hve1
          obtain ⟨b, hb⟩ := hjo e he.1 hve
          exact he.2 ((g5 e).2 ⟨he.1, (((g5 e1).1 he1).2).tail ⟨v, a, b, ha, hb⟩⟩)
        have hq := hperm.flatMap_right fun e => (pk e).vertind
        have hc := hreg v (hq.mem_iff.2 (by rw [List.flatMap_append, List.mem_append]; exact Or.inr hv))
        rw [hq.count_eq, List.flatMap_append, List.count_append, List.count_eq_zero.2 hzero, Nat.zero_add] at hc
        exact hc

end RSVS.SplitSurf
