import Verif.Lemmas.SplitSurfOrder

/-!
# Ordering surfaces of two loops, with a vector which grows
-/

namespace RSVS.SplitSurf

open RSVS RSVS.Mesh RSVS.Spec RSVS.Order

theorem width_congr {f g : Surf} (h : ∀ e, e ∈ f.edgeind ↔ e ∈ g.edgeind) : width f = width g := by
  unfold width
  exact ((List.perm_ext_iff_of_nodup (nodup_sortUnique _) (nodup_sortUnique _)).2 fun e => by
    rw [mem_sortUnique, mem_sortUnique, h]).length_eq

theorem load_congr {l l' : List Surf} (h : List.Forall₂ (fun a b => Kept a b ∧ b.isordered = a.isordered) l l') : load l' = load l := by
  induction h with
  | nil => rfl
  | @cons a b _ _ hd _ ih =>
    obtain ⟨⟨x, o, rfl, hx⟩, ho⟩ := hd
    have hw : width { a with edgeind := x, isordered := o } = width a := width_congr hx
    unfold load at ih ⊢
    simp only [List.map_cons, List.sum_cons, hw]
    simp only at ho
    rw [ih, ho]

/-- The state of the passes for surfaces of at most two loops. -/
structure Pair2 (m0 m : Mesh) (src : Int → Int) (pairs : List (Int × Int)) : Prop where
  ready : Ready m
  two : ∀ f ∈ m.surfs, f.isordered = false → AtMost m f.edgeind 2
  split : SplitBy m0 m src
  pairs : PairsOk m0 m src pairs
  old : ∀ f ∈ m.surfs, f.isordered = false → HasSurf m0 f.index

theorem done_at {m : Mesh} {i : Nat} {f : Surf} {o : List Int} (hm : Sound m) (hfi : m.surfs[i]? = some f)
    (ho : OneLoop m { f with edgeind := o, isordered := true }) (hoe : ∀ e, e ∈ o ↔ e ∈ f.edgeind) :
    Done m { m with surfs := m.surfs.modify i fun f => { f with edgeind := o, isordered := true } } i (-1) id
      { f with edgeind := o, isordered := true } [] := by
  obtain ⟨hi, hfe⟩ := List.getElem?_eq_some_iff.1 hfi
  obtain ⟨r1, r2⟩ := retouch hm (forall₂_modify kept_refl (fun f => { f with edgeind := o, isordered := true }) m.surfs i fun a ha =>
    ⟨o, true, rfl, fun e => by rw [hfi] at ha; rw [← Option.some.inj ha]; exact hoe e⟩) (forall₂_surfind_refl keptV_refl m.volus)
  refine ⟨r1, r2, ?_, by simp, ?_, Or.inl rfl⟩
  · simp [modify_eq_set hi, hfe]
  · simp only [List.mem_cons, List.not_mem_nil, or_false, forall_eq]
    exact ⟨trivial, ho⟩

/-- One surface: it is put in order, or the vector grows. -/
theorem step2 {tab : List Int → Table} (ht : ∀ l, IsTable l (tab l)) {m0 m : Mesh} {src : Int → Int} {pairs : List (Int × Int)} {cap i : Nat} {f : Surf}
    (hm : Pair2 m0 m src pairs) (hc : m.surfs.length ≤ cap) (hc2 : 2 ≤ cap) (hfi : m.surfs[i]? = some f) (hff : f.isordered = false) :
    ∃ r cap' k src', orderAt tab (f.edgeind.length + 1) m cap i = .ok (r, cap', k) ∧
      Pair2 m0 r src' (if -1 < k then pairs ++ [(f.index, k)] else pairs) ∧ r.surfs.length ≤ cap' ∧ m.surfs.length ≤ r.surfs.length ∧
      load r.surfs ≤ load m.surfs ∧ ((cap < cap' ∧ cap < load m.surfs) ∨ (cap' = cap ∧ ∀ j g, r.surfs[j]? = some g → j ≤ i →
        (∀ j' g', j' < i → m.surfs[j']? = some g' → g'.isordered = true) → g.isordered = true)) := by
  obtain ⟨hi, hfe⟩ := List.getElem?_eq_some_iff.1 hfi
  have hf : f ∈ m.surfs := List.mem_of_getElem? hfi
  have hmr := hm.ready
  have fin : ∀ r k src1 g new, orderAt tab (f.edgeind.length + 1) m cap i = .ok (r, cap, k) → Done m r i k src1 g new →
      r.surfs.length ≤ cap → ∃ r cap' k src', orderAt tab (f.edgeind.length + 1) m cap i = .ok (r, cap', k) ∧
      Pair2 m0 r src' (if -1 < k then pairs ++ [(f.index, k)] else pairs) ∧ r.surfs.length ≤ cap' ∧ m.surfs.length ≤ r.surfs.length ∧
      load r.surfs ≤ load m.surfs ∧ ((cap < cap' ∧ cap < load m.surfs) ∨ (cap' = cap ∧ ∀ j g, r.surfs[j]? = some g → j ≤ i →
        (∀ j' g', j' < i → m.surfs[j']? = some g' → g'.isordered = true) → g.isordered = true)) := by
    intro r k src1 g new h1 h2 hlen
    have hgo : g.isordered = true := (h2.loops g (by simp)).1
    have hcases : ∀ a ∈ r.surfs, a.isordered = false → a ∈ m.surfs := by
      intro a ha hao
      rw [h2.surfs] at ha
      rcases List.mem_append.1 ha with ha | ha
      · rcases List.mem_or_eq_of_mem_set ha with ha | rfl
        · exact ha
        · rw [hgo] at hao
          cases hao
      · rw [(h2.loops a (by simp [ha])).1] at hao
        cases hao
    refine ⟨r, cap, k, src ∘ src1, h1, ⟨ready_done hmr h2, fun a ha hao => ?_, splitBy_trans hm.split h2.split, ?_,
      fun a ha hao => hm.old a (hcases a ha hao) hao⟩, hlen, ?_, load_done hfi hff h2, Or.inr ⟨rfl, ?_⟩⟩
    · exact atMost_congr h2.split (fun _ => Iff.rfl) (hm.two a (hcases a ha hao) hao)
    · have hold : PairsOk m0 r (src ∘ src1) pairs := fun p hpp => by
        obtain ⟨q1, q2, q3⟩ := hm.pairs p hpp
        refine ⟨?_, (h2.split.keeps _ q2).1, q3⟩
        simp only [Function.comp]
        rw [(h2.split.keeps _ q2).2, q1]
      split
      · rename_i hk
        intro p hpp
        rcases List.mem_append.1 hpp with hpp | hpp
        · exact hold p hpp
        · simp only [List.mem_cons, List.not_mem_nil, or_false] at hpp
          subst hpp
          rcases h2.pair with h3 | ⟨h3, h4, h5⟩
          · omega
          · refine ⟨?_, h4, fun h => h5 (hm.split.keeps _ h).1⟩
            simp only [Function.comp]
            rw [h3 f hfi]
            exact (hm.split.keeps _ (hm.old f hf hff)).2
      · exact hold
    · rw [h2.surfs]
      simp
    · intro j a ha hj ho
      rw [h2.surfs, List.getElem?_append_left (by simp; omega), List.getElem?_set] at ha
      split at ha
      · simp only [Option.some.injEq] at ha
        exact ha ▸ hgo
      · exact ho j a (by omega) ha
  by_cases hroom : m.surfs.length < cap
  · obtain ⟨r, k, src1, g, new, h1, h2, h3⟩ := order_at ht cap (f.edgeind.length + 1) m i 2 f hmr.sound hmr.two hfi (hmr.rings f hf hff)
      (by have := width_le f; omega) (hm.two f hf hff) (by omega) fun hd => hmr.volus hd f hf hff
    exact fin r k src1 g new h1 h2 (h3 hc)
  have hceq : cap = m.surfs.length := by omega
  have helem : elemAt m.surfs (i : Int) = .ok f := by
    unfold elemAt
    simp [hfi]
  by_cases hne : f.edgeind = []
  · refine fin _ _ _ _ _ ?_ (done_at hmr.sound hfi (o := []) (Or.inl rfl) (by simp [hne])) (by simp; omega)
    unfold orderAt
    rw [helem]
    simp only [Except.bind]
    rw [if_pos hne, modify_eq_set hi, modify_eq_set hi, hfe, hne]
  obtain ⟨o, t, h3, h4, h5, h6, h7, h8⟩ := surf_order ht hmr.sound hmr.two hf (hmr.rings f hf hff) hne
  rcases h8 with ⟨rfl, h8⟩ | ⟨rfl, -, -⟩
  · refine fin _ _ _ _ _ ?_ (done_at hmr.sound hfi (o := o) (Or.inr ⟨h4, h5⟩) fun e => ⟨h7 e, h8 e⟩) (by simp; omega)
    unfold orderAt
    rw [helem]
    simp only [Except.bind]
    rw [if_neg hne, h3]
    simp only
    rw [if_pos (by decide)]
  · have hkept : List.Forall₂ (fun a b => Kept a b ∧ b.isordered = a.isordered) m.surfs
        (m.surfs.modify i fun f => { f with edgeind := sortUnique f.edgeind, isordered := false }) :=
      forall₂_modify (fun a => ⟨kept_refl a, rfl⟩) (fun f => { f with edgeind := sortUnique f.edgeind, isordered := false }) m.surfs i fun a ha => by
        rw [hfi] at ha
        rw [← Option.some.inj ha]
        exact ⟨⟨_, _, rfl, fun e => mem_sortUnique⟩, hff.symm⟩
    obtain ⟨r1, r2⟩ := retouch hmr.sound (hkept.imp fun _ _ h => h.1) (forall₂_surfind_refl keptV_refl m.volus)
    have hback : ∀ b ∈ m.surfs.modify i (fun f => { f with edgeind := sortUnique f.edgeind, isordered := false }),
        b ∈ m.surfs ∨ (b.isordered = false ∧ b = { f with edgeind := sortUnique f.edgeind, isordered := false }) := by
      intro b hb
      rw [modify_eq_set hi, hfe] at hb
      rcases List.mem_or_eq_of_mem_set hb with h | rfl
      · exact Or.inl h
      · exact Or.inr ⟨rfl, rfl⟩
    have hsm : ∀ e, e ∈ f.edgeind ↔ e ∈ sortUnique f.edgeind := fun e => mem_sortUnique.symm
    refine ⟨{ m with surfs := m.surfs.modify i fun f => { f with edgeind := sortUnique f.edgeind, isordered := false } }, cap + cap / 2, -1,
      src ∘ id, ?_, ⟨⟨r1, splitBy_two r2 hmr.two, ?_, ?_, ?_⟩, ?_, splitBy_trans hm.split r2, ?_, ?_⟩, by simp; omega, by simp,
      (load_congr hkept).le, Or.inl ⟨by omega, ?_⟩⟩
    · unfold orderAt
      rw [helem]
      simp only [Except.bind]
      rw [if_neg hne, h3]
      simp only
      rw [if_neg (by decide), if_pos hceq]
    · intro b hb hbo
      rcases hback b hb with h | ⟨-, rfl⟩
      · exact splitBy_rings r2 (hmr.rings b h hbo)
      · exact splitBy_rings r2 (rings_congr hsm (hmr.rings f hf hff))
    · intro b hb hbo
      rcases hback b hb with h | ⟨h, -⟩
      · exact (splitBy_loop r2).2 (hmr.loops b h hbo)
      · rw [hbo] at h
        cases h
    · intro hd b hb hbo
      rcases hback b hb with h | ⟨-, rfl⟩
      · exact hmr.volus hd b h hbo
      · exact hmr.volus hd f hf hff
    · intro b hb hbo
      rcases hback b hb with h | ⟨-, rfl⟩
      · exact atMost_congr r2 (fun _ => Iff.rfl) (hm.two b h hbo)
      · exact atMost_congr r2 hsm (hm.two f hf hff)
    · rw [if_neg (by decide)]
      intro p hp
      obtain ⟨q1, q2, q3⟩ := hm.pairs p hp
      exact ⟨q1, (r2.keeps _ q2).1, q3⟩
    · intro b hb hbo
      rcases hback b hb with h | ⟨-, rfl⟩
      · exact hm.old b h hbo
      · exact hm.old f hf hff
    · have hw : 0 < width f := by
        obtain ⟨e, he⟩ := List.exists_mem_of_ne_nil _ hne
        exact List.length_pos_of_mem (mem_sortUnique.2 he)
      have := length_width_le hfi hff
      omega

theorem pass2 {tab : List Int → Table} (ht : ∀ l, IsTable l (tab l)) (m0 : Mesh) : ∀ (n i : Nat) (m : Mesh) (cap : Nat) (src : Int → Int)
    (pairs : List (Int × Int)), Pair2 m0 m src pairs → m.surfs.length ≤ cap → 2 ≤ cap → i ≤ m.surfs.length → load m.surfs < n + i →
    ∃ r cap' src' pairs', orderPass tab n i (m, cap, pairs) = .ok (r, cap', pairs') ∧ Pair2 m0 r src' pairs' ∧ r.surfs.length ≤ cap' ∧
      load r.surfs ≤ load m.surfs ∧ ((cap < cap' ∧ cap < load m.surfs) ∨
        (cap' = cap ∧ ((∀ j f, j < i → m.surfs[j]? = some f → f.isordered = true) → ∀ f ∈ r.surfs, f.isordered = true))) := by
  intro n
  induction n with
  | zero =>
    intro i m cap src pairs _ _ _ h1 h2
    have := length_le_load m.surfs
    omega
  | succ n ih =>
    intro i m cap src pairs hm hc hc2 hi hn
    unfold orderPass
    simp only
    rcases hfi : m.surfs[i]? with _ | f
    · refine ⟨m, cap, src, pairs, rfl, hm, hc, le_rfl, Or.inr ⟨rfl, fun ho f hf => ?_⟩⟩
      obtain ⟨j, hj⟩ := List.getElem?_of_mem hf
      have h1 := List.getElem?_eq_none_iff.1 hfi
      have h2 := (List.getElem?_eq_some_iff.1 hj).1
      exact ho j f (by omega) hj
    have hlt := (List.getElem?_eq_some_iff.1 hfi).1
    simp only
    by_cases hfo : f.isordered = true
    · rw [if_pos hfo]
      obtain ⟨r, cap', src', pairs', h1, h2, h3, h4, h5⟩ := ih (i + 1) m cap src pairs hm hc hc2 (by omega) (by omega)
      refine ⟨r, cap', src', pairs', h1, h2, h3, h4, h5.imp id fun h => ⟨h.1, fun ho => h.2 fun j a hj ha => ?_⟩⟩
      rcases Nat.lt_succ_iff_lt_or_eq.1 hj with hj | rfl
      · exact ho j a hj ha
      · rw [hfi] at ha
        rw [← Option.some.inj ha]
        exact hfo
    · have hff : f.isordered = false := by simpa using hfo
      rw [if_neg hfo]
      obtain ⟨r1, cap1, k, src1, g1, g2, g3, g4, g5, g6⟩ := step2 ht hm hc hc2 hfi hff
      rw [g1]
      have hcc : cap ≤ cap1 := by rcases g6 with ⟨h, -⟩ | ⟨h, -⟩ <;> omega
      obtain ⟨r, cap', src', pairs', h1, h2, h3, h4, h5⟩ := ih (i + 1) r1 cap1 src1 _ g2 g3 (by omega) (by omega) (by omega)
      refine ⟨r, cap', src', pairs', h1, h2, h3, by omega, ?_⟩
      rcases g6 with ⟨g6, g7⟩ | ⟨rfl, g6⟩
      · refine Or.inl ⟨?_, g7⟩
        rcases h5 with ⟨h, -⟩ | ⟨h, -⟩ <;> omega
      · rcases h5 with ⟨h, h'⟩ | ⟨h, h'⟩
        · exact Or.inl ⟨h, by omega⟩
        · exact Or.inr ⟨h, fun ho => h' fun j a hj ha => g6 j a ha (by omega) ho⟩

theorem passes2 {tab : List Int → Table} (ht : ∀ l, IsTable l (tab l)) (m0 : Mesh) : ∀ (n : Nat) (m : Mesh) (cap : Nat) (src : Int → Int)
    (pairs : List (Int × Int)), Pair2 m0 m src pairs → m.surfs.length ≤ cap → 2 ≤ cap → load m.surfs < n + cap → 0 < n →
    ∃ r cap' src' pairs', orderPasses tab n (m, cap, pairs) = .ok (r, cap', pairs') ∧ Pair2 m0 r src' pairs' ∧
      ∀ f ∈ r.surfs, f.isordered = true := by
  intro n
  induction n with
  | zero => intro m cap src pairs _ _ _ _ h; omega
  | succ n ih =>
    intro m cap src pairs hm hc hc2 hn _
    obtain ⟨r, cap', src', pairs', h1, h2, h3, h4, h5⟩ := pass2 ht m0 (passBound m) 0 m cap src pairs hm hc hc2 (by omega)
      (by simpa using load_le m)
    unfold orderPasses
    rw [h1]
    simp only [Except.bind]
    rcases h5 with ⟨h5, h6⟩ | ⟨rfl, h5⟩
    · rw [if_pos (by omega)]
      exact ih r cap' src' pairs' h2 h3 (by omega) (by omega) (by omega)
    · rw [if_neg (by simp)]
      exact ⟨r, _, src', pairs', rfl, h2, h5 (by omega)⟩

theorem order_two {tab : List Int → Table} (ht : ∀ l, IsTable l (tab l)) {m : Mesh} (hm : Ready m)
    (h2 : ∀ f ∈ m.surfs, f.isordered = false → AtMost m f.edgeind 2) {cap : Nat} (hc : m.surfs.length ≤ cap) (hc2 : 2 ≤ cap) :
    ∃ r cap' src pairs, orderEdges tab m cap = .ok (r, cap', pairs) ∧ Sound r ∧ SplitBy m r src ∧ PairsOk m r src pairs ∧
      ∀ f ∈ r.surfs, f.isordered = true ∧ OneLoop m f := by
  unfold orderEdges
  by_cases h0 : m.surfs = []
  · rw [if_pos h0]
    exact ⟨m, cap, id, [], rfl, hm.sound, splitBy_refl hm.sound, by simp [PairsOk], by simp [h0]⟩
  rw [if_neg h0]
  obtain ⟨r, cap', src, pairs, h1, h3, h4⟩ := passes2 ht m (2 * passBound m) m cap id []
    ⟨hm, h2, splitBy_refl hm.sound, by simp [PairsOk], fun f hf _ => ⟨f, hf, rfl⟩⟩ hc hc2 (by have := load_le m; omega)
    (by have := load_le m; omega)
  rw [h1]
  simp only [Except.bind]
  rw [if_pos (by simpa using h4)]
  exact ⟨r, cap', src, pairs, rfl, h3.ready.sound, h3.split, h3.pairs, fun f hf =>
    ⟨h4 f hf, (splitBy_loop h3.split).1 (h3.ready.loops f hf (h4 f hf))⟩⟩

end RSVS.SplitSurf
