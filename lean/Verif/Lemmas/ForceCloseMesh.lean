import Verif.Lemmas.ForceClose

/-!
# The new containers of a mesh are sound
-/

namespace RSVS.ForceClose

open RSVS RSVS.Mesh RSVS.Spec

theorem forall₂_map_right {α β : Type} {R : α → β → Prop} {f : α → β} : ∀ {l : List α}, (∀ a ∈ l, R a (f a)) → List.Forall₂ R l (l.map f)
  | [], _ => List.Forall₂.nil
  | a :: l, h => List.Forall₂.cons (h a (by simp)) (forall₂_map_right fun b hb => h b (by simp [hb]))

theorem inv_start {α β : Type} {ixA : α → Int} {ixB : β → Int} {setA : Int → α → α} {listB : β → List Int} {Q : β → Prop} {as : List α}
    {bs : List β} {lab : Int → Int} (h : ∀ b ∈ bs, listB b = []) (hq : ∀ b ∈ bs, Q b) : Inv ixA ixB setA listB Q as (bs.map ixB) lab [] (as, bs) :=
  ⟨by simp, rfl, fun b hb s => by simp [h b hb], hq⟩

theorem hasVert_of_edge {m : Mesh} (hm : Sound m) {e v : Int} (h : EdgeVert m e v) : HasVert m v :=
  hm.noDangling.edgeVert e v h fun h0 => hm.zeroOutside.edgeVert e (h0 ▸ h)

theorem hasEdge_of_vert {m : Mesh} (hm : Sound m) {e v : Int} (h : VertEdge m v e) : HasEdge m e :=
  hm.noDangling.vertEdge v e h fun h0 => hm.zeroOutside.vertEdge v (h0 ▸ h)

theorem edgeVert_of_vert {m : Mesh} (hm : Sound m) {e v : Int} (h : VertEdge m v e) : EdgeVert m e v := by
  obtain ⟨x, hx, hxi, _⟩ := id h
  exact (hm.sym.vertEdge v e ⟨x, hx, hxi⟩ (hasEdge_of_vert hm h)).1 h

theorem vertEdge_of_edge {m : Mesh} (hm : Sound m) {e v : Int} (h : EdgeVert m e v) : VertEdge m v e := by
  obtain ⟨x, hx, hxi, _⟩ := id h
  exact (hm.sym.vertEdge v e (hasVert_of_edge hm h) ⟨x, hx, hxi⟩).2 h

/-! ### Three dimensions -/

/-- The pairs of one edge. -/
def pairsOf (m : Mesh) (c e : Int) : List (Int × Int) :=
  match m.edges.find? (fun x => x.index == e) with
  | some x => x.surfind.map fun s => (c, s)
  | none => []

theorem mem_pairsOf {m : Mesh} (hm : Sound m) {c e : Int} (q : Int × Int) : q ∈ pairsOf m c e ↔ q.1 = c ∧ EdgeSurf m e q.2 := by
  unfold pairsOf
  cases h : m.edges.find? (fun x => x.index == e) with
  | none =>
    simp only [List.not_mem_nil, false_iff, not_and]
    rintro - ⟨x, hx, hxi, _⟩
    rw [List.find?_eq_none] at h
    exact h x hx (by simp [hxi])
  | some x =>
    have h1 : x.index = e := by simpa using List.find?_some h
    have h2 := List.mem_of_find?_eq_some h
    simp only [List.mem_map]
    constructor
    · rintro ⟨s, hs, rfl⟩
      exact ⟨rfl, x, h2, h1, hs⟩
    · rintro ⟨hq, y, hy, hyi, hs⟩
      have := inj_of_nodup hm.unique.edges hy h2 (hyi.trans h1.symm)
      subst this
      exact ⟨q.2, hs, by rw [← hq]⟩

theorem closeEdge_ok {m : Mesh} (hm : Sound m) (h2 : TwoVerts m) {labels : List Int} (hlen : labels.length = m.verts.length)
    {idx : List Int} (hB : idx.Nodup) {lab : Int → Int} {c e : Int} (hc : c ∈ idx) (he : HasEdge m e)
    (hs : ∀ s, EdgeSurf m e s → HasSurf m s ∧ c = lab s) {P : List (Int × Int)} {st : List Surf × List Volu}
    (hi : Inv Surf.index Volu.index setVolu Volu.surfind (fun _ => True) m.surfs idx lab P st) :
    ∃ st', closeEdge m labels c st e = .ok st' ∧
      Inv Surf.index Volu.index setVolu Volu.surfind (fun _ => True) m.surfs idx lab (P ++ pairsOf m c e) st' := by
  obtain ⟨x, hx, hxi⟩ := he
  obtain ⟨a, b, hab, ha, hb⟩ := edge_ends hm h2 hx
  obtain ⟨la, hla⟩ := label_get hlen ha
  obtain ⟨lb, hlb⟩ := label_get hlen hb
  have hfind : m.edges.find? (fun x => x.index == e) = some x := by
    cases h : m.edges.find? (fun x => x.index == e) with
    | none =>
      rw [List.find?_eq_none] at h
      exact absurd (by simp [hxi]) (h x hx)
    | some y =>
      have h1 : y.index = e := by simpa using List.find?_some h
      rw [inj_of_nodup hm.unique.edges (List.mem_of_find?_eq_some h) hx (h1.trans hxi.symm)]
  have hget : elemAt m.edges (posOf Edge.index m.edges e) = .ok x := by
    obtain ⟨y, h1, h3, h4⟩ := elemAt_posOf_ok (ix := Edge.index) (l := m.edges) (k := e) ⟨x, hx, hxi⟩
    rw [h1, inj_of_nodup hm.unique.edges h3 hx (h4.trans hxi.symm)]
  obtain ⟨st', e1, i1⟩ := fold_ok good_volu hm.unique.surfs hB hc x.surfind hi fun s hs' => by
    obtain ⟨h3, h4⟩ := hs s ⟨x, hx, hxi, hs'⟩
    exact ⟨List.mem_map.2 h3, h4⟩
  refine ⟨st', ?_, ?_⟩
  · unfold closeEdge
    rw [hget]
    simp only [Except.bind]
    rw [hab]
    simp only [vecGet] at hla hlb ⊢
    simpa [vecGet, hla, hlb, Except.bind] using e1
  · unfold pairsOf
    rw [hfind]
    exact i1

/-- The volume of each surface. -/
theorem surf_labels {m : Mesh} (hm : Sound m) {P : Int → Prop} {lab : Int → Int} (hp : Parts m P lab) (hj : SurfJoined m) :
    ∃ slab : Int → Int, ∀ s e v, SurfEdge m s e → EdgeVert m e v → slab s = lab v := by
  have h : ∀ s, ∃ c, ∀ e v, SurfEdge m s e → EdgeVert m e v → c = lab v := fun s => by
    by_cases h : ∃ e v, SurfEdge m s e ∧ EdgeVert m e v
    · obtain ⟨e, v, h1, h2⟩ := h
      exact ⟨lab v, fun e' v' h3 h4 => (hp.same v v' (hasVert_of_edge hm h2) (hasVert_of_edge hm h4)).2 (hj s e e' v v' h1 h3 h2 h4)⟩
    · exact ⟨0, fun e v h1 h2 => absurd ⟨e, v, h1, h2⟩ h⟩
  choose slab hs using h
  exact ⟨slab, hs⟩

theorem volumes_run {m : Mesh} (hm : Sound m) (h2 : TwoVerts m) (hv : m.volus ≠ []) (h0 : ∀ e, ¬ EdgeSurf m e 0) (hj : SurfJoined m)
    (hb : ∀ f ∈ m.surfs, f.edgeind ≠ []) :
    ∃ (lab slab : Int → Int) (volus : List Volu), m.forceClose = .ok { m with surfs := m.surfs.map fun f => setVolu (slab f.index) f, volus := volus } ∧
      (∀ s e v, SurfEdge m s e → EdgeVert m e v → slab s = lab v) ∧ (volus.map Volu.index).Nodup ∧
      Parts m (fun c => c ∈ volus.map Volu.index) lab ∧ (∀ c ∈ volus.map Volu.index, 1 ≤ c) ∧
      ∀ b ∈ volus, ∀ s, s ∈ b.surfind ↔ HasSurf m s ∧ b.index = slab s := by
  obtain ⟨labels, n, lab, hrun, hlen, hlab, hparts⟩ := labels_fun hm h2
  obtain ⟨slab, hslab⟩ := surf_labels hm hparts hj
  obtain ⟨hnd, hmem⟩ := newInds n
  have hidx : (newVolus n).map Volu.index = (List.range n.toNat).map fun i : Nat => (i : Int) + 1 := by
    unfold newVolus
    rw [List.map_map]
    rfl
  have hes : ∀ e s, EdgeSurf m e s → HasSurf m s ∧ SurfEdge m s e := fun e s h => by
    have hs := hm.noDangling.edgeSurf e s h fun hz => h0 e (hz ▸ h)
    obtain ⟨x, hx, hxi, _⟩ := id h
    exact ⟨hs, (hm.sym.edgeSurf e s ⟨x, hx, hxi⟩ hs).1 h⟩
  have hinit : Inv Surf.index Volu.index setVolu Volu.surfind (fun _ => True) m.surfs ((newVolus n).map Volu.index) slab [] (m.surfs, newVolus n) :=
    inv_start (fun b hb => by
      unfold newVolus at hb
      rw [List.mem_map] at hb
      obtain ⟨i, -, rfl⟩ := hb
      rfl) fun _ _ => trivial
  obtain ⟨st, e1, i1⟩ := loop_ok (f := fun st (p : Vert × Int) => p.1.edgeind.foldlM (m := Except Fault) (closeEdge m labels p.2) st)
    (g := fun p => p.1.edgeind.flatMap (pairsOf m p.2)) (List.zip m.verts labels) (fun p hp P st hi => by
      have hpv : p.1 ∈ m.verts := (List.of_mem_zip hp).1
      refine loop_ok p.1.edgeind (fun e he P st hi => ?_) hi
      have hve : VertEdge m p.1.index e := ⟨p.1, hpv, rfl, he⟩
      refine closeEdge_ok hm h2 hlen (by rw [hidx]; exact hnd) ?_ (hasEdge_of_vert hm hve) (fun s hs => ⟨(hes e s hs).1, ?_⟩) hi
      · rw [hidx, hmem, hlab p hp]
        exact hparts.into _ ⟨p.1, hpv, rfl⟩
      · rw [hlab p hp]
        exact (hslab s e _ (hes e s hs).2 (edgeVert_of_vert hm hve)).symm) hinit
  have hP : ∀ q : Int × Int, q ∈ [] ++ (List.zip m.verts labels).flatMap (fun p => p.1.edgeind.flatMap (pairsOf m p.2)) ↔
      HasSurf m q.2 ∧ q.1 = slab q.2 := fun q => by
    rw [List.nil_append, List.mem_flatMap]
    constructor
    · rintro ⟨p, hp, hq⟩
      obtain ⟨e, he, hq⟩ := List.mem_flatMap.1 hq
      rw [mem_pairsOf hm] at hq
      have hve : VertEdge m p.1.index e := ⟨p.1, (List.of_mem_zip hp).1, rfl, he⟩
      obtain ⟨h3, h4⟩ := hes e q.2 hq.2
      exact ⟨h3, by rw [hq.1, hlab p hp, hslab q.2 e _ h4 (edgeVert_of_vert hm hve)]⟩
    · rintro ⟨⟨f, hf, hfi⟩, hq⟩
      obtain ⟨e, he⟩ := List.exists_mem_of_ne_nil _ (hb f hf)
      have hse : SurfEdge m q.2 e := ⟨f, hf, hfi, he⟩
      obtain ⟨x, hx, hxi⟩ := hm.noDangling.surfEdge _ _ hse
      obtain ⟨a, b, hab, ha, -⟩ := edge_ends hm h2 hx
      have hev : EdgeVert m e a := ⟨x, hx, hxi, by simp [hab]⟩
      obtain ⟨v, hv, hvi, hve⟩ := vertEdge_of_edge hm hev
      obtain ⟨c, hc⟩ := zip_mem hlen hv
      refine ⟨(v, c), hc, List.mem_flatMap.2 ⟨e, hve, ?_⟩⟩
      rw [mem_pairsOf hm]
      refine ⟨?_, (hm.sym.edgeSurf e q.2 ⟨x, hx, hxi⟩ ⟨f, hf, hfi⟩).2 hse⟩
      rw [hq, hslab q.2 e a hse hev, hlab _ hc, hvi]
  refine ⟨lab, slab, st.2, ?_, hslab, ?_, ?_, ?_, ?_⟩
  · unfold forceClose
    rw [hrun]
    simp only [Except.bind]
    rw [if_pos (List.length_pos_of_ne_nil hv)]
    rw [e1]
    simp only [Except.map]
    rw [i1.elems]
    congr 2
    refine List.map_congr_left fun f hf => ?_
    rw [if_pos]
    exact List.mem_map.2 ⟨(slab f.index, f.index), (hP _).2 ⟨⟨f, hf, rfl⟩, rfl⟩, rfl⟩
  · rw [i1.inds, hidx]
    exact hnd
  · rw [i1.inds, hidx]
    exact ⟨fun v hv => (hmem _).2 (hparts.into v hv), fun c hc => hparts.onto c ((hmem c).1 hc), hparts.same⟩
  · rw [i1.inds, hidx]
    exact fun c hc => ((hmem c).1 hc).1
  · intro b hb s
    rw [i1.lists b hb s, hP]

/-- The new volumes make a sound mesh. -/
theorem volumes_sound {m : Mesh} (hm : Sound m) (h2 : TwoVerts m) (hb : ∀ f ∈ m.surfs, f.edgeind ≠ [])
    {lab slab : Int → Int} {volus : List Volu} (hslab : ∀ s e v, SurfEdge m s e → EdgeVert m e v → slab s = lab v)
    (hnd : (volus.map Volu.index).Nodup) (hp : Parts m (fun c => c ∈ volus.map Volu.index) lab) (hpos : ∀ c ∈ volus.map Volu.index, 1 ≤ c)
    (hl : ∀ b ∈ volus, ∀ s, s ∈ b.surfind ↔ HasSurf m s ∧ b.index = slab s) :
    Sound { m with surfs := m.surfs.map fun f => setVolu (slab f.index) f, volus := volus } := by
  have hsurf : ∀ s, HasSurf { m with surfs := m.surfs.map fun f => setVolu (slab f.index) f, volus := volus } s ↔ HasSurf m s := by
    intro s
    constructor
    · rintro ⟨x, hx, hxi⟩
      obtain ⟨f, hf, rfl⟩ := List.mem_map.1 hx
      exact ⟨f, hf, hxi⟩
    · rintro ⟨f, hf, hfi⟩
      exact ⟨_, List.mem_map.2 ⟨f, hf, rfl⟩, hfi⟩
  have hse : ∀ s e, SurfEdge { m with surfs := m.surfs.map fun f => setVolu (slab f.index) f, volus := volus } s e ↔ SurfEdge m s e := by
    intro s e
    constructor
    · rintro ⟨x, hx, hxi, he⟩
      obtain ⟨f, hf, rfl⟩ := List.mem_map.1 hx
      exact ⟨f, hf, hxi, he⟩
    · rintro ⟨f, hf, hfi, he⟩
      exact ⟨_, List.mem_map.2 ⟨f, hf, rfl⟩, hfi, he⟩
  have hsv : ∀ s c, SurfVolu { m with surfs := m.surfs.map fun f => setVolu (slab f.index) f, volus := volus } s c ↔
      HasSurf m s ∧ (c = slab s ∨ c = 0) := by
    intro s c
    constructor
    · rintro ⟨x, hx, hxi, hc⟩
      obtain ⟨f, hf, rfl⟩ := List.mem_map.1 hx
      have hxi' : f.index = s := hxi
      have hc' : c ∈ [slab f.index, 0] := hc
      rw [hxi'] at hc'
      exact ⟨⟨f, hf, hxi⟩, by simpa using hc'⟩
    · rintro ⟨⟨f, hf, hfi⟩, hc⟩
      refine ⟨_, List.mem_map.2 ⟨f, hf, rfl⟩, hfi, ?_⟩
      show c ∈ [slab f.index, 0]
      rw [hfi]
      simpa using hc
  have hvs : ∀ c s, VoluSurf { m with surfs := m.surfs.map fun f => setVolu (slab f.index) f, volus := volus } c s ↔
      c ∈ volus.map Volu.index ∧ HasSurf m s ∧ c = slab s := by
    intro c s
    constructor
    · rintro ⟨b, hb, rfl, hs⟩
      exact ⟨List.mem_map.2 ⟨b, hb, rfl⟩, (hl b hb s).1 hs⟩
    · rintro ⟨h1, h3⟩
      obtain ⟨b, hb, rfl⟩ := List.mem_map.1 h1
      exact ⟨b, hb, rfl, (hl b hb s).2 h3⟩
  have hin : ∀ s, HasSurf m s → slab s ∈ volus.map Volu.index := by
    rintro s ⟨f, hf, hfi⟩
    obtain ⟨e, he⟩ := List.exists_mem_of_ne_nil _ (hb f hf)
    have hse : SurfEdge m s e := ⟨f, hf, hfi, he⟩
    obtain ⟨x, hx, hxi⟩ := hm.noDangling.surfEdge _ _ hse
    obtain ⟨a, b, hab, ha, -⟩ := edge_ends hm h2 hx
    rw [hslab s e a hse ⟨x, hx, hxi, by simp [hab]⟩]
    exact hp.into a ha
  refine ⟨⟨hm.unique.verts, hm.unique.edges, ?_, hnd⟩, ⟨hm.pos.verts, hm.pos.edges, fun i h => hm.pos.surfs i ((hsurf i).1 h), ?_⟩,
    ⟨hm.noDangling.vertEdge, hm.noDangling.edgeVert, fun e s h h3 => (hsurf s).2 (hm.noDangling.edgeSurf e s h h3), fun s e h =>
      hm.noDangling.surfEdge s e ((hse s e).1 h), ?_, fun c s h _ => (hsurf s).2 ((hvs c s).1 h).2.1⟩,
    ⟨hm.zeroOutside.vertEdge, hm.zeroOutside.edgeVert, fun s h => hm.zeroOutside.surfEdge s ((hse s 0).1 h), ?_⟩,
    ⟨hm.sym.vertEdge, fun e s he hs => (hm.sym.edgeSurf e s he ((hsurf s).1 hs)).trans (hse s e).symm, ?_⟩⟩
  · show ((m.surfs.map fun f => setVolu (slab f.index) f).map Surf.index).Nodup
    rw [List.map_map]
    exact hm.unique.surfs
  · rintro i ⟨b, hb, rfl⟩
    have := hpos b.index (List.mem_map.2 ⟨b, hb, rfl⟩)
    omega
  · intro s c h h3
    obtain ⟨h4, h5⟩ := (hsv s c).1 h
    rcases h5 with rfl | h5
    · exact List.mem_map.1 (hin s h4)
    · exact absurd h5 h3
  · intro c h
    have := hm.pos.surfs 0 ((hvs c 0).1 h).2.1
    omega
  · intro s c hs hc
    have hs' := (hsurf s).1 hs
    have hc' : c ∈ volus.map Volu.index := List.mem_map.2 hc
    rw [hsv, hvs]
    constructor
    · rintro ⟨-, h | h⟩
      · exact ⟨hc', hs', h⟩
      · have := hpos c hc'
        omega
    · rintro ⟨-, -, h⟩
      exact ⟨hs', Or.inl h⟩

/-! ### Two dimensions -/

theorem edge_labels {m : Mesh} (hm : Sound m) {P : Int → Prop} {lab : Int → Int} (hp : Parts m P lab) :
    ∃ elb : Int → Int, ∀ e v, EdgeVert m e v → elb e = lab v := by
  have h : ∀ e, ∃ c, ∀ v, EdgeVert m e v → c = lab v := fun e => by
    by_cases h : ∃ v, EdgeVert m e v
    · obtain ⟨v, h1⟩ := h
      refine ⟨lab v, fun v' h3 => (hp.same v v' (hasVert_of_edge hm h1) (hasVert_of_edge hm h3)).2 ?_⟩
      exact Relation.ReflTransGen.single ⟨hasVert_of_edge hm h1, hasVert_of_edge hm h3, e, trivial, h1, h3⟩
    · exact ⟨0, fun v h1 => absurd ⟨v, h1⟩ h⟩
  choose elb hs using h
  exact ⟨elb, hs⟩

theorem surfaces_run {m : Mesh} (hm : Sound m) (h2 : TwoVerts m) (hv : m.volus = []) :
    ∃ (lab elb : Int → Int) (surfs : List Surf),
      m.forceClose = .ok { m with edges := m.edges.map fun x => setSurf (elb x.index) x, surfs := surfs } ∧
      (∀ e v, EdgeVert m e v → elb e = lab v) ∧ (surfs.map Surf.index).Nodup ∧
      Parts m (fun c => c ∈ surfs.map Surf.index) lab ∧ (∀ c ∈ surfs.map Surf.index, 1 ≤ c) ∧
      (∀ b ∈ surfs, ∀ e, e ∈ b.edgeind ↔ HasEdge m e ∧ b.index = elb e) ∧ ∀ b ∈ surfs, b.voluind = [] := by
  obtain ⟨labels, n, lab, hrun, hlen, hlab, hparts⟩ := labels_fun hm h2
  obtain ⟨elb, helab⟩ := edge_labels hm hparts
  obtain ⟨hnd, hmem⟩ := newInds n
  have hidx : (newSurfs n).map Surf.index = (List.range n.toNat).map fun i : Nat => (i : Int) + 1 := by
    unfold newSurfs
    rw [List.map_map]
    rfl
  have hnew : ∀ b ∈ newSurfs n, b.edgeind = [] ∧ b.voluind = [] := fun b hb => by
    unfold newSurfs at hb
    rw [List.mem_map] at hb
    obtain ⟨i, -, rfl⟩ := hb
    exact ⟨rfl, rfl⟩
  have hinit : Inv Edge.index Surf.index setSurf Surf.edgeind (fun f => f.voluind = []) m.edges ((newSurfs n).map Surf.index) elb []
      (m.edges, newSurfs n) := inv_start (fun b hb => (hnew b hb).1) fun b hb => (hnew b hb).2
  obtain ⟨st, e1, i1⟩ := loop_ok (f := fun st (p : Vert × Int) =>
      p.1.edgeind.foldlM (m := Except Fault) (closePair Edge.index Surf.index setSurf pushEdge p.2) st)
    (g := fun p => p.1.edgeind.map fun e => (p.2, e)) (List.zip m.verts labels) (fun p hp P st hi => by
      have hpv : p.1 ∈ m.verts := (List.of_mem_zip hp).1
      refine fold_ok good_surf hm.unique.edges (by rw [hidx]; exact hnd) ?_ p.1.edgeind hi fun e he => ?_
      · rw [hidx, hmem, hlab p hp]
        exact hparts.into _ ⟨p.1, hpv, rfl⟩
      · have hve : VertEdge m p.1.index e := ⟨p.1, hpv, rfl, he⟩
        refine ⟨List.mem_map.2 (hasEdge_of_vert hm hve), ?_⟩
        rw [hlab p hp, helab e _ (edgeVert_of_vert hm hve)]) hinit
  have hP : ∀ q : Int × Int, q ∈ [] ++ (List.zip m.verts labels).flatMap (fun p => p.1.edgeind.map fun e => (p.2, e)) ↔
      HasEdge m q.2 ∧ q.1 = elb q.2 := fun q => by
    rw [List.nil_append, List.mem_flatMap]
    constructor
    · rintro ⟨p, hp, hq⟩
      obtain ⟨e, he, rfl⟩ := List.mem_map.1 hq
      have hve : VertEdge m p.1.index e := ⟨p.1, (List.of_mem_zip hp).1, rfl, he⟩
      exact ⟨hasEdge_of_vert hm hve, by rw [helab e _ (edgeVert_of_vert hm hve), ← hlab p hp]⟩
    · rintro ⟨⟨x, hx, hxi⟩, hq⟩
      obtain ⟨a, b, hab, ha, -⟩ := edge_ends hm h2 hx
      have hev : EdgeVert m q.2 a := ⟨x, hx, hxi, by simp [hab]⟩
      obtain ⟨v, hv, hvi, hve⟩ := vertEdge_of_edge hm hev
      obtain ⟨c, hc⟩ := zip_mem hlen hv
      refine ⟨(v, c), hc, List.mem_map.2 ⟨q.2, hve, ?_⟩⟩
      have h3 : c = q.1 := by rw [hq, helab q.2 a hev, ← hvi]; exact hlab _ hc
      rw [h3]
  refine ⟨lab, elb, st.2, ?_, helab, ?_, ?_, ?_, ?_, i1.rest⟩
  · unfold forceClose
    rw [hrun]
    simp only [Except.bind]
    rw [if_neg (by simp [hv]), e1]
    simp only [Except.map]
    rw [i1.elems]
    congr 2
    refine List.map_congr_left fun f hf => ?_
    rw [if_pos]
    exact List.mem_map.2 ⟨(elb f.index, f.index), (hP _).2 ⟨⟨f, hf, rfl⟩, rfl⟩, rfl⟩
  · rw [i1.inds, hidx]
    exact hnd
  · rw [i1.inds, hidx]
    exact ⟨fun v hv => (hmem _).2 (hparts.into v hv), fun c hc => hparts.onto c ((hmem c).1 hc), hparts.same⟩
  · rw [i1.inds, hidx]
    exact fun c hc => ((hmem c).1 hc).1
  · intro b hb s
    rw [i1.lists b hb s, hP]

/-- The new surfaces make a sound mesh. -/
theorem surfaces_sound {m : Mesh} (hm : Sound m) (h2 : TwoVerts m) (hv : m.volus = []) {lab elb : Int → Int} {surfs : List Surf}
    (helab : ∀ e v, EdgeVert m e v → elb e = lab v) (hnd : (surfs.map Surf.index).Nodup)
    (hp : Parts m (fun c => c ∈ surfs.map Surf.index) lab) (hpos : ∀ c ∈ surfs.map Surf.index, 1 ≤ c)
    (hl : ∀ b ∈ surfs, ∀ e, e ∈ b.edgeind ↔ HasEdge m e ∧ b.index = elb e) (hr : ∀ b ∈ surfs, b.voluind = []) :
    Sound { m with edges := m.edges.map fun x => setSurf (elb x.index) x, surfs := surfs } := by
  have hedge : ∀ e, HasEdge { m with edges := m.edges.map fun x => setSurf (elb x.index) x, surfs := surfs } e ↔ HasEdge m e := by
    intro s
    constructor
    · rintro ⟨x, hx, hxi⟩
      obtain ⟨f, hf, rfl⟩ := List.mem_map.1 hx
      exact ⟨f, hf, hxi⟩
    · rintro ⟨f, hf, hfi⟩
      exact ⟨_, List.mem_map.2 ⟨f, hf, rfl⟩, hfi⟩
  have hev : ∀ e v, EdgeVert { m with edges := m.edges.map fun x => setSurf (elb x.index) x, surfs := surfs } e v ↔ EdgeVert m e v := by
    intro s e
    constructor
    · rintro ⟨x, hx, hxi, he⟩
      obtain ⟨f, hf, rfl⟩ := List.mem_map.1 hx
      exact ⟨f, hf, hxi, he⟩
    · rintro ⟨f, hf, hfi, he⟩
      exact ⟨_, List.mem_map.2 ⟨f, hf, rfl⟩, hfi, he⟩
  have hes : ∀ e c, EdgeSurf { m with edges := m.edges.map fun x => setSurf (elb x.index) x, surfs := surfs } e c ↔
      HasEdge m e ∧ (c = elb e ∨ c = 0) := by
    intro s c
    constructor
    · rintro ⟨x, hx, hxi, hc⟩
      obtain ⟨f, hf, rfl⟩ := List.mem_map.1 hx
      have hxi' : f.index = s := hxi
      have hc' : c ∈ [elb f.index, 0] := hc
      rw [hxi'] at hc'
      exact ⟨⟨f, hf, hxi⟩, by simpa using hc'⟩
    · rintro ⟨⟨f, hf, hfi⟩, hc⟩
      refine ⟨_, List.mem_map.2 ⟨f, hf, rfl⟩, hfi, ?_⟩
      show c ∈ [elb f.index, 0]
      rw [hfi]
      simpa using hc
  have hse : ∀ c e, SurfEdge { m with edges := m.edges.map fun x => setSurf (elb x.index) x, surfs := surfs } c e ↔
      c ∈ surfs.map Surf.index ∧ HasEdge m e ∧ c = elb e := by
    intro c s
    constructor
    · rintro ⟨b, hb, rfl, hs⟩
      exact ⟨List.mem_map.2 ⟨b, hb, rfl⟩, (hl b hb s).1 hs⟩
    · rintro ⟨h1, h3⟩
      obtain ⟨b, hb, rfl⟩ := List.mem_map.1 h1
      exact ⟨b, hb, rfl, (hl b hb s).2 h3⟩
  have hin : ∀ e, HasEdge m e → elb e ∈ surfs.map Surf.index := by
    rintro e ⟨x, hx, hxi⟩
    obtain ⟨a, b, hab, ha, -⟩ := edge_ends hm h2 hx
    rw [helab e a ⟨x, hx, hxi, by simp [hab]⟩]
    exact hp.into a ha
  have hsv : ∀ s c, ¬ SurfVolu { m with edges := m.edges.map fun x => setSurf (elb x.index) x, surfs := surfs } s c := by
    rintro s c ⟨x, hx, -, h⟩
    rw [hr x hx] at h
    exact List.not_mem_nil h
  have hvs : ∀ c s, ¬ VoluSurf { m with edges := m.edges.map fun x => setSurf (elb x.index) x, surfs := surfs } c s := by
    rintro c s ⟨x, hx, -⟩
    have hx' : x ∈ m.volus := hx
    rw [hv] at hx'
    exact List.not_mem_nil hx'
  refine ⟨⟨hm.unique.verts, ?_, hnd, hm.unique.volus⟩, ⟨hm.pos.verts, fun i h => hm.pos.edges i ((hedge i).1 h), ?_, hm.pos.volus⟩,
    ⟨fun v e h h3 => (hedge e).2 (hm.noDangling.vertEdge v e h h3), fun e v h => hm.noDangling.edgeVert e v ((hev e v).1 h), ?_,
      fun s e h => (hedge e).2 ((hse s e).1 h).2.1, fun s c h => absurd h (hsv s c), fun c s h => absurd h (hvs c s)⟩,
    ⟨hm.zeroOutside.vertEdge, fun e h => hm.zeroOutside.edgeVert e ((hev e 0).1 h), ?_, fun c => hvs c 0⟩,
    ⟨fun v e h h3 => (hm.sym.vertEdge v e h ((hedge e).1 h3)).trans (hev e v).symm, ?_, fun s c _ _ => iff_of_false (hsv s c) (hvs c s)⟩⟩
  · show ((m.edges.map fun x => setSurf (elb x.index) x).map Edge.index).Nodup
    rw [List.map_map]
    exact hm.unique.edges
  · rintro i ⟨b, hb, rfl⟩
    have := hpos b.index (List.mem_map.2 ⟨b, hb, rfl⟩)
    omega
  · intro s c h h3
    obtain ⟨h4, h5⟩ := (hes s c).1 h
    rcases h5 with rfl | h5
    · exact List.mem_map.1 (hin s h4)
    · exact absurd h5 h3
  · intro c h
    have := hm.pos.edges 0 ((hse c 0).1 h).2.1
    omega
  · intro s c hs hc
    have hs' := (hedge s).1 hs
    have hc' : c ∈ surfs.map Surf.index := List.mem_map.2 hc
    rw [hes, hse]
    constructor
    · rintro ⟨-, h | h⟩
      · exact ⟨hc', hs', h⟩
      · have := hpos c hc'
        omega
    · rintro ⟨-, -, h⟩
      exact ⟨hs', Or.inl h⟩

end RSVS.ForceClose
