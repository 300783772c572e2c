import Verif.Lemmas.FinishMesh
import Verif.Lemmas.SpawnRemove
import Verif.Spec.EndPass

/-!
# Lemmas for the end of a pass of the clean-up of a snake
-/

namespace RSVS.EndPass

open RSVS.Spec RSVS.Mesh RSVS.VertPass RSVS.Surf2D RSVS.SpawnRemove RSVS.FaceFan RSVS.Props

/-! ### Tightening keeps who lists whom -/

/-- Both meshes have the same elements, which list the same neighbours. -/
structure SameLists (m r : Mesh) : Prop where
  verts : ∀ i, HasVert r i ↔ HasVert m i
  edges : ∀ i, HasEdge r i ↔ HasEdge m i
  surfs : ∀ i, HasSurf r i ↔ HasSurf m i
  volus : ∀ i, HasVolu r i ↔ HasVolu m i
  vertEdge : ∀ a b, VertEdge r a b ↔ VertEdge m a b
  edgeVert : ∀ a b, EdgeVert r a b ↔ EdgeVert m a b
  edgeSurf : ∀ a b, EdgeSurf r a b ↔ EdgeSurf m a b
  surfEdge : ∀ a b, SurfEdge r a b ↔ SurfEdge m a b
  surfVolu : ∀ a b, SurfVolu r a b ↔ SurfVolu m a b
  voluSurf : ∀ a b, VoluSurf r a b ↔ VoluSurf m a b
  ends : ∀ x ∈ r.edges, ∃ y ∈ m.edges, y.index = x.index ∧ y.vertind = x.vertind
  coords : ∀ x ∈ r.verts, ∃ y ∈ m.verts, y.index = x.index ∧ y.coord = x.coord

theorem SameLists.trans {a b c : Mesh} (h : SameLists a b) (g : SameLists b c) : SameLists a c where
  verts i := (g.verts i).trans (h.verts i)
  edges i := (g.edges i).trans (h.edges i)
  surfs i := (g.surfs i).trans (h.surfs i)
  volus i := (g.volus i).trans (h.volus i)
  vertEdge i j := (g.vertEdge i j).trans (h.vertEdge i j)
  edgeVert i j := (g.edgeVert i j).trans (h.edgeVert i j)
  edgeSurf i j := (g.edgeSurf i j).trans (h.edgeSurf i j)
  surfEdge i j := (g.surfEdge i j).trans (h.surfEdge i j)
  surfVolu i j := (g.surfVolu i j).trans (h.surfVolu i j)
  voluSurf i j := (g.voluSurf i j).trans (h.voluSurf i j)
  ends x hx := by
    obtain ⟨y, hy, h1, h2⟩ := g.ends x hx
    obtain ⟨z, hz, h3, h4⟩ := h.ends y hy
    exact ⟨z, hz, h3.trans h1, h4.trans h2⟩
  coords x hx := by
    obtain ⟨y, hy, h1, h2⟩ := g.coords x hx
    obtain ⟨z, hz, h3, h4⟩ := h.coords y hy
    exact ⟨z, hz, h3.trans h1, h4.trans h2⟩

theorem forall2_lists {α : Type} {ix : α → Int} {F : α → List Int} {R : α → α → Prop}
    (hR : ∀ x y, R x y → ix y = ix x ∧ ∀ e, e ∈ F y ↔ e ∈ F x) {a b : List α} (h : List.Forall₂ R a b) (i j : Int) :
    (∃ y ∈ b, ix y = i ∧ j ∈ F y) ↔ (∃ x ∈ a, ix x = i ∧ j ∈ F x) := by
  constructor
  · rintro ⟨y, hy, h1, h2⟩
    obtain ⟨x, hx, g⟩ := forall2_right h hy
    exact ⟨x, hx, (hR x y g).1 ▸ h1, ((hR x y g).2 j).1 h2⟩
  · rintro ⟨x, hx, h1, h2⟩
    obtain ⟨y, hy, g⟩ := forall2_left h hx
    exact ⟨y, hy, (hR x y g).1.trans h1, ((hR x y g).2 j).2 h2⟩

theorem forall2_has {α : Type} {ix : α → Int} {R : α → α → Prop} (hR : ∀ x y, R x y → ix y = ix x) {a b : List α}
    (h : List.Forall₂ R a b) (i : Int) : (∃ y ∈ b, ix y = i) ↔ (∃ x ∈ a, ix x = i) := by
  have := forall2_index hR h
  have e : ∀ l : List α, (∃ y ∈ l, ix y = i) ↔ i ∈ l.map ix := fun l => by simp
  rw [e, e, this]

theorem sameLists_of_tightened {m r : Mesh} (h : Tightened m r) : SameLists m r where
  verts := forall2_has (fun x y h => by rw [h.1]) h.verts
  edges := forall2_has (fun x y h => by rw [h.1]) h.edges
  surfs := forall2_has (fun x y h => by rw [h.1]) h.surfs
  volus := forall2_has (fun x y h => by rw [h.1]) h.volus
  vertEdge := forall2_lists (fun x y h => ⟨by rw [h.1], h.2.2⟩) h.verts
  edgeVert := forall2_lists (F := Edge.vertind) (fun x y h => by rw [h.1]; exact ⟨rfl, fun _ => Iff.rfl⟩) h.edges
  edgeSurf := forall2_lists (F := Edge.surfind) (fun x y h => ⟨by rw [h.1], h.2.2⟩) h.edges
  surfEdge := forall2_lists (F := Surf.edgeind) (fun x y h => ⟨by rw [h.1], h.2.1.2⟩) h.surfs
  surfVolu := forall2_lists (F := Surf.voluind) (fun x y h => ⟨by rw [h.1], h.2.2.2⟩) h.surfs
  voluSurf := forall2_lists (fun x y h => ⟨by rw [h.1], h.2.2⟩) h.volus
  ends x hx := by
    obtain ⟨y, hy, h1, _⟩ := forall2_right h.edges hx
    exact ⟨y, hy, by rw [h1], by rw [h1]⟩
  coords x hx := by
    obtain ⟨y, hy, h1, _⟩ := forall2_right h.verts hx
    exact ⟨y, hy, by rw [h1], by rw [h1]⟩

/-! ### Detaching an element which stays -/

theorem hasEdge_without {m : Mesh} {d : Removals} {e : Int} : HasEdge (without m d) e ↔ HasEdge m e ∧ e ∉ d.edges := by
  simp only [HasEdge, without, mem_removeIdx]
  constructor
  · rintro ⟨x, ⟨h1, h2⟩, rfl⟩; exact ⟨⟨x, h1, rfl⟩, h2⟩
  · rintro ⟨⟨x, h1, rfl⟩, h2⟩; exact ⟨x, ⟨h1, h2⟩, rfl⟩

theorem hasVert_without {m : Mesh} {d : Removals} {e : Int} : HasVert (without m d) e ↔ HasVert m e ∧ e ∉ d.verts := by
  simp only [HasVert, without, mem_removeIdx]
  constructor
  · rintro ⟨x, ⟨h1, h2⟩, rfl⟩; exact ⟨⟨x, h1, rfl⟩, h2⟩
  · rintro ⟨⟨x, h1, rfl⟩, h2⟩; exact ⟨x, ⟨h1, h2⟩, rfl⟩

theorem hasSurf_without {m : Mesh} {d : Removals} {e : Int} : HasSurf (without m d) e ↔ HasSurf m e ∧ e ∉ d.surfs := by
  simp only [HasSurf, without, mem_removeIdx]
  constructor
  · rintro ⟨x, ⟨h1, h2⟩, rfl⟩; exact ⟨⟨x, h1, rfl⟩, h2⟩
  · rintro ⟨⟨x, h1, rfl⟩, h2⟩; exact ⟨x, ⟨h1, h2⟩, rfl⟩

theorem hasVolu_without {m : Mesh} {d : Removals} {e : Int} : HasVolu (without m d) e ↔ HasVolu m e ∧ e ∉ d.volus := by
  simp only [HasVolu, without, mem_removeIdx]
  constructor
  · rintro ⟨x, ⟨h1, h2⟩, rfl⟩; exact ⟨⟨x, h1, rfl⟩, h2⟩
  · rintro ⟨⟨x, h1, rfl⟩, h2⟩; exact ⟨x, ⟨h1, h2⟩, rfl⟩

theorem removeIdx_map {α : Type} {ix : α → Int} {f g : α → α} {l : List α} {del : List Int}
    (hf : ∀ a ∈ l, ix (f a) = ix a) (hfg : ∀ a ∈ l, ix a ∉ del → f a = g a) :
    removeIdx ix (l.map f) del = (removeIdx ix l del).map g := by
  induction l with
  | nil => rfl
  | cons a l ih =>
    have ih' := ih (fun b hb => hf b (by simp [hb])) fun b hb => hfg b (by simp [hb])
    unfold removeIdx at ih' ⊢
    rw [List.map_cons, List.filter_cons, List.filter_cons, hf a (by simp)]
    by_cases h : ix a ∈ del
    · simp only [List.contains_eq_mem, h, decide_true, Bool.not_true, Bool.false_eq_true, if_false]
      simpa using ih'
    · simp only [List.contains_eq_mem, h, decide_false, Bool.not_false, if_true, List.map_cons]
      rw [hfg a (by simp) h]
      congr 1
      simpa using ih'

/-- Both meshes have the same elements in the same places. -/
structure SameIdx (m r : Mesh) : Prop where
  verts : r.verts.map Vert.index = m.verts.map Vert.index
  edges : r.edges.map Edge.index = m.edges.map Edge.index
  surfs : r.surfs.map Surf.index = m.surfs.map Surf.index
  volus : r.volus.map Volu.index = m.volus.map Volu.index

theorem SameIdx.trans {a b c : Mesh} (h : SameIdx a b) (g : SameIdx b c) : SameIdx a c :=
  ⟨g.verts.trans h.verts, g.edges.trans h.edges, g.surfs.trans h.surfs, g.volus.trans h.volus⟩

theorem has_of_map {α : Type} {ix : α → Int} {l l' : List α} (h : l'.map ix = l.map ix) (i : Int) : (∃ x ∈ l', ix x = i) ↔ ∃ x ∈ l, ix x = i := by
  have e : ∀ l : List α, (∃ y ∈ l, ix y = i) ↔ i ∈ l.map ix := fun l => by simp
  rw [e, e, h]

theorem SameIdx.same {m r : Mesh} (h : SameIdx m r) : SameElements m r :=
  ⟨has_of_map h.verts, has_of_map h.edges, has_of_map h.surfs, has_of_map h.volus⟩

theorem map_idx {α : Type} {ix : α → Int} {l : List α} {f : α → α} (hf : ∀ a, ix (f a) = ix a) : (l.map f).map ix = l.map ix := by
  rw [List.map_map]
  have : ix ∘ f = ix := funext hf
  rw [this]

/-- What an edge which stays is when it is detached, in a mesh in which not everything is sound. -/
theorem keepEdge {m : Mesh} {d : Removals} (hu : UniqueIndices m) (hs : Sound (without m d)) {e : Int} (he : HasEdge m e) (hd : e ∉ d.edges)
    (short : ∀ x ∈ m.edges, x.vertind.length ≤ 2) :
    ∃ m1, m.removeEdge e = .ok m1 ∧ without m1 d = edgeOff (without m d) e ∧ UniqueIndices m1 ∧
      (∀ x ∈ m1.edges, x.vertind.length ≤ 2) ∧ SameIdx m m1 := by
  obtain ⟨x, hx, hxm, hxi⟩ := elemAt_posOf_ok (ix := Edge.index) he
  have hek : HasEdge (without m d) e := hasEdge_without.2 ⟨he, hd⟩
  have hxk : x ∈ (without m d).edges := by
    simp only [without]
    exact mem_removeIdx.2 ⟨hxm, hxi ▸ hd⟩
  have hrun : m.removeEdge e = .ok { m with
      verts := m.verts.map fun v => if v.index ∈ x.vertind then { v with edgeind := eraseAll e v.edgeind } else v
      surfs := m.surfs.map fun s => if s.index ∈ x.surfind then { s with edgeind := eraseAll e s.edgeind, isordered := s.isordered && !s.edgeind.contains e } else s
      edges := m.edges.map fun y => if y.index = e then { y with vertind := [], surfind := [] } else y } := by
    unfold removeEdge
    simp only [hx]
    show (visit _ _ _ >>= fun verts => _) = _
    rw [visit_eq (ix := Vert.index) (by intro a; rfl) (by intro a; simp [eraseAll_eraseAll])
      x.vertind m.verts hu.verts rfl (by
        intro k hk
        have : EdgeVert (without m d) e k := ⟨x, hxk, hxi, hk⟩
        refine (hasVert_without.1 (hs.noDangling.edgeVert _ _ this ?_)).1
        rintro rfl
        exact hs.zeroOutside.edgeVert _ this)]
    show (visitKnown _ _ _ >>= fun surfs => _) = _
    rw [visitKnown_eq (ix := Surf.index) (by intro a; rfl) (by
        intro a; simp [eraseAll_eraseAll, mem_eraseAll])
      x.surfind m.surfs hu.surfs rfl]
    show (modAt _ _ _ >>= fun edges => _) = _
    rw [modAt_posOf hu.edges he]
    rfl
  refine ⟨_, hrun, ?_, ?_, ?_, ?_⟩
  · unfold without edgeOff
    congr 1
    · apply removeIdx_map
      · intro a _; split <;> rfl
      · intro v hv hvd
        split
        · rfl
        · rename_i hn
          rw [eraseAll_of_notMem]
          intro ho
          apply hn
          have hvk : v ∈ (without m d).verts := mem_removeIdx.2 ⟨hv, hvd⟩
          obtain ⟨e', he', hi', hx'⟩ := (hs.sym.vertEdge v.index e ⟨v, hvk, rfl⟩ hek).mp ⟨v, hvk, rfl, ho⟩
          rw [inj_of_nodup hs.unique.edges he' hxk (hi'.trans hxi.symm)] at hx'
          exact hx'
    · apply removeIdx_map
      · intro a _; split <;> rfl
      · intro v hv hvd
        rfl
    · apply removeIdx_map
      · intro a _; split <;> rfl
      · intro s hv hvd
        split
        · rfl
        · rename_i hn
          have hvk : s ∈ (without m d).surfs := mem_removeIdx.2 ⟨hv, hvd⟩
          have ho : e ∉ s.edgeind := by
            intro ho
            apply hn
            obtain ⟨e', he', hi', hx'⟩ := (hs.sym.edgeSurf e s.index hek ⟨s, hvk, rfl⟩).mpr ⟨s, hvk, rfl, ho⟩
            rw [inj_of_nodup hs.unique.edges he' hxk (hi'.trans hxi.symm)] at hx'
            exact hx'
          rw [eraseAll_of_notMem ho]
          simp [ho]
  · have key : ∀ {α : Type} {ix : α → Int} {l : List α} {f : α → α}, (∀ a, ix (f a) = ix a) → (l.map ix).Nodup → ((l.map f).map ix).Nodup := by
      intro α ix l f hf h
      rw [List.map_map]
      have : ix ∘ f = ix := funext hf
      rwa [this]
    exact ⟨key (by intro a; split <;> rfl) hu.verts, key (by intro a; split <;> rfl) hu.edges, key (by intro a; split <;> rfl) hu.surfs, hu.volus⟩
  · intro y hy
    simp only [List.mem_map] at hy
    obtain ⟨z, hz, rfl⟩ := hy
    split
    · simp
    · exact short z hz
  · exact ⟨map_idx (by intro a; split <;> rfl), map_idx (by intro a; split <;> rfl), map_idx (by intro a; split <;> rfl), rfl⟩

/-- The same for edges one after the other. -/
theorem keepEdges {d : Removals} : ∀ (ks : List Int) (m : Mesh), UniqueIndices m → Sound (without m d) → (∀ k ∈ ks, HasEdge m k ∧ k ∉ d.edges) →
    (∀ x ∈ m.edges, x.vertind.length ≤ 2) →
    ∃ m1, ks.foldlM (m := Except Fault) Mesh.removeEdge m = .ok m1 ∧ ks.foldlM (m := Except Fault) Mesh.removeEdge (without m d) = .ok (without m1 d) ∧
      UniqueIndices m1 ∧ (∀ x ∈ m1.edges, x.vertind.length ≤ 2) ∧ SameIdx m m1
  | [], m, hu, _, _, hs => ⟨m, rfl, rfl, hu, hs, ⟨rfl, rfl, rfl, rfl⟩⟩
  | k :: ks, m, hu, hm, hk, hs => by
    obtain ⟨m1, a1, a2, a3, a4, a5⟩ := keepEdge hu hm (hk k (by simp)).1 (hk k (by simp)).2 hs
    have hsd : Sound (without m1 d) := by
      rw [a2]
      exact sound_of_edgeDetached hm (edgeOff_unique hm.unique k) (edgeOff_detached _ k)
    obtain ⟨m2, b1, b2, b3, b4, b5⟩ := keepEdges ks m1 a3 hsd (fun j hj => ⟨(a5.same.edges j).2 (hk j (by simp [hj])).1, (hk j (by simp [hj])).2⟩) a4
    refine ⟨m2, ?_, ?_, b3, b4, a5.trans b5⟩
    · rw [List.foldlM_cons, a1]
      exact b1
    · rw [List.foldlM_cons, removeEdge_eq hm (hasEdge_without.2 (hk k (by simp))), ← a2]
      exact b2

theorem surf_run {m : Mesh} (hu : UniqueIndices m) {s : Int} {x : Surf} (hx : elemAt m.surfs (posOf Surf.index m.surfs s) = .ok x)
    (hs : HasSurf m s) (h0 : x.edgeind = []) :
    m.removeSurf s = .ok { m with
      surfs := m.surfs.map fun y => if y.index = s then { y with edgeind := [], voluind := [] } else y
      volus := m.volus.map fun c => if c.index ∈ x.voluind then { c with surfind := eraseAll s c.surfind } else c } := by
  unfold removeSurf
  simp only [hx]
  show (visit _ _ _ >>= fun edges => _) = _
  rw [h0]
  show (visitKnown _ _ _ >>= fun volus => _) = _
  rw [visitKnown_eq (ix := Volu.index) (by intro a; rfl) (by intro a; simp [eraseAll_eraseAll]) x.voluind m.volus hu.volus rfl]
  show (modAt _ _ _ >>= fun surfs => _) = _
  rw [modAt_posOf hu.surfs hs]
  rfl

/-- Detaching a surface without edges. -/
theorem bareSurf {m : Mesh} {d : Removals} (hu : UniqueIndices m) (hm : Sound (without m d)) {s : Int} (hs : HasSurf m s)
    (h0 : ∀ x ∈ m.surfs, x.index = s → x.edgeind = []) :
    ∃ m1, m.removeSurf s = .ok m1 ∧ without m1 d = (if s ∈ d.surfs then without m d else surfOff (without m d) s) ∧ UniqueIndices m1 ∧
      m1.edges = m.edges ∧ m1.verts = m.verts ∧ SameIdx m m1 ∧ ∀ y ∈ m1.surfs, y ∈ m.surfs ∨ y.edgeind = [] := by
  obtain ⟨x, hx, hxm, hxi⟩ := elemAt_posOf_ok (ix := Surf.index) hs
  have hx0 := h0 x hxm hxi
  refine ⟨_, surf_run hu hx hs hx0, ?_, ?_, rfl, rfl, ?_, ?_⟩
  · by_cases hd : s ∈ d.surfs
    · rw [if_pos hd]
      unfold without
      congr 1
      · rw [removeIdx_map (g := id)]
        · simp
        · intro a _; split <;> rfl
        · intro a _ had
          rw [if_neg]
          · rfl
          · rintro rfl; exact had hd
      · rw [removeIdx_map (g := id)]
        · simp
        · intro a _; split <;> rfl
        · intro c hc hcd
          split
          · rw [eraseAll_of_notMem]
            · rfl
            · intro ho
              have hck : c ∈ (without m d).volus := mem_removeIdx.2 ⟨hc, hcd⟩
              have hv : VoluSurf (without m d) c.index s := ⟨c, hck, rfl, ho⟩
              refine (hasSurf_without.1 (hm.noDangling.voluSurf _ _ hv ?_)).2 hd
              rintro rfl
              exact hm.zeroOutside.voluSurf _ hv
          · rfl
    · rw [if_neg hd]
      have hsk : HasSurf (without m d) s := hasSurf_without.2 ⟨hs, hd⟩
      have hxk : x ∈ (without m d).surfs := mem_removeIdx.2 ⟨hxm, hxi ▸ hd⟩
      unfold without surfOff
      congr 1
      · show removeIdx _ _ _ = _
        have := removeIdx_map (ix := Edge.index) (f := id) (g := fun e => { e with surfind := eraseAll s e.surfind }) (l := m.edges) (del := d.edges)
          (fun _ _ => rfl) fun e he hed => by
            rw [eraseAll_of_notMem]
            · rfl
            · intro ho
              have hek : e ∈ (without m d).edges := mem_removeIdx.2 ⟨he, hed⟩
              obtain ⟨y, hy, h1, h2⟩ := (hm.sym.edgeSurf e.index s ⟨e, hek, rfl⟩ hsk).mp ⟨e, hek, rfl, ho⟩
              rw [inj_of_nodup hm.unique.surfs hy hxk (h1.trans hxi.symm), hx0] at h2
              simp at h2
        rw [List.map_id] at this
        exact this
      · apply removeIdx_map
        · intro a _; split <;> rfl
        · intro a _ _; rfl
      · apply removeIdx_map
        · intro a _; split <;> rfl
        · intro c hc hcd
          split
          · rfl
          · rename_i hn
            rw [eraseAll_of_notMem]
            intro ho
            apply hn
            have hck : c ∈ (without m d).volus := mem_removeIdx.2 ⟨hc, hcd⟩
            obtain ⟨y, hy, h1, h2⟩ := (hm.sym.surfVolu s c.index hsk ⟨c, hck, rfl⟩).mpr ⟨c, hck, rfl, ho⟩
            rw [inj_of_nodup hm.unique.surfs hy hxk (h1.trans hxi.symm)] at h2
            exact h2
  · have key : ∀ {α : Type} {ix : α → Int} {l : List α} {f : α → α}, (∀ a, ix (f a) = ix a) → (l.map ix).Nodup → ((l.map f).map ix).Nodup := by
      intro α ix l f hf h
      rw [List.map_map]
      have : ix ∘ f = ix := funext hf
      rwa [this]
    exact ⟨hu.verts, hu.edges, key (by intro a; split <;> rfl) hu.surfs, key (by intro a; split <;> rfl) hu.volus⟩
  · exact ⟨rfl, rfl, map_idx (by intro a; split <;> rfl), map_idx (by intro a; split <;> rfl)⟩
  · intro y hy
    simp only [List.mem_map] at hy
    obtain ⟨z, hz, rfl⟩ := hy
    split
    · exact .inr rfl
    · exact .inl hz

theorem bareSurfs {d : Removals} : ∀ (ks : List Int) (m : Mesh), UniqueIndices m → Sound (without m d) → (∀ k ∈ ks, HasSurf m k) →
    (∀ x ∈ m.surfs, x.index ∈ ks → x.edgeind = []) →
    ∃ m1, ks.foldlM (m := Except Fault) Mesh.removeSurf m = .ok m1 ∧
      (ks.filter fun k => !d.surfs.contains k).foldlM (m := Except Fault) Mesh.removeSurf (without m d) = .ok (without m1 d) ∧
      UniqueIndices m1 ∧ m1.edges = m.edges ∧ m1.verts = m.verts ∧ SameIdx m m1
  | [], m, hu, _, _, _ => ⟨m, rfl, rfl, hu, rfl, rfl, ⟨rfl, rfl, rfl, rfl⟩⟩
  | k :: ks, m, hu, hm, hk, h0 => by
    obtain ⟨m1, a1, a2, a3, a4, a5, a6, a7⟩ := bareSurf hu hm (hk k (by simp)) fun x hx hi => h0 x hx (by simp [hi])
    have hsd : Sound (without m1 d) := by
      rw [a2]
      split
      · exact hm
      · exact sound_of_surfDetached hm (surfOff_unique hm.unique k) (surfOff_detached _ k)
    obtain ⟨m2, b1, b2, b3, b4, b5, b6⟩ := bareSurfs ks m1 a3 hsd (fun j hj => (a6.same.surfs j).2 (hk j (by simp [hj]))) fun x hx hi =>
      (a7 x hx).elim (fun hx' => h0 x hx' (by simp [hi])) id
    refine ⟨m2, ?_, ?_, b3, b4.trans a4, b5.trans a5, a6.trans b6⟩
    · rw [List.foldlM_cons, a1]
      exact b1
    · by_cases hd : k ∈ d.surfs
      · rw [if_pos hd] at a2
        rw [List.filter_cons_of_neg (by simpa using hd), ← a2]
        exact b2
      · rw [if_neg hd] at a2
        rw [List.filter_cons_of_pos (by simpa using hd), List.foldlM_cons, removeSurf_eq hm (hasSurf_without.2 ⟨hk k (by simp), hd⟩), ← a2]
        exact b2

/-! ### The searches -/

theorem collapsed_ok {m : Mesh} (hu : UniqueIndices m) : ∀ (keeps : List Int), (∀ k ∈ keeps, ∃ x ∈ m.edges, x.index = k ∧ x.vertind.length = 2) →
    ∃ l, collapsedEdges m keeps = .ok l ∧ ∀ e, e ∈ l ↔ Collapses m keeps e
  | [], _ => ⟨[], rfl, fun e => by simp [Collapses]⟩
  | k :: ks, h => by
    obtain ⟨l, h1, h2⟩ := collapsed_ok hu ks fun j hj => h j (by simp [hj])
    obtain ⟨x, hx, hi, hl⟩ := h k (by simp)
    obtain ⟨y, hy, hym, hyi⟩ := elemAt_posOf_ok (ix := Edge.index) ⟨x, hx, hi⟩
    obtain rfl := inj_of_nodup hu.edges hym hx (hyi.trans hi.symm)
    match hv : y.vertind, hl with
    | [a, b], _ =>
      refine ⟨(if a = b then [k] else []) ++ l, ?_, ?_⟩
      · unfold collapsedEdges isearch at h1 ⊢
        rw [List.mapM_cons, hy]
        show (((vecGet y.vertind 0).bind _ >>= _ : Except Fault _).map _) = _
        rw [hv]
        show ((Except.bind _ _ : Except Fault _).map _) = _
        generalize hg : (List.mapM (m := Except Fault) _ ks) = g at h1 ⊢
        cases g with
        | error f => cases h1
        | ok g =>
          cases h1
          rfl
      · intro e
        rw [List.mem_append, h2]
        constructor
        · rintro (h | h)
          · split at h
            · rename_i hab
              rw [List.mem_singleton] at h
              exact ⟨by simp [h], y, hx, hyi.trans h.symm, a, by rw [hv, hab]⟩
            · simp at h
          · exact ⟨by simp [h.1], h.2⟩
        · rintro ⟨h, z, hz, hzi, v, hzv⟩
          rcases List.mem_cons.1 h with rfl | h
          · obtain rfl := inj_of_nodup hu.edges hz hx (hzi.trans hyi.symm)
            rw [hv] at hzv
            cases hzv
            left
            rw [if_pos rfl]
            simp
          · exact .inr ⟨h, z, hz, hzi, v, hzv⟩

theorem check_ok {m : Mesh} : ∀ (l : List Int) (acc : List Int), (∀ e ∈ l, HasEdge m e) → ∃ r, l.foldlM (m := Except Fault) (checkStep m) acc = .ok r
  | [], acc, _ => ⟨acc, rfl⟩
  | e :: l, acc, h => by
    obtain ⟨x, hx, _, _⟩ := elemAt_posOf_ok (ix := Edge.index) (h e (by simp))
    rw [List.foldlM_cons]
    unfold checkStep
    rw [hx]
    exact check_ok l _ fun e' he' => h e' (by simp [he'])

/-! ### Removing elements -/

theorem lists_removeIdx {α : Type} {ix : α → Int} {F : α → List Int} {l : List α} {del : List Int} (a b : Int) :
    (∃ x ∈ removeIdx ix l del, ix x = a ∧ b ∈ F x) ↔ (∃ x ∈ l, ix x = a ∧ b ∈ F x) ∧ a ∉ del := by
  simp only [mem_removeIdx]
  constructor
  · rintro ⟨x, ⟨h1, h2⟩, rfl, h3⟩; exact ⟨⟨x, h1, rfl, h3⟩, h2⟩
  · rintro ⟨⟨x, h1, rfl, h3⟩, h2⟩; exact ⟨x, ⟨h1, h2⟩, rfl, h3⟩

theorem vertEdge_without {m : Mesh} {d : Removals} (a b : Int) : VertEdge (without m d) a b ↔ VertEdge m a b ∧ a ∉ d.verts := lists_removeIdx a b
theorem edgeVert_without {m : Mesh} {d : Removals} (a b : Int) : EdgeVert (without m d) a b ↔ EdgeVert m a b ∧ a ∉ d.edges := lists_removeIdx a b
theorem edgeSurf_without {m : Mesh} {d : Removals} (a b : Int) : EdgeSurf (without m d) a b ↔ EdgeSurf m a b ∧ a ∉ d.edges := lists_removeIdx a b
theorem surfEdge_without {m : Mesh} {d : Removals} (a b : Int) : SurfEdge (without m d) a b ↔ SurfEdge m a b ∧ a ∉ d.surfs := lists_removeIdx a b
theorem surfVolu_without {m : Mesh} {d : Removals} (a b : Int) : SurfVolu (without m d) a b ↔ SurfVolu m a b ∧ a ∉ d.surfs := lists_removeIdx a b
theorem voluSurf_without {m : Mesh} {d : Removals} (a b : Int) : VoluSurf (without m d) a b ↔ VoluSurf m a b ∧ a ∉ d.volus := lists_removeIdx a b

theorem removeIdx_twice {α : Type} {ix : α → Int} {l : List α} {d e : List Int} (h : ∀ a ∈ d, a ∈ e) :
    removeIdx ix (removeIdx ix l d) e = removeIdx ix l e := by
  unfold removeIdx
  rw [List.filter_filter]
  apply List.filter_congr
  intro x _
  by_cases h1 : ix x ∈ e
  · simp [h1]
  · have : ix x ∉ d := fun h2 => h1 (h _ h2)
    simp [h1, this]

theorem without_without {m : Mesh} {d e : Removals} (hv : ∀ a ∈ d.verts, a ∈ e.verts) (he : ∀ a ∈ d.edges, a ∈ e.edges)
    (hs : ∀ a ∈ d.surfs, a ∈ e.surfs) (hc : ∀ a ∈ d.volus, a ∈ e.volus) : without (without m d) e = without m e := by
  unfold without
  simp only [removeIdx_twice hv, removeIdx_twice he, removeIdx_twice hs, removeIdx_twice hc]

theorem removeIdx_index {α : Type} {ix : α → Int} {l : List α} {d : List Int} : (removeIdx ix l d).map ix = removeIdx id (l.map ix) d := by
  unfold removeIdx
  rw [List.filter_map]
  rfl

theorem tighten_without {m : Mesh} {d : Removals} (h : ∀ e ∈ m.edges, e.vertind.length ≤ 2) :
    ∃ t, m.tighten = .ok t ∧ (without m d).tighten = .ok (without t d) ∧ SameIdx m t := by
  refine ⟨_, RSVS.Refine.tighten_eq h, ?_, ?_⟩
  · rw [RSVS.Refine.tighten_eq (m := without m d) fun e he => h e (mem_removeIdx.1 he).1]
    congr 1
    unfold without
    congr 1
    · symm; apply removeIdx_map <;> intros <;> rfl
    · symm; apply removeIdx_map <;> intros <;> rfl
    · symm; apply removeIdx_map <;> intros <;> rfl
    · symm; apply removeIdx_map <;> intros <;> rfl
  · exact ⟨map_idx fun _ => rfl, map_idx fun _ => rfl, map_idx fun _ => rfl, map_idx fun _ => rfl⟩

end RSVS.EndPass

namespace RSVS.EndPass

open RSVS.Spec RSVS.Mesh RSVS.VertPass RSVS.Surf2D RSVS.SpawnRemove RSVS.FaceFan RSVS.Props

/-! ### The whole of it -/

theorem endPass_ok {s : Parts} {keeps : List Int} {d : Removals} (hd : SoundWithout s.conn d)
    (short : ∀ e ∈ s.conn.edges, e.vertind.length ≤ 2)
    (hk : ∀ k ∈ keeps, k ∉ d.edges ∧ ∃ x ∈ s.conn.edges, x.index = k ∧ x.vertind.length = 2) :
    ∃ (r : Parts) (all : Removals), endPass s keeps d = .ok r ∧ Sound r.conn ∧ PassEnded s.conn r.conn keeps d ∧
      r.snaxs = removeIdx id s.snaxs all.verts ∧ r.snaxedges = removeIdx id s.snaxedges all.edges ∧
      r.snaxsurfs = removeIdx id s.snaxsurfs all.surfs ∧ r.conn.verts.map Vert.index = removeIdx id (s.conn.verts.map Vert.index) all.verts ∧
      r.conn.edges.map Edge.index = removeIdx id (s.conn.edges.map Edge.index) all.edges ∧
      r.conn.surfs.map Surf.index = removeIdx id (s.conn.surfs.map Surf.index) all.surfs := by
  generalize hm : s.conn = m at hd short hk
  have hW : Sound (without m d) := hd.rest
  obtain ⟨D, D1, D2⟩ := collapsed_ok hd.unique keeps fun k h => (hk k h).2
  have hDe : ∀ k ∈ D, HasEdge m k ∧ k ∉ d.edges := fun k h => by
    obtain ⟨h1, x, hx, hi, _⟩ := (D2 k).1 h
    exact ⟨⟨x, hx, hi⟩, (hk k h1).1⟩
  obtain ⟨m1, a1, a2, a3, a4, a5⟩ := keepEdges D m hd.unique hW hDe short
  obtain ⟨A, A1, eo⟩ := edgesOff D (without m d) hW (fun x hx => short x (mem_removeIdx.1 hx).1) fun k h => hasEdge_without.2 (hDe k h)
  rw [a2] at A1
  cases A1
  have hmL : ∀ k, k ∈ emptySurfs m1 ↔ ∃ x ∈ m1.surfs, x.edgeind = [] ∧ x.index = k := fun k => by
    simp [emptySurfs, and_assoc]
  obtain ⟨m2, b1, b2, b3, b4, b5, b6⟩ := bareSurfs (d := d) (emptySurfs m1) m1 a3 eo.sound
    (fun k h => by obtain ⟨x, hx, _, h2⟩ := (hmL k).1 h; exact ⟨x, hx, h2⟩)
    (fun x hx hi => by
      obtain ⟨y, hy, h1, h2⟩ := (hmL _).1 hi
      rw [← inj_of_nodup a3.surfs hy hx h2]; exact h1)
  obtain ⟨B, B1, so⟩ := surfsOff ((emptySurfs m1).filter fun k => !d.surfs.contains k) (without m1 d) eo.sound (fun k h => by
    rw [List.mem_filter] at h
    obtain ⟨x, hx, _, h2⟩ := (hmL k).1 h.1
    exact hasSurf_without.2 ⟨⟨x, hx, h2⟩, by simpa using h.2⟩)
  rw [b2] at B1
  cases B1
  have hB := so.sound
  have c := a5.trans b6
  generalize hL : emptySurfs m1 = L at *
  have hnc : ∀ k, k ∈ noConnec m2 ↔ ∃ x ∈ m2.verts, x.edgeind = [] ∧ x.index = k := fun k => by
    simp [noConnec, and_assoc]
  generalize hall : (⟨sortUnique (d.verts ++ noConnec m2), sortUnique (d.edges ++ D), sortUnique (d.surfs ++ L), d.volus⟩ : Removals) = all
  have mv : ∀ k, k ∈ all.verts ↔ k ∈ d.verts ∨ k ∈ noConnec m2 := fun k => by rw [← hall]; simp [mem_sortUnique]
  have me : ∀ k, k ∈ all.edges ↔ k ∈ d.edges ∨ k ∈ D := fun k => by rw [← hall]; simp [mem_sortUnique]
  have ms : ∀ k, k ∈ all.surfs ↔ k ∈ d.surfs ∨ k ∈ L := fun k => by rw [← hall]; simp [mem_sortUnique]
  have mc : ∀ k, k ∈ all.volus ↔ k ∈ d.volus := fun k => by rw [← hall]
  have hXB : without (without m2 d) all = without m2 all :=
    without_without (fun a h => (mv a).2 (.inl h)) (fun a h => (me a).2 (.inl h)) (fun a h => (ms a).2 (.inl h)) (fun a h => (mc a).2 h)
  -- the vertices, edges and surfaces of the meshes
  have sL : ∀ k, HasSurf (without m d) k → (k ∈ L ↔ ∀ e, ¬ SurfEdge (without m1 d) k e) := by
    intro k hk'
    obtain ⟨x, hx, hxi⟩ := (eo.same.surfs k).2 hk'
    have hx' := mem_removeIdx.1 hx
    rw [hmL]
    constructor
    · rintro ⟨y, hy, h1, h2⟩ e ⟨z, hz, h3, h4⟩
      rw [inj_of_nodup a3.surfs (mem_removeIdx.1 hz).1 hy (h3.trans h2.symm), h1] at h4
      simp at h4
    · intro h
      exact ⟨x, hx'.1, List.eq_nil_iff_forall_not_mem.2 fun e he => h e ⟨x, hx, hxi, he⟩, hxi⟩
  have sV : ∀ k, HasVert (without m d) k → (k ∈ noConnec m2 ↔ ∀ e, ¬ VertEdge (without m2 d) k e) := by
    intro k hk'
    obtain ⟨x, hx, hxi⟩ := (so.same.verts k).2 ((eo.same.verts k).2 hk')
    have hx' := mem_removeIdx.1 hx
    rw [hnc]
    constructor
    · rintro ⟨y, hy, h1, h2⟩ e ⟨z, hz, h3, h4⟩
      rw [inj_of_nodup b3.verts (mem_removeIdx.1 hz).1 hy (h3.trans h2.symm), h1] at h4
      simp at h4
    · intro h
      exact ⟨x, hx'.1, List.eq_nil_iff_forall_not_mem.2 fun e he => h e ⟨x, hx, hxi, he⟩, hxi⟩
  have hX : Sound (without m2 all) := by
    rw [← hXB]
    refine remove_sound hB ?_ ?_ ?_ ?_
    · intro k hk'
      have h0 : HasVert m k := by
        rcases (mv k).1 hk' with h | h
        · exact hd.verts k h
        · obtain ⟨x, hx, _, h2⟩ := (hnc k).1 h
          exact (c.same.verts k).1 ⟨x, hx, h2⟩
      refine ⟨(hd.pos.verts k h0).ne', fun e he => ?_⟩
      have hBk := hB.noDangling.edgeVert e k he (hd.pos.verts k h0).ne'
      rcases (mv k).1 hk' with h | h
      · exact (hasVert_without.1 hBk).2 h
      · obtain ⟨y, hy, hyi, _⟩ := id he
        refine (sV k ((eo.same.verts k).1 ((so.same.verts k).1 hBk))).1 h e ((hB.sym.vertEdge k e hBk ⟨y, hy, hyi⟩).2 he)
    · intro k hk'
      have h0 : HasEdge m k := by
        rcases (me k).1 hk' with h | h
        · exact hd.edges k h
        · exact (hDe k h).1
      have hn0 := (hd.pos.edges k h0).ne'
      refine ⟨hn0, fun v hv => ?_, fun f hf => ?_⟩
      · rcases (me k).1 hk' with h | h
        · exact (hasEdge_without.1 (hB.noDangling.vertEdge v k hv hn0)).2 h
        · exact ((eo.vertEdge v k).1 ((so.vertEdge v k).1 hv)).2 h
      · rcases (me k).1 hk' with h | h
        · exact (hasEdge_without.1 (hB.noDangling.surfEdge f k hf)).2 h
        · exact ((eo.surfEdge f k).1 ((so.surfEdge f k).1 hf).1).2 h
    · intro k hk'
      have h0 : HasSurf m k := by
        rcases (ms k).1 hk' with h | h
        · exact hd.surfs k h
        · obtain ⟨x, hx, _, h2⟩ := (hmL k).1 h
          exact (a5.same.surfs k).1 ⟨x, hx, h2⟩
      have hn0 := (hd.pos.surfs k h0).ne'
      refine ⟨hn0, fun e he => ?_, fun w hw => ?_⟩
      · have h1 := (hasSurf_without.1 (hB.noDangling.edgeSurf e k he hn0)).2
        rcases (ms k).1 hk' with h | h
        · exact h1 h
        · exact ((so.edgeSurf e k).1 he).2 (List.mem_filter.2 ⟨h, by simpa using h1⟩)
      · have h1 := (hasSurf_without.1 (hB.noDangling.voluSurf w k hw hn0)).2
        rcases (ms k).1 hk' with h | h
        · exact h1 h
        · exact ((so.voluSurf w k).1 hw).2 (List.mem_filter.2 ⟨h, by simpa using h1⟩)
    · intro k hk'
      have hn0 := (hd.pos.volus k (hd.volus k ((mc k).1 hk'))).ne'
      exact ⟨hn0, fun f hf => (hasVolu_without.1 (hB.noDangling.surfVolu f k hf hn0)).2 ((mc k).1 hk')⟩
  have short2 : ∀ e ∈ m2.edges, e.vertind.length ≤ 2 := by rw [b4]; exact a4
  obtain ⟨m3, t1, t2, t3⟩ := tighten_without (d := all) short2
  obtain ⟨m5, u1, u2, u3⟩ := C19_tighten (without m2 all) fun e he => short2 e (mem_removeIdx.1 he).1
  rw [t2] at u1
  cases u1
  obtain ⟨q, q1⟩ := check_ok (m := m3) all.edges [] fun e he => by
    refine (t3.same.edges e).2 ((c.same.edges e).2 ?_)
    rcases (me e).1 he with h | h
    · exact hd.edges e h
    · exact (hDe e h).1
  have q1' : checkRemovalsEdge m3 all.edges = .ok q := q1
  refine ⟨⟨without m3 all, removeIdx id s.snaxs all.verts, removeIdx id s.snaxedges all.edges, removeIdx id s.snaxsurfs all.surfs⟩, all,
    ?_, sound_tightened hX u2, ?_, rfl, rfl, rfl, ?_, ?_, ?_⟩
  · unfold endPass
    rw [hm, D1]
    simp only [Except.bind]
    rw [a1]
    simp only
    rw [hL, b1]
    simp only
    rw [t1]
    simp only
    rw [show sortUnique (d.edges ++ D) = all.edges by rw [← hall], show sortUnique (d.verts ++ noConnec m2) = all.verts by rw [← hall],
      show sortUnique (d.surfs ++ L) = all.surfs by rw [← hall], q1']
    simp only
    rw [show (⟨all.verts, all.edges, all.surfs, d.volus⟩ : Removals) = all by rw [← hall], u3]
    rfl
  · have sl := sameLists_of_tightened u2
    have cc : ∀ e, e ∈ D ↔ Collapses m keeps e := D2
    -- the lists of the mesh before the last tightening
    have hE : ∀ e, HasEdge (without m2 all) e ↔ HasEdge m e ∧ e ∉ d.edges ∧ ¬ Collapses m keeps e := fun e => by
      rw [hasEdge_without, c.same.edges, me, not_or, cc]
    have hC : ∀ e, HasVolu (without m2 all) e ↔ HasVolu m e ∧ e ∉ d.volus := fun e => by
      rw [hasVolu_without, c.same.volus, mc]
    have hS : ∀ e, HasSurf (without m2 all) e ↔ HasSurf m e ∧ e ∉ d.surfs ∧ ∃ x, SurfEdge m e x ∧ ¬ Collapses m keeps x := fun f => by
      rw [hasSurf_without, c.same.surfs, ms, not_or]
      constructor
      · rintro ⟨h1, h2, h3⟩
        refine ⟨h1, h2, ?_⟩
        rw [sL f (hasSurf_without.2 ⟨h1, h2⟩)] at h3
        push Not at h3
        obtain ⟨e, he⟩ := h3
        have := (eo.surfEdge f e).1 he
        exact ⟨e, ((surfEdge_without _ _).1 this.1).1, fun h => this.2 ((cc e).2 h)⟩
      · rintro ⟨h1, h2, e, h3, h4⟩
        refine ⟨h1, h2, fun h => ?_⟩
        exact (sL f (hasSurf_without.2 ⟨h1, h2⟩)).1 h e ((eo.surfEdge f e).2 ⟨(surfEdge_without _ _).2 ⟨h3, h2⟩, fun h => h4 ((cc e).1 h)⟩)
    have hV : ∀ e, HasVert (without m2 all) e ↔ HasVert m e ∧ e ∉ d.verts ∧ ∃ x, VertEdge m e x ∧ ¬ Collapses m keeps x := fun f => by
      rw [hasVert_without, c.same.verts, mv, not_or]
      constructor
      · rintro ⟨h1, h2, h3⟩
        refine ⟨h1, h2, ?_⟩
        rw [sV f (hasVert_without.2 ⟨h1, h2⟩)] at h3
        push Not at h3
        obtain ⟨e, he⟩ := h3
        have := (eo.vertEdge f e).1 ((so.vertEdge f e).1 he)
        exact ⟨e, ((vertEdge_without _ _).1 this.1).1, fun h => this.2 ((cc e).2 h)⟩
      · rintro ⟨h1, h2, e, h3, h4⟩
        refine ⟨h1, h2, fun h => ?_⟩
        exact (sV f (hasVert_without.2 ⟨h1, h2⟩)).1 h e ((so.vertEdge f e).2 ((eo.vertEdge f e).2
          ⟨(vertEdge_without _ _).2 ⟨h3, h2⟩, fun h => h4 ((cc e).1 h)⟩))
    have nd := hX.noDangling
    have zo := hX.zeroOutside
    constructor
    · intro v; rw [sl.verts, hV]
    · intro e; rw [sl.edges, hE]
    · intro f; rw [sl.surfs, hS]
    · intro w; rw [sl.volus, hC]
    · intro v e
      rw [sl.vertEdge, sl.verts, sl.edges]
      constructor
      · intro h
        have h1 := (vertEdge_without v e).1 (hXB ▸ h)
        have h2 := (eo.vertEdge v e).1 ((so.vertEdge v e).1 h1.1)
        refine ⟨((vertEdge_without v e).1 h2.1).1, ?_, nd.vertEdge v e h fun h0 => zo.vertEdge v (h0 ▸ h)⟩
        obtain ⟨x, hx, hi, _⟩ := h
        exact ⟨x, hx, hi⟩
      · rintro ⟨h1, h2, h3⟩
        have g2 := hasVert_without.1 h2
        have g3 := (hE e).1 h3
        rw [← hXB]
        exact (vertEdge_without v e).2 ⟨(so.vertEdge v e).2 ((eo.vertEdge v e).2
          ⟨(vertEdge_without v e).2 ⟨h1, ((hV v).1 h2).2.1⟩, fun h => g3.2.2 ((cc e).1 h)⟩), g2.2⟩
    · intro e v
      rw [sl.edgeVert, sl.verts, sl.edges]
      constructor
      · intro h
        have h1 := (edgeVert_without e v).1 (hXB ▸ h)
        have h2 := (eo.edgeVert e v).1 ((so.edgeVert e v).1 h1.1)
        refine ⟨((edgeVert_without e v).1 h2.1).1, nd.edgeVert e v h fun h0 => zo.edgeVert e (h0 ▸ h), ?_⟩
        obtain ⟨x, hx, hi, _⟩ := h
        exact ⟨x, hx, hi⟩
      · rintro ⟨h1, h2, h3⟩
        have g2 := hasEdge_without.1 h3
        have g3 := (hE e).1 h3
        rw [← hXB]
        exact (edgeVert_without e v).2 ⟨(so.edgeVert e v).2 ((eo.edgeVert e v).2
          ⟨(edgeVert_without e v).2 ⟨h1, g3.2.1⟩, fun h => g3.2.2 ((cc e).1 h)⟩), g2.2⟩
    · intro e f
      rw [sl.edgeSurf, sl.surfs, sl.edges]
      constructor
      · intro h
        have h1 := (edgeSurf_without e f).1 (hXB ▸ h)
        have h2 := (eo.edgeSurf e f).1 ((so.edgeSurf e f).1 h1.1).1
        refine ⟨((edgeSurf_without e f).1 h2.1).1, ?_, ?_⟩
        · obtain ⟨x, hx, hi, _⟩ := h
          exact ⟨x, hx, hi⟩
        · by_cases h0 : f = 0
          · exact .inl h0
          · exact .inr (nd.edgeSurf e f h h0)
      · rintro ⟨h1, h2, h3⟩
        have g2 := hasEdge_without.1 h2
        have g3 := (hE e).1 h2
        rw [← hXB]
        refine (edgeSurf_without e f).2 ⟨(so.edgeSurf e f).2 ⟨(eo.edgeSurf e f).2
          ⟨(edgeSurf_without e f).2 ⟨h1, g3.2.1⟩, fun h => g3.2.2 ((cc e).1 h)⟩, ?_⟩, g2.2⟩
        intro h
        have hL' := (List.mem_filter.1 h).1
        rcases h3 with h3 | h3
        · obtain ⟨x, hx, _, h4⟩ := (hmL f).1 hL'
          have := hd.pos.surfs f ((a5.same.surfs f).1 ⟨x, hx, h4⟩)
          omega
        · exact (hasSurf_without.1 h3).2 ((ms f).2 (.inr hL'))
    · intro f e
      rw [sl.surfEdge, sl.surfs, sl.edges]
      constructor
      · intro h
        have h1 := (surfEdge_without f e).1 (hXB ▸ h)
        have h2 := (eo.surfEdge f e).1 ((so.surfEdge f e).1 h1.1).1
        refine ⟨((surfEdge_without f e).1 h2.1).1, nd.surfEdge f e h, ?_⟩
        obtain ⟨x, hx, hi, _⟩ := h
        exact ⟨x, hx, hi⟩
      · rintro ⟨h1, h2, h3⟩
        have g2 := hasSurf_without.1 h3
        have g3 := (hE e).1 h2
        rw [← hXB]
        refine (surfEdge_without f e).2 ⟨(so.surfEdge f e).2 ⟨(eo.surfEdge f e).2
          ⟨(surfEdge_without f e).2 ⟨h1, ((hS f).1 h3).2.1⟩, fun h => g3.2.2 ((cc e).1 h)⟩, ?_⟩, g2.2⟩
        intro h
        exact g2.2 ((ms f).2 (.inr (List.mem_filter.1 h).1))
    · intro f w
      rw [sl.surfVolu, sl.surfs, sl.volus]
      constructor
      · intro h
        have h1 := (surfVolu_without f w).1 (hXB ▸ h)
        have h2 := (eo.surfVolu f w).1 ((so.surfVolu f w).1 h1.1).1
        refine ⟨((surfVolu_without f w).1 h2).1, ?_, ?_⟩
        · obtain ⟨x, hx, hi, _⟩ := h
          exact ⟨x, hx, hi⟩
        · by_cases h0 : w = 0
          · exact .inl h0
          · exact .inr (nd.surfVolu f w h h0)
      · rintro ⟨h1, h2, h3⟩
        have g2 := hasSurf_without.1 h2
        rw [← hXB]
        refine (surfVolu_without f w).2 ⟨(so.surfVolu f w).2 ⟨(eo.surfVolu f w).2
          ((surfVolu_without f w).2 ⟨h1, ((hS f).1 h2).2.1⟩), ?_⟩, g2.2⟩
        intro h
        exact g2.2 ((ms f).2 (.inr (List.mem_filter.1 h).1))
    · intro w f
      rw [sl.voluSurf, sl.surfs, sl.volus]
      constructor
      · intro h
        have h1 := (voluSurf_without w f).1 (hXB ▸ h)
        have h2 := (eo.voluSurf w f).1 ((so.voluSurf w f).1 h1.1).1
        refine ⟨((voluSurf_without w f).1 h2).1, nd.voluSurf w f h fun h0 => zo.voluSurf w (h0 ▸ h), ?_⟩
        obtain ⟨x, hx, hi, _⟩ := h
        exact ⟨x, hx, hi⟩
      · rintro ⟨h1, h2, h3⟩
        have g2 := hasSurf_without.1 h2
        have g3 := hasVolu_without.1 h3
        rw [← hXB]
        refine (voluSurf_without w f).2 ⟨(so.voluSurf w f).2 ⟨(eo.voluSurf w f).2
          ((voluSurf_without w f).2 ⟨h1, ((hC w).1 h3).2⟩), ?_⟩, g3.2⟩
        intro h
        exact g2.2 ((ms f).2 (.inr (List.mem_filter.1 h).1))
    · intro x hx
      obtain ⟨y, hy, h1, h2⟩ := sl.ends x hx
      have hy' := mem_removeIdx.1 hy
      have hyD := fun h => hy'.2 ((me y.index).2 h)
      have hyB : y ∈ (without m1 d).edges := mem_removeIdx.2 ⟨b4 ▸ hy'.1, fun h => hyD (.inl h)⟩
      obtain ⟨z, hz, h3, h4⟩ := eo.pairs y hyB fun h => hyD (.inr h)
      exact ⟨z, (mem_removeIdx.1 hz).1, h3.trans h1, h4.trans h2⟩
    · intro x hx
      obtain ⟨y, hy, h1, h2⟩ := sl.coords x hx
      have hy' := mem_removeIdx.1 hy
      have hyd : y.index ∉ d.verts := fun h => hy'.2 ((mv y.index).2 (.inl h))
      have hyB : y ∈ (without m1 d).verts := mem_removeIdx.2 ⟨b5 ▸ hy'.1, hyd⟩
      obtain ⟨i, hi, he⟩ := List.getElem_of_mem hyB
      have l1 : (without m1 d).verts.length = (without m d).verts.length := by
        have := congrArg List.length eo.verts
        simpa using this
      have hi' : i < (without m d).verts.length := l1 ▸ hi
      refine ⟨(without m d).verts[i], (mem_removeIdx.1 (List.getElem_mem hi')).1, ?_, ?_⟩
      · have := congrArg (fun l => l[i]?) eo.verts
        simp only [List.getElem?_map, List.getElem?_eq_getElem hi, List.getElem?_eq_getElem hi', Option.map_some, Option.some.injEq] at this
        rw [← this, he, h1]
      · have := congrArg (fun l => l[i]?) eo.coords
        simp only [List.getElem?_map, List.getElem?_eq_getElem hi, List.getElem?_eq_getElem hi', Option.map_some, Option.some.injEq] at this
        rw [← this, he, h2]
  · show (removeIdx Vert.index m3.verts all.verts).map Vert.index = _
    rw [removeIdx_index, (c.trans t3).verts]
  · show (removeIdx Edge.index m3.edges all.edges).map Edge.index = _
    rw [removeIdx_index, (c.trans t3).edges]
  · show (removeIdx Surf.index m3.surfs all.surfs).map Surf.index = _
    rw [removeIdx_index, (c.trans t3).surfs]

end RSVS.EndPass
