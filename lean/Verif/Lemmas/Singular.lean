import Verif.Lemmas.Switch
import Verif.Spec.Singular

/-!
# Lemmas for the removal of degenerate elements
-/

namespace RSVS.Singular

open RSVS.Spec RSVS.Mesh RSVS.EndPass RSVS.Refine RSVS.Switch

/-! ### Detaching a surface or a volume among elements waiting to be removed -/

theorem surf_run' {m : Mesh} (hu : UniqueIndices m) {s : Int} {x : Surf} (hx : elemAt m.surfs (posOf Surf.index m.surfs s) = .ok x)
    (hs : HasSurf m s) (he : ∀ k ∈ x.edgeind, HasEdge m k) :
    m.removeSurf s = .ok { m with
      edges := m.edges.map fun e => if e.index ∈ x.edgeind then { e with surfind := eraseAll s e.surfind } else e
      surfs := m.surfs.map fun y => if y.index = s then { y with edgeind := [], voluind := [] } else y
      volus := m.volus.map fun c => if c.index ∈ x.voluind then { c with surfind := eraseAll s c.surfind } else c } := by
  unfold removeSurf
  simp only [hx]
  show (visit _ _ _ >>= fun edges => _) = _
  rw [visit_eq (ix := Edge.index) (by intro a; rfl) (by intro a; simp [eraseAll_eraseAll]) x.edgeind m.edges hu.edges rfl he]
  show (visitKnown _ _ _ >>= fun volus => _) = _
  rw [visitKnown_eq (ix := Volu.index) (by intro a; rfl) (by intro a; simp [eraseAll_eraseAll]) x.voluind m.volus hu.volus rfl]
  show (modAt _ _ _ >>= fun surfs => _) = _
  rw [modAt_posOf hu.surfs hs]
  rfl

/-- A list from which an index is erased when the holder is listed, if the others do not hold it. -/
theorem mem_erased {l : List Int} {s : Int} {P : Prop} [Decidable P] (h : s ∈ l → P) (e : Int) :
    e ∈ (if P then eraseAll s l else l) ↔ e ∈ l ∧ e ≠ s := by
  by_cases hP : P
  · rw [if_pos hP, mem_eraseAll]
  · rw [if_neg hP]
    exact ⟨fun he => ⟨he, fun h' => hP (h (h' ▸ he))⟩, And.left⟩

theorem erase_rel {α : Type} {ix : α → Int} {F : α → List Int} {f : α → α} {l : List α} {s a : Int} (hf : ∀ x, ix (f x) = ix x)
    (h : ∀ x ∈ l, ix x = a → ∀ e, e ∈ F (f x) ↔ e ∈ F x ∧ e ≠ s) (e : Int) :
    (∃ y ∈ l.map f, ix y = a ∧ e ∈ F y) ↔ (∃ x ∈ l, ix x = a ∧ e ∈ F x) ∧ e ≠ s := by
  constructor
  · rintro ⟨y, hy, h1, h2⟩
    obtain ⟨x, hx, rfl⟩ := List.mem_map.1 hy
    rw [hf] at h1
    obtain ⟨g1, g2⟩ := (h x hx h1 e).1 h2
    exact ⟨⟨x, hx, h1, g1⟩, g2⟩
  · rintro ⟨⟨x, hx, h1, g1⟩, g2⟩
    exact ⟨f x, List.mem_map_of_mem hx, (hf x).trans h1, (h x hx h1 e).2 ⟨g1, g2⟩⟩

theorem empty_rel {α : Type} {ix : α → Int} {F : α → List Int} {f : α → α} {l : List α} {s : Int} (hf : ∀ x, ix (f x) = ix x)
    (h1 : ∀ x, ix x = s → F (f x) = []) (h2 : ∀ x, ix x ≠ s → F (f x) = F x) (a e : Int) :
    (∃ y ∈ l.map f, ix y = a ∧ e ∈ F y) ↔ (∃ x ∈ l, ix x = a ∧ e ∈ F x) ∧ a ≠ s := by
  constructor
  · rintro ⟨y, hy, g1, g2⟩
    obtain ⟨x, hx, rfl⟩ := List.mem_map.1 hy
    rw [hf] at g1
    by_cases hx' : ix x = s
    · rw [h1 x hx'] at g2; simp at g2
    · exact ⟨⟨x, hx, g1, h2 x hx' ▸ g2⟩, g1 ▸ hx'⟩
  · rintro ⟨⟨x, hx, g1, g2⟩, g3⟩
    exact ⟨f x, List.mem_map_of_mem hx, (hf x).trans g1, by rwa [h2 x (g1 ▸ g3)]⟩

theorem surf_off {m : Mesh} {d : Removals} {s : Int} (hd : SoundWithout m d) (hs : HasSurf m s) (hsd : s ∉ d.surfs) :
    ∃ m', m.removeSurf s = .ok m' ∧ SoundWithout m' d ∧ EndPass.SameIdx m m' ∧ m'.verts = m.verts ∧
      m'.edges.map Edge.vertind = m.edges.map Edge.vertind ∧ (∀ e t, e ∉ d.edges → (EdgeSurf m' e t ↔ EdgeSurf m e t ∧ t ≠ s)) ∧
      m'.surfs = (m.surfs.map fun y => if y.index = s then { y with edgeind := [], voluind := [] } else y) ∧
      (d.volus = [] → m'.volus = m.volus.map fun c => { c with surfind := eraseAll s c.surfind }) := by
  obtain ⟨x, hx, hxm, hxi⟩ := elemAt_posOf_ok (ix := Surf.index) hs
  have hse : ∀ e, e ∈ x.edgeind ↔ SurfEdge m s e := fun e =>
    ⟨fun h => ⟨x, hxm, hxi, h⟩, fun ⟨y, hy, hi, h⟩ => inj_of_nodup hd.unique.surfs hy hxm (hi.trans hxi.symm) ▸ h⟩
  have hsc : ∀ e, e ∈ x.voluind ↔ SurfVolu m s e := fun e =>
    ⟨fun h => ⟨x, hxm, hxi, h⟩, fun ⟨y, hy, hi, h⟩ => inj_of_nodup hd.unique.surfs hy hxm (hi.trans hxi.symm) ▸ h⟩
  have hs0 : s ≠ 0 := by have := hd.pos.surfs s hs; omega
  have h1 := surf_run' hd.unique hx hs (fun k hk => by
    obtain ⟨y, hy, hi, -⟩ := ((rest_es hd k s).1 ⟨(hse k).1 hk, hsd⟩).1.1
    exact ⟨y, hy, hi⟩)
  have hidx : EndPass.SameIdx m { m with
      edges := m.edges.map fun e => if e.index ∈ x.edgeind then { e with surfind := eraseAll s e.surfind } else e
      surfs := m.surfs.map fun y => if y.index = s then { y with edgeind := [], voluind := [] } else y
      volus := m.volus.map fun c => if c.index ∈ x.voluind then { c with surfind := eraseAll s c.surfind } else c } :=
    ⟨rfl, map_idx (by intro a; split <;> rfl), map_idx (by intro a; split <;> rfl), map_idx (by intro a; split <;> rfl)⟩
  have hES : ∀ e t, e ∉ d.edges → (EdgeSurf { m with
      edges := m.edges.map fun e => if e.index ∈ x.edgeind then { e with surfind := eraseAll s e.surfind } else e
      surfs := m.surfs.map fun y => if y.index = s then { y with edgeind := [], voluind := [] } else y
      volus := m.volus.map fun c => if c.index ∈ x.voluind then { c with surfind := eraseAll s c.surfind } else c } e t ↔ EdgeSurf m e t ∧ t ≠ s) :=
    fun e t he => erase_rel (ix := Edge.index) (F := Edge.surfind) (by intro a; split <;> rfl) (by
      intro y hy hi t
      rw [show (if y.index ∈ x.edgeind then { y with surfind := eraseAll s y.surfind } else y).surfind =
        if y.index ∈ x.edgeind then eraseAll s y.surfind else y.surfind by split <;> rfl]
      apply mem_erased
      intro h
      rw [hse]
      exact ((rest_es hd y.index s).2 ⟨⟨⟨y, hy, rfl, h⟩, hi ▸ he⟩, hs0⟩).1) t
  have hCS : ∀ c t, c ∉ d.volus → (VoluSurf { m with
      edges := m.edges.map fun e => if e.index ∈ x.edgeind then { e with surfind := eraseAll s e.surfind } else e
      surfs := m.surfs.map fun y => if y.index = s then { y with edgeind := [], voluind := [] } else y
      volus := m.volus.map fun c => if c.index ∈ x.voluind then { c with surfind := eraseAll s c.surfind } else c } c t ↔ VoluSurf m c t ∧ t ≠ s) :=
    fun e t he => erase_rel (ix := Volu.index) (F := Volu.surfind) (by intro a; split <;> rfl) (by
      intro y hy hi t
      rw [show (if y.index ∈ x.voluind then { y with surfind := eraseAll s y.surfind } else y).surfind =
        if y.index ∈ x.voluind then eraseAll s y.surfind else y.surfind by split <;> rfl]
      apply mem_erased
      intro h
      rw [hsc]
      exact ((rest_sc hd s y.index).1 ⟨⟨y, hy, rfl, h⟩, hi ▸ he⟩).1.1) t
  have hSE : ∀ t e, SurfEdge { m with
      edges := m.edges.map fun e => if e.index ∈ x.edgeind then { e with surfind := eraseAll s e.surfind } else e
      surfs := m.surfs.map fun y => if y.index = s then { y with edgeind := [], voluind := [] } else y
      volus := m.volus.map fun c => if c.index ∈ x.voluind then { c with surfind := eraseAll s c.surfind } else c } t e ↔ SurfEdge m t e ∧ t ≠ s :=
    fun t e => empty_rel (ix := Surf.index) (F := Surf.edgeind) (by intro a; split <;> rfl) (by intro y hy; rw [if_pos hy]) (by intro y hy; rw [if_neg hy]) t e
  have hSC : ∀ t c, SurfVolu { m with
      edges := m.edges.map fun e => if e.index ∈ x.edgeind then { e with surfind := eraseAll s e.surfind } else e
      surfs := m.surfs.map fun y => if y.index = s then { y with edgeind := [], voluind := [] } else y
      volus := m.volus.map fun c => if c.index ∈ x.voluind then { c with surfind := eraseAll s c.surfind } else c } t c ↔ SurfVolu m t c ∧ t ≠ s :=
    fun t e => empty_rel (ix := Surf.index) (F := Surf.voluind) (by intro a; split <;> rfl) (by intro y hy; rw [if_pos hy]) (by intro y hy; rw [if_neg hy]) t e
  refine ⟨_, h1, ?_, hidx, rfl, ?_, hES, rfl, fun hv => ?_⟩
  · refine soundWithout_mk (unique_of_idx hidx hd.unique) (pos_of_same hidx.same hd.pos) (fun v hv => (hidx.same.verts v).2 (hd.verts v hv))
      (fun v hv => (hidx.same.edges v).2 (hd.edges v hv)) (fun v hv => (hidx.same.surfs v).2 (hd.surfs v hv)) (fun v hv => (hidx.same.volus v).2 (hd.volus v hv)) ?_ ?_ ?_
    · intro v e
      refine (rest_ve hd v e).trans (and_congr (Iff.symm ?_) Iff.rfl)
      exact same_rel (ix := Edge.index) (F := Edge.vertind) (by intro a; split <;> rfl) (by intro a; split <;> rfl) e v
    · intro e t
      rw [hSE]
      constructor
      · rintro ⟨⟨g1, g2⟩, g3⟩
        obtain ⟨⟨g4, g5⟩, g6⟩ := (rest_es hd e t).1 ⟨g1, g3⟩
        exact ⟨⟨(hES e t g5).2 ⟨g4, g2⟩, g5⟩, g6⟩
      · rintro ⟨⟨g1, g2⟩, g3⟩
        obtain ⟨g4, g5⟩ := (hES e t g2).1 g1
        obtain ⟨g6, g7⟩ := (rest_es hd e t).2 ⟨⟨g4, g2⟩, g3⟩
        exact ⟨⟨g6, g5⟩, g7⟩
    · intro t c
      rw [hSC]
      constructor
      · rintro ⟨g1, g2⟩
        obtain ⟨g3, g4⟩ := (hCS c t g2).1 g1
        obtain ⟨⟨g5, g6⟩, g7⟩ := (rest_sc hd t c).1 ⟨g3, g2⟩
        exact ⟨⟨⟨g5, g4⟩, g6⟩, g7⟩
      · rintro ⟨⟨⟨g1, g2⟩, g3⟩, g4⟩
        obtain ⟨g5, g6⟩ := (rest_sc hd t c).2 ⟨⟨g1, g3⟩, g4⟩
        exact ⟨(hCS c t g6).2 ⟨g5, g2⟩, g6⟩
  · rw [List.map_map]
    apply List.map_congr_left
    intro a _
    simp only [Function.comp]
    split <;> rfl
  · apply List.map_congr_left
    intro c hc
    split
    · rfl
    · rename_i hn
      rw [eraseAll_of_notMem]
      intro h
      exact hn ((hsc _).2 ((rest_sc hd s c.index).1 ⟨⟨c, hc, rfl, h⟩, by simp [hv]⟩).1.1)

theorem volu_off {m : Mesh} {d : Removals} {c : Int} (hd : SoundWithout m d) (hc : HasVolu m c) (hcd : c ∉ d.volus) :
    ∃ m', m.removeVolu c = .ok m' ∧ SoundWithout m' d ∧ EndPass.SameIdx m m' ∧ m'.verts = m.verts ∧ m'.edges = m.edges ∧
      (∃ g : Surf → Surf, m'.surfs = m.surfs.map g ∧ ∀ x, (g x).index = x.index ∧ (g x).edgeind = x.edgeind) ∧
      m'.volus = m.volus.map fun y => if y.index = c then { y with surfind := [] } else y := by
  have h0 : c ≠ 0 := by have := hd.pos.volus c hc; omega
  obtain ⟨x, hx, hxm, hxi⟩ := elemAt_posOf_ok (ix := Volu.index) hc
  have hcs : ∀ s, s ∈ x.surfind ↔ VoluSurf m c s := fun e =>
    ⟨fun h => ⟨x, hxm, hxi, h⟩, fun ⟨y, hy, hi, h⟩ => inj_of_nodup hd.unique.volus hy hxm (hi.trans hxi.symm) ▸ h⟩
  have h1 : m.removeVolu c = .ok { m with
      surfs := m.surfs.map fun s => if s.index ∈ x.surfind then { s with voluind := eraseVoluVal c s.voluind } else s
      volus := m.volus.map fun y => if y.index = c then { y with surfind := [] } else y } := by
    unfold removeVolu
    simp only [hx]
    show (List.foldlM (m := Except Fault) (removeVoluStep c) m.surfs _ >>= fun verts => _) = _
    rw [removeVolu_fold h0]
    rw [visit_eq (ix := Surf.index) (by intro a; rfl)
      (by intro a; simp [(eraseVoluVal_spec h0 _).2.2.2.1 (eraseVoluVal_spec h0 a.voluind).2.1])
      x.surfind m.surfs hd.unique.surfs rfl (by
        intro k hk
        obtain ⟨y, hy, hi, -⟩ := ((rest_sc hd k c).1 ⟨(hcs k).1 hk, hcd⟩).1.1
        exact ⟨y, hy, hi⟩)]
    show (modAt _ _ _ >>= fun edges => _) = _
    rw [modAt_posOf hd.unique.volus hc]
    rfl
  have hidx : EndPass.SameIdx m { m with
      surfs := m.surfs.map fun s => if s.index ∈ x.surfind then { s with voluind := eraseVoluVal c s.voluind } else s
      volus := m.volus.map fun y => if y.index = c then { y with surfind := [] } else y } :=
    ⟨rfl, rfl, map_idx (by intro a; split <;> rfl), map_idx (by intro a; split <;> rfl)⟩
  have hCS : ∀ b s, VoluSurf { m with
      surfs := m.surfs.map fun s => if s.index ∈ x.surfind then { s with voluind := eraseVoluVal c s.voluind } else s
      volus := m.volus.map fun y => if y.index = c then { y with surfind := [] } else y } b s ↔ VoluSurf m b s ∧ b ≠ c :=
    fun t e => empty_rel (ix := Volu.index) (F := Volu.surfind) (by intro a; split <;> rfl) (by intro y hy; rw [if_pos hy]) (by intro y hy; rw [if_neg hy]) t e
  have hSC : ∀ s b, s ∉ d.surfs → b ≠ 0 → (SurfVolu { m with
      surfs := m.surfs.map fun s => if s.index ∈ x.surfind then { s with voluind := eraseVoluVal c s.voluind } else s
      volus := m.volus.map fun y => if y.index = c then { y with surfind := [] } else y } s b ↔ SurfVolu m s b ∧ b ≠ c) := by
    intro s b hs hb
    have key : ∀ y ∈ m.surfs, y.index = s → (b ∈ (if y.index ∈ x.surfind then { y with voluind := eraseVoluVal c y.voluind } else y).voluind ↔ b ∈ y.voluind ∧ b ≠ c) := by
      intro y hy hi
      obtain ⟨-, k1, k2, -, -⟩ := eraseVoluVal_spec h0 y.voluind
      split
      · show b ∈ eraseVoluVal c y.voluind ↔ _
        constructor
        · intro h
          have : b ≠ c := fun h' => k1 (h' ▸ h)
          exact ⟨(k2 b hb this).1 h, this⟩
        · rintro ⟨g1, g2⟩; exact (k2 b hb g2).2 g1
      · rename_i hn
        refine ⟨fun h => ⟨h, ?_⟩, And.left⟩
        rintro rfl
        exact hn ((hcs _).2 ((rest_sc hd y.index b).2 ⟨⟨⟨y, hy, rfl, h⟩, hi ▸ hs⟩, h0⟩).1)
    constructor
    · rintro ⟨y, hy, g1, g2⟩
      obtain ⟨z, hz, rfl⟩ := List.mem_map.1 hy
      have g1' : z.index = s := by rw [← g1]; split <;> rfl
      obtain ⟨g3, g4⟩ := (key z hz g1').1 g2
      exact ⟨⟨z, hz, g1', g3⟩, g4⟩
    · rintro ⟨⟨z, hz, g1, g2⟩, g3⟩
      exact ⟨_, List.mem_map_of_mem hz, by split <;> exact g1, (key z hz g1).2 ⟨g2, g3⟩⟩
  refine ⟨_, h1, ?_, hidx, rfl, rfl, ⟨_, rfl, fun y => ⟨by split <;> rfl, by split <;> rfl⟩⟩, rfl⟩
  refine soundWithout_mk (unique_of_idx hidx hd.unique) (pos_of_same hidx.same hd.pos) (fun v hv => (hidx.same.verts v).2 (hd.verts v hv))
    (fun v hv => (hidx.same.edges v).2 (hd.edges v hv)) (fun v hv => (hidx.same.surfs v).2 (hd.surfs v hv)) (fun v hv => (hidx.same.volus v).2 (hd.volus v hv)) ?_ ?_ ?_
  · intro v e
    exact rest_ve hd v e
  · intro e t
    refine Iff.trans (and_congr ?_ Iff.rfl) (rest_es hd e t)
    exact same_rel (ix := Surf.index) (F := Surf.edgeind) (by intro a; split <;> rfl) (by intro a; split <;> rfl) t e
  · intro s b
    rw [hCS]
    constructor
    · rintro ⟨⟨g1, g2⟩, g3⟩
      obtain ⟨⟨g4, g5⟩, g6⟩ := (rest_sc hd s b).1 ⟨g1, g3⟩
      exact ⟨⟨(hSC s b g5 g6).2 ⟨g4, g2⟩, g5⟩, g6⟩
    · rintro ⟨⟨g1, g2⟩, g3⟩
      obtain ⟨g4, g5⟩ := (hSC s b g2 g3).1 g1
      obtain ⟨g6, g7⟩ := (rest_sc hd s b).2 ⟨⟨g4, g2⟩, g3⟩
      exact ⟨⟨g6, g5⟩, g7⟩

/-- Only which elements are named matters. -/
theorem soundWithout_congr {m : Mesh} {d d' : Removals} (hv : ∀ k, k ∈ d'.verts ↔ k ∈ d.verts) (he : ∀ k, k ∈ d'.edges ↔ k ∈ d.edges)
    (hs : ∀ k, k ∈ d'.surfs ↔ k ∈ d.surfs) (hc : ∀ k, k ∈ d'.volus ↔ k ∈ d.volus) (hd : SoundWithout m d) : SoundWithout m d' :=
  soundWithout_mk hd.unique hd.pos (fun k hk => hd.verts k ((hv k).1 hk)) (fun k hk => hd.edges k ((he k).1 hk)) (fun k hk => hd.surfs k ((hs k).1 hk))
    (fun k hk => hd.volus k ((hc k).1 hk)) (fun v e => by rw [hv, he]; exact rest_ve hd v e) (fun e s => by rw [hs, he]; exact rest_es hd e s)
    (fun s c => by rw [hs, hc]; exact rest_sc hd s c)

/-- Elements which list nothing can be removed as well. -/
theorem drop_bare {m : Mesh} {d d' : Removals} (hd : SoundWithout m d)
    (hv : ∀ k ∈ d'.verts, HasVert m k ∧ (k ∈ d.verts ∨ ∀ e, ¬ VertEdge m k e))
    (he : ∀ k ∈ d'.edges, HasEdge m k ∧ (k ∈ d.edges ∨ (∀ e, ¬ EdgeVert m k e) ∧ ∀ e, ¬ EdgeSurf m k e))
    (hs : ∀ k ∈ d'.surfs, HasSurf m k ∧ (k ∈ d.surfs ∨ (∀ e, ¬ SurfEdge m k e) ∧ ∀ e, ¬ SurfVolu m k e))
    (hc : ∀ k ∈ d'.volus, HasVolu m k ∧ (k ∈ d.volus ∨ ∀ e, ¬ VoluSurf m k e))
    (sv : ∀ k ∈ d.verts, k ∈ d'.verts) (se : ∀ k ∈ d.edges, k ∈ d'.edges) (ss : ∀ k ∈ d.surfs, k ∈ d'.surfs) (sc : ∀ k ∈ d.volus, k ∈ d'.volus) :
    SoundWithout m d' :=
  soundWithout_mk hd.unique hd.pos (fun k hk => (hv k hk).1) (fun k hk => (he k hk).1) (fun k hk => (hs k hk).1) (fun k hk => (hc k hk).1)
    (fun v e => by
      constructor
      · rintro ⟨g1, g2⟩
        obtain ⟨g3, g4⟩ := (rest_ve hd v e).1 ⟨g1, fun h => g2 (sv _ h)⟩
        exact ⟨g3, fun h => ((he e h).2.elim g4 fun g => g.1 v g3)⟩
      · rintro ⟨g1, g2⟩
        obtain ⟨g3, g4⟩ := (rest_ve hd v e).2 ⟨g1, fun h => g2 (se _ h)⟩
        exact ⟨g3, fun h => ((hv v h).2.elim g4 fun g => g e g3)⟩)
    (fun e s => by
      constructor
      · rintro ⟨g1, g2⟩
        obtain ⟨⟨g3, g4⟩, g5⟩ := (rest_es hd e s).1 ⟨g1, fun h => g2 (ss _ h)⟩
        exact ⟨⟨g3, fun h => ((he e h).2.elim g4 fun g => g.2 s g3)⟩, g5⟩
      · rintro ⟨⟨g1, g2⟩, g5⟩
        obtain ⟨g3, g4⟩ := (rest_es hd e s).2 ⟨⟨g1, fun h => g2 (se _ h)⟩, g5⟩
        exact ⟨g3, fun h => ((hs s h).2.elim g4 fun g => g.1 e g3)⟩)
    (fun s c => by
      constructor
      · rintro ⟨g1, g2⟩
        obtain ⟨⟨g3, g4⟩, g5⟩ := (rest_sc hd s c).1 ⟨g1, fun h => g2 (sc _ h)⟩
        exact ⟨⟨g3, fun h => ((hs s h).2.elim g4 fun g => g.2 c g3)⟩, g5⟩
      · rintro ⟨⟨g1, g2⟩, g5⟩
        obtain ⟨g3, g4⟩ := (rest_sc hd s c).2 ⟨⟨g1, fun h => g2 (ss _ h)⟩, g5⟩
        exact ⟨g3, fun h => ((hc c h).2.elim g4 fun g => g s g3)⟩)

theorem sound_without {m : Mesh} (hm : Sound m) : SoundWithout m ⟨[], [], [], []⟩ :=
  soundWithout_mk hm.unique hm.pos (by simp) (by simp) (by simp) (by simp)
    (fun v e => by simpa using FaceFan.sound_ve hm v e) (fun e f => by simpa using FaceFan.sound_es hm e f) (fun f c => by simpa using FaceFan.sound_sc hm f c)

/-! ### The loop over edges -/

theorem elem_of_drop {α : Type} {ix : α → Int} {l : List α} {i : Nat} {k : Int} {L : List Int} (h : (l.map ix).drop i = k :: L) :
    ∃ x, elemAt l (i : Int) = .ok x ∧ x ∈ l ∧ ix x = k ∧ (l.map ix).drop (i + 1) = L := by
  have hi : i < (l.map ix).length := by
    by_contra hn
    rw [List.drop_eq_nil_of_le (by omega)] at h
    cases h
  rw [List.drop_eq_getElem_cons hi] at h
  injection h with h1 h2
  have hi' : i < l.length := by simpa using hi
  refine ⟨l[i], ?_, List.getElem_mem hi', by simpa using h1, h2⟩
  unfold elemAt
  rw [if_neg (by omega)]
  simp [hi']

theorem edges_loop (P : Int → Bool) : ∀ (L : List Int) (m : Mesh) (rmv : List Int) (i : Nat), Sound m → (m.edges.map Edge.index).drop i = L →
    (∀ x ∈ m.edges, x.index ∈ L → ∃ a b, x.vertind = [a, b] ∧ (P x.index = true ↔ a = b)) →
    ∃ m', singularEdges m L.length rmv i = .ok (m', rmv ++ L.filter P) ∧ Sound m' ∧ EndPass.SameIdx m m' ∧ m'.volus = m.volus ∧
      m'.edges = (m.edges.map fun e => if e.index ∈ L.filter P then { e with vertind := [], surfind := [] } else e) ∧
      ∃ g : Surf → Surf, m'.surfs = m.surfs.map g ∧ ∀ x, (g x).index = x.index ∧ (g x).edgeind = x.edgeind.filter fun e => !(L.filter P).contains e
  | [], m, rmv, i, hm, _, _ => ⟨m, by simp [singularEdges], hm, ⟨rfl, rfl, rfl, rfl⟩, rfl, by simp, id, by simp, by simp⟩
  | k :: L, m, rmv, i, hm, hL, h2 => by
    obtain ⟨x, hx, hxm, hxi, hL'⟩ := elem_of_drop hL
    have hnd : (k :: L).Nodup := hL ▸ (hm.unique.edges.sublist (List.drop_sublist _ _))
    have hk : k ∉ L := (List.nodup_cons.1 hnd).1
    obtain ⟨a, b, hv, hP⟩ := h2 x hxm (by simp [hxi])
    show ∃ m', (elemAt m.edges (i : Int) >>= fun e => _) = _ ∧ _
    rw [hx]
    show ∃ m', (vecGet x.vertind 0 >>= fun v0 => vecGet x.vertind 1 >>= fun v1 => _) = _ ∧ _
    rw [hv]
    show ∃ m', (if a = b then _ else _) = _ ∧ _
    by_cases hab : a = b
    · rw [if_pos hab]
      have hPk : P k = true := hxi ▸ hP.2 hab
      have hd := edgeOff_detached m k
      have hs := sound_of_edgeDetached hm (edgeOff_unique hm.unique k) hd
      have hidx : EndPass.SameIdx m (edgeOff m k) := ⟨map_idx (by intro a; rfl), map_idx (by intro a; split <;> rfl), map_idx (by intro a; rfl), rfl⟩
      obtain ⟨m', g1, g2, g3, g4, g5, g, g6, g7⟩ := edges_loop P L (edgeOff m k) (rmv ++ [k]) (i + 1) hs (by rw [hidx.edges]; exact hL') (by
        intro y hy hyL
        obtain ⟨z, hz, rfl⟩ := List.mem_map.1 hy
        by_cases hzk : z.index = k
        · rw [if_pos hzk] at hyL
          exact absurd (hzk ▸ hyL) hk
        · rw [if_neg hzk] at hyL ⊢
          exact h2 z hz (by simp [hyL]))
      refine ⟨m', ?_, g2, hidx.trans g3, g4, ?_, fun s => g { s with edgeind := eraseAll k s.edgeind, isordered := s.isordered && !s.edgeind.contains k }, ?_, ?_⟩
      · rw [hxi]
        show (m.removeEdge k >>= fun m' => _) = _
        rw [removeEdge_eq hm ⟨x, hxm, hxi⟩]
        show singularEdges (edgeOff m k) L.length (rmv ++ [k]) (i + 1) = _
        rw [g1, List.filter_cons_of_pos hPk]
        simp
      · rw [g5]
        show (m.edges.map _).map _ = _
        rw [List.map_map]
        apply List.map_congr_left
        intro e _
        simp only [Function.comp]
        rw [List.filter_cons_of_pos hPk]
        by_cases he : e.index = k
        · have h1 : e.index ∈ k :: L.filter P := by rw [he]; exact List.mem_cons_self ..
          have h2 : e.index ∉ L.filter P := by rw [he]; exact fun h => hk (List.mem_filter.1 h).1
          rw [if_pos he, if_pos h1]
          exact if_neg h2
        · rw [if_neg he]
          by_cases he' : e.index ∈ L.filter P
          · rw [if_pos he', if_pos (List.mem_cons_of_mem _ he')]
          · rw [if_neg he', if_neg (by simp only [List.mem_cons, not_or]; exact ⟨he, he'⟩)]
      · rw [g6]
        show (m.surfs.map _).map _ = _
        rw [List.map_map]
        rfl
      · intro s
        refine ⟨(g7 _).1, ?_⟩
        rw [(g7 _).2]
        show (eraseAll k s.edgeind).filter _ = _
        rw [eraseAll_eq_filter, List.filter_filter, List.filter_cons_of_pos hPk]
        apply List.filter_congr
        intro e _
        by_cases he : e = k <;> simp [he]
    · rw [if_neg hab]
      have hPk : P k = false := by
        cases h : P k with
        | false => rfl
        | true => exact absurd (hP.1 (hxi.symm ▸ h)) hab
      obtain ⟨m', g1, g⟩ := edges_loop P L m rmv (i + 1) hm hL' (fun y hy hyL => h2 y hy (by simp [hyL]))
      rw [List.filter_cons_of_neg (by simp [hPk])]
      exact ⟨m', g1, g⟩

/-! ### The loop over surfaces -/

def pairs (m : Mesh) : List (Int × List Int) := m.edges.map fun e => (e.index, e.vertind)

theorem pairs_eq {m m' : Mesh} (h1 : m'.edges.map Edge.index = m.edges.map Edge.index) (h2 : m'.edges.map Edge.vertind = m.edges.map Edge.vertind) :
    pairs m' = pairs m := by
  unfold pairs
  rw [← List.zip_map', ← List.zip_map', h1, h2]

def SameEnds (p : List (Int × List Int)) (e e' : Int) : Prop := ∃ a b, (e, [a, b]) ∈ p ∧ ((e', [a, b]) ∈ p ∨ (e', [b, a]) ∈ p)

theorem sameEnds_trans {p : List (Int × List Int)} (hp : (p.map Prod.fst).Nodup) {a b c : Int} (h : SameEnds p a b) (g : SameEnds p b c) : SameEnds p a c := by
  obtain ⟨u, v, h1, h2⟩ := h
  obtain ⟨u', v', g1, g2⟩ := g
  rcases h2 with h2 | h2
  · have := List.inj_on_of_nodup_map hp h2 g1 rfl
    simp only [Prod.mk.injEq, List.cons.injEq, true_and, and_true] at this
    obtain ⟨rfl, rfl⟩ := this
    exact ⟨_, _, h1, g2⟩
  · have := List.inj_on_of_nodup_map hp h2 g1 rfl
    simp only [Prod.mk.injEq, List.cons.injEq, true_and, and_true] at this
    obtain ⟨rfl, rfl⟩ := this
    exact ⟨_, _, h1, g2.symm⟩

theorem pairs_nodup {m : Mesh} (hu : UniqueIndices m) : ((pairs m).map Prod.fst).Nodup := by
  unfold pairs
  rw [List.map_map]
  exact hu.edges

def Alike (p : List (Int × List Int)) (e e' : Int) : Prop := e = e' ∨ SameEnds p e e'

/-- The edges of the two sets are the same, up to edges with the same ends. -/
def Spans (p : List (Int × List Int)) (A B : Int → Prop) : Prop :=
  (∀ e, A e → ∃ e', B e' ∧ Alike p e e') ∧ ∀ e', B e' → ∃ e, A e ∧ Alike p e e'

theorem Spans.refl (p : List (Int × List Int)) (A : Int → Prop) : Spans p A A := ⟨fun e h => ⟨e, h, .inl rfl⟩, fun e h => ⟨e, h, .inl rfl⟩⟩

theorem alike_trans {p : List (Int × List Int)} (hp : (p.map Prod.fst).Nodup) {a b c : Int} (h : Alike p a b) (g : Alike p b c) : Alike p a c := by
  rcases h with rfl | h
  · exact g
  · rcases g with rfl | g
    · exact .inr h
    · exact .inr (sameEnds_trans hp h g)

theorem Spans.trans {p : List (Int × List Int)} (hp : (p.map Prod.fst).Nodup) {A B C : Int → Prop} (h : Spans p A B) (g : Spans p B C) : Spans p A C := by
  constructor
  · intro e he
    obtain ⟨e', h1, h2⟩ := h.1 e he
    obtain ⟨e'', h3, h4⟩ := g.1 e' h1
    exact ⟨e'', h3, alike_trans hp h2 h4⟩
  · intro e he
    obtain ⟨e', h1, h2⟩ := g.2 e he
    obtain ⟨e'', h3, h4⟩ := h.2 e' h1
    exact ⟨e'', h3, alike_trans hp h4 h2⟩

theorem Spans.congr {p : List (Int × List Int)} {A B C : Int → Prop} (h : Spans p A B) (g : ∀ e, C e ↔ B e) : Spans p A C := by
  have : C = B := funext fun e => propext (g e)
  rwa [this]

theorem surfEdge_map {m m' : Mesh} {g : Surf → Surf} (h : m'.surfs = m.surfs.map g) (s e : Int) (hg : ∀ x, (g x).index = x.index)
    (he : ∀ x ∈ m.surfs, x.index = s → (g x).edgeind = x.edgeind) : SurfEdge m' s e ↔ SurfEdge m s e := by
  constructor
  · rintro ⟨x, hx, hi, hx'⟩
    rw [h] at hx
    obtain ⟨y, hy, rfl⟩ := List.mem_map.1 hx
    rw [hg] at hi
    exact ⟨y, hy, hi, he y hy hi ▸ hx'⟩
  · rintro ⟨x, hx, hi, hx'⟩
    exact ⟨g x, h ▸ List.mem_map_of_mem hx, (hg x).trans hi, (he x hx hi).symm ▸ hx'⟩

/-- The part of a turn before the surface is detached. -/
def mergeTwo (m : Mesh) (rmv2 : List Int) (s : Surf) : Res (Mesh × List Int) :=
  match s.edgeind with
  | [a, b] => do
    let ea ← isearch Edge.index m.edges a
    let eb ← isearch Edge.index m.edges b
    let eq ← vertConnEq ea eb
    if eq = true ∧ b ≠ a then do
      let m' ← m.switchEdge b a
      pure (m', rmv2 ++ [b])
    else pure (m, rmv2)
  | _ => pure (m, rmv2)

theorem mergeTwo_ok {m : Mesh} {rmv2 : List Int} {x : Surf} (hd : SoundWithout m ⟨[], rmv2, [], []⟩) (hx : x ∈ m.surfs)
    (two : ∀ e ∈ m.edges, ∃ a b, e.vertind = [a, b]) (zero : ∀ e, e ∉ rmv2 → EdgeSurf m e 0 → m.volus = []) :
    ∃ m1 ex, mergeTwo m rmv2 x = .ok (m1, rmv2 ++ ex) ∧ SoundWithout m1 ⟨[], rmv2 ++ ex, [], []⟩ ∧ EndPass.SameIdx m m1 ∧ pairs m1 = pairs m ∧
      m1.volus = m.volus ∧ (∃ g : Surf → Surf, m1.surfs = m.surfs.map g ∧ ∀ x, (g x).index = x.index ∧ (g x).edgeind.length = x.edgeind.length ∧ (g x).voluind = x.voluind) ∧
      (∀ e, e ∉ rmv2 ++ ex → EdgeSurf m1 e 0 → m1.volus = []) ∧ (∀ e ∈ ex, ∃ e', e' ∉ rmv2 ++ ex ∧ SameEnds (pairs m) e e') ∧ ∀ s, Spans (pairs m) (SurfEdge m s) (SurfEdge m1 s) := by
  have triv : ∃ m1 ex, (.ok (m, rmv2) : Res (Mesh × List Int)) = .ok (m1, rmv2 ++ ex) ∧ SoundWithout m1 ⟨[], rmv2 ++ ex, [], []⟩ ∧ EndPass.SameIdx m m1 ∧ pairs m1 = pairs m ∧
      m1.volus = m.volus ∧ (∃ g : Surf → Surf, m1.surfs = m.surfs.map g ∧ ∀ x, (g x).index = x.index ∧ (g x).edgeind.length = x.edgeind.length ∧ (g x).voluind = x.voluind) ∧
      (∀ e, e ∉ rmv2 ++ ex → EdgeSurf m1 e 0 → m1.volus = []) ∧ (∀ e ∈ ex, ∃ e', e' ∉ rmv2 ++ ex ∧ SameEnds (pairs m) e e') ∧ ∀ s, Spans (pairs m) (SurfEdge m s) (SurfEdge m1 s) :=
    ⟨m, [], by simp, by simpa using hd, ⟨rfl, rfl, rfl, rfl⟩, rfl, rfl, ⟨id, by simp, by simp⟩, by simpa using zero, by simp, fun s => Spans.refl _ _⟩
  unfold mergeTwo
  split
  · rename_i a b hab
    have kept : ∀ e ∈ x.edgeind, HasEdge m e ∧ e ∉ rmv2 := fun e he => by
      obtain ⟨⟨y, hy, hi, -⟩, g⟩ := ((rest_es hd e x.index).1 ⟨⟨x, hx, rfl, he⟩, by simp⟩).1
      exact ⟨⟨y, hy, hi⟩, g⟩
    obtain ⟨ha, hna⟩ := kept a (by simp [hab])
    obtain ⟨hb, hnb⟩ := kept b (by simp [hab])
    obtain ⟨ea, ha1, ha2, ha3⟩ := elemAt_posOf_ok (ix := Edge.index) ha
    obtain ⟨eb, hb1, hb2, hb3⟩ := elemAt_posOf_ok (ix := Edge.index) hb
    obtain ⟨a0, a1, hav⟩ := two ea ha2
    obtain ⟨b0, b1, hbv⟩ := two eb hb2
    unfold isearch
    rw [ha1, hb1]
    have hv : vertConnEq ea eb = .ok ((a0 == b0 && a1 == b1) || (a1 == b0 && a0 == b1)) := by
      unfold vertConnEq
      rw [hav, hbv]
      rfl
    show ∃ m1 ex, (vertConnEq ea eb >>= fun eq => _) = _ ∧ _
    rw [hv]
    show ∃ m1 ex, (if ((a0 == b0 && a1 == b1) || (a1 == b0 && a0 == b1)) = true ∧ b ≠ a then _ else _) = _ ∧ _
    split
    · rename_i hc
      obtain ⟨hc1, hc2⟩ := hc
      have hc1' : (a0 = b0 ∧ a1 = b1) ∨ (a1 = b0 ∧ a0 = b1) := by simpa using hc1
      obtain ⟨m1, k1, k2, k3, k4, k5, k6, k7, -⟩ := edge_ok hd hc2 hb hnb ha hna (zero b hnb)
      have hS := k3.2 (fun v hv => by
        obtain ⟨y, hy, hi, hyv⟩ := hv
        rw [inj_of_nodup hd.unique.edges hy hb2 (hi.trans hb3.symm), hbv] at hyv
        refine ⟨ea, ha2, ha3, ?_⟩
        rw [hav]
        rcases hc1' with ⟨rfl, rfl⟩ | ⟨rfl, rfl⟩ <;> simp at hyv ⊢
        · exact hyv
        · exact hyv.symm)
      have hba : SameEnds (pairs m) b a := by
        refine ⟨b0, b1, List.mem_map.2 ⟨eb, hb2, by rw [hb3, hbv]⟩, ?_⟩
        have : (a, [a0, a1]) ∈ pairs m := List.mem_map.2 ⟨ea, ha2, by rw [ha3, hav]⟩
        rcases hc1' with ⟨rfl, rfl⟩ | ⟨rfl, rfl⟩
        · exact .inl this
        · exact .inr this
      refine ⟨m1, [b], ?_, ?_, k4, pairs_eq k4.edges k5, k6, k7, ?_, ?_, ?_⟩
      · show (m.switchEdge b a >>= fun m' => _) = _
        rw [k1]
        rfl
      · exact soundWithout_congr (by simp) (by intro k; simp [or_comm]) (by simp) (by simp) hS
      · intro e he h0
        rw [k6]
        simp only [List.mem_append, not_or] at he
        rcases (k2.edgeSurf e 0 he.1).1 h0 with h | ⟨-, h, -⟩
        · exact zero e he.1 h
        · exact absurd rfl h
      · intro e he
        rw [List.mem_singleton] at he
        subst he
        exact ⟨a, by simp only [List.mem_append, List.mem_singleton, not_or]; exact ⟨hna, hc2.symm⟩, hba⟩
      · intro s
        constructor
        · intro e he
          by_cases h : e = b
          · subst h
            exact ⟨a, (k2.surfEdge s a (by simp)).2 (.inr ⟨rfl, he⟩), .inr hba⟩
          · exact ⟨e, (k2.surfEdge s e (by simp)).2 (.inl ⟨he, h⟩), .inl rfl⟩
        · intro e he
          rcases (k2.surfEdge s e (by simp)).1 he with ⟨h, -⟩ | ⟨rfl, h⟩
          · exact ⟨e, h, .inl rfl⟩
          · exact ⟨b, h, .inr hba⟩
    · exact triv
  · exact triv

theorem singularSurfs_cons (m : Mesh) (n : Nat) (rmv rmv2 : List Int) (i : Nat) {x : Surf} (hx : elemAt m.surfs (i : Int) = .ok x) :
    singularSurfs m (n + 1) rmv rmv2 i = mergeTwo m rmv2 x >>= fun p =>
      if x.edgeind.length < 3 then p.1.removeSurf x.index >>= fun m2 => singularSurfs m2 n (rmv ++ [x.index]) p.2 (i + 1)
      else singularSurfs p.1 n rmv p.2 (i + 1) := by
  conv_lhs => rw [singularSurfs, hx]
  unfold mergeTwo
  show (match x.edgeind with | [a, b] => _ | _ => _) = _
  split
  · rename_i a b hab
    simp only [hab]
    cases isearch Edge.index m.edges a with
    | error f => rfl
    | ok ea =>
      cases isearch Edge.index m.edges b with
      | error f => rfl
      | ok eb =>
        cases hv : vertConnEq ea eb with
        | error f =>
          show (vertConnEq ea eb >>= fun eq => _) = (vertConnEq ea eb >>= fun eq => _) >>= _
          rw [hv]; rfl
        | ok eq =>
          show (vertConnEq ea eb >>= fun eq => _) = (vertConnEq ea eb >>= fun eq => _) >>= _
          rw [hv]
          show (if eq = true ∧ b ≠ a then _ else _) = (if eq = true ∧ b ≠ a then _ else _) >>= _
          split
          · cases m.switchEdge b a <;> rfl
          · rfl
  · rfl

theorem surfs_loop (len : Int → Nat) : ∀ (L : List Int) (m : Mesh) (rmv rmv2 : List Int) (i : Nat), SoundWithout m ⟨[], rmv2, [], []⟩ →
    (m.surfs.map Surf.index).drop i = L → (∀ x ∈ m.surfs, x.index ∈ L → x.edgeind.length = len x.index) →
    (∀ e ∈ m.edges, ∃ a b, e.vertind = [a, b]) → (∀ e, e ∉ rmv2 → EdgeSurf m e 0 → m.volus = []) →
    ∃ m' ks2, singularSurfs m L.length rmv rmv2 i = .ok (m', rmv ++ L.filter (fun k => decide (len k < 3)), rmv2 ++ ks2) ∧
      SoundWithout m' ⟨[], rmv2 ++ ks2, [], []⟩ ∧ EndPass.SameIdx m m' ∧ pairs m' = pairs m ∧
      m'.volus = (m.volus.map fun c => { c with surfind := c.surfind.filter fun s => !(L.filter (fun k => decide (len k < 3))).contains s }) ∧
      (∃ g : Surf → Surf, m'.surfs = m.surfs.map g ∧ ∀ x, (g x).index = x.index ∧
        (x.index ∈ L.filter (fun k => decide (len k < 3)) ∨ (x.edgeind = [] ∧ x.voluind = []) → (g x).edgeind = [] ∧ (g x).voluind = []) ∧
        (x.index ∉ L.filter (fun k => decide (len k < 3)) → (g x).edgeind.length = x.edgeind.length)) ∧
      (∀ e ∈ ks2, ∃ e', e' ∉ rmv2 ++ ks2 ∧ SameEnds (pairs m) e e') ∧
      ∀ s, s ∉ L.filter (fun k => decide (len k < 3)) → Spans (pairs m) (SurfEdge m s) (SurfEdge m' s)
  | [], m, rmv, rmv2, i, hd, _, _, _, _ =>
    ⟨m, [], by simp [singularSurfs], by simpa using hd, ⟨rfl, rfl, rfl, rfl⟩, rfl, by simp, ⟨id, by simp, by simp⟩, by simp, fun s _ => Spans.refl _ _⟩
  | k :: L, m, rmv, rmv2, i, hd, hL, hlen, two, zero => by
    obtain ⟨x, hx, hxm, hxi, hL'⟩ := elem_of_drop hL
    have hnd : (k :: L).Nodup := hL ▸ (hd.unique.surfs.sublist (List.drop_sublist _ _))
    have hk : k ∉ L := (List.nodup_cons.1 hnd).1
    have hxl : x.edgeind.length = len k := hxi ▸ hlen x hxm (by simp [hxi])
    obtain ⟨m1, ex, a1, a2, a3, a4, a5, ⟨g, a6, a7⟩, a8, a9, a10⟩ := mergeTwo_ok hd hxm two zero
    have two_of : ∀ m' : Mesh, pairs m' = pairs m → ∀ e ∈ m'.edges, ∃ a b, e.vertind = [a, b] := by
      intro m' hp e he
      have : (e.index, e.vertind) ∈ pairs m := hp ▸ List.mem_map.2 ⟨e, he, rfl⟩
      obtain ⟨y, hy, hye⟩ := List.mem_map.1 this
      obtain ⟨a, b, h⟩ := two y hy
      injection hye with _ h2
      exact ⟨a, b, h2 ▸ h⟩
    have reps : ∀ ks2 : List Int, (∀ e ∈ ks2, ∃ e', e' ∉ rmv2 ++ ex ++ ks2 ∧ SameEnds (pairs m) e e') →
        ∀ e ∈ ex ++ ks2, ∃ e', e' ∉ rmv2 ++ (ex ++ ks2) ∧ SameEnds (pairs m) e e' := by
      intro ks2 h e he
      rw [← List.append_assoc]
      rcases List.mem_append.1 he with he | he
      · obtain ⟨e', h1, h2⟩ := a9 e he
        by_cases h3 : e' ∈ ks2
        · obtain ⟨e'', h4, h5⟩ := h e' h3
          exact ⟨e'', h4, sameEnds_trans (pairs_nodup hd.unique) h2 h5⟩
        · exact ⟨e', by rw [List.mem_append, not_or]; exact ⟨h1, h3⟩, h2⟩
      · exact h e he
    rw [List.length_cons, singularSurfs_cons m L.length rmv rmv2 i hx, a1]
    show ∃ m' ks2, (if x.edgeind.length < 3 then m1.removeSurf x.index >>= fun m2 => singularSurfs m2 L.length (rmv ++ [x.index]) (rmv2 ++ ex) (i + 1)
      else singularSurfs m1 L.length rmv (rmv2 ++ ex) (i + 1)) = _ ∧ _
    have idx1 : m1.surfs.map Surf.index = m.surfs.map Surf.index := a3.surfs
    by_cases h3 : len k < 3
    · rw [if_pos (by omega), hxi]
      obtain ⟨m2, b1, b2, b3, b4, b5, b6, b7, b8⟩ := surf_off a2 ((a3.same.surfs k).2 ⟨x, hxm, hxi⟩) (by simp)
      rw [b1]
      have hp2 : pairs m2 = pairs m := (pairs_eq b3.edges b5).trans a4
      have b8' := b8 rfl
      obtain ⟨m', ks2, c1, c2, c3, c4, c5, ⟨g', c6, c7⟩, c8, c9⟩ := surfs_loop len L m2 (rmv ++ [k]) (rmv2 ++ ex) (i + 1) b2 (by rw [b3.surfs, idx1]; exact hL') (by
        intro y hy hyL
        rw [b7, a6, List.map_map] at hy
        obtain ⟨z, hz, rfl⟩ := List.mem_map.1 hy
        simp only [Function.comp] at hyL ⊢
        by_cases hzk : (g z).index = k
        · rw [if_pos hzk] at hyL
          exact absurd (hzk ▸ hyL) hk
        · rw [if_neg hzk] at hyL ⊢
          rw [(a7 z).2.1, (a7 z).1]
          rw [(a7 z).1] at hyL
          exact hlen z hz (by simp [hyL])) (two_of m2 hp2) (by
        intro e he h0
        have h1 := ((b6 e 0 he).1 h0).1
        rw [b8', a8 e he h1]
        rfl)
      refine ⟨m', ex ++ ks2, ?_, ?_, (a3.trans b3).trans c3, c4.trans hp2, ?_, ⟨fun s => g' (if (g s).index = k then { g s with edgeind := [], voluind := [] } else g s), ?_, ?_⟩, ?_, ?_⟩
      · show singularSurfs m2 L.length (rmv ++ [k]) (rmv2 ++ ex) (i + 1) = _
        rw [c1, List.filter_cons_of_pos (by simpa using h3)]
        simp
      · rw [← List.append_assoc]; exact c2
      · rw [c5, b8', a5, List.map_map, List.filter_cons_of_pos (by simpa using h3)]
        apply List.map_congr_left
        intro c _
        simp only [Function.comp]
        rw [eraseAll_eq_filter, List.filter_filter]
        congr 1
        apply List.filter_congr
        intro s _
        by_cases hs : s = k <;> simp [hs]
      · rw [c6, b7, a6, List.map_map, List.map_map]
        rfl
      · intro s
        rw [List.filter_cons_of_pos (by simpa using h3)]
        refine ⟨?_, ?_, ?_⟩
        · rw [(c7 _).1]; split <;> exact (a7 s).1
        · intro hs
          apply (c7 _).2.1
          by_cases hk' : (g s).index = k
          · right
            rw [if_pos hk']
            exact ⟨rfl, rfl⟩
          · rw [if_neg hk']
            rw [(a7 s).1] at hk' ⊢
            rcases hs with hs | ⟨hs1, hs2⟩
            · left
              rcases List.mem_cons.1 hs with h | h
              · exact absurd h hk'
              · exact h
            · right
              refine ⟨List.eq_nil_of_length_eq_zero ?_, ?_⟩
              · rw [(a7 s).2.1, hs1]; rfl
              · rw [(a7 s).2.2, hs2]
        · intro hs
          simp only [List.mem_cons, not_or] at hs
          have hk' : (g s).index ≠ k := by rw [(a7 s).1]; exact hs.1
          show (g' (if (g s).index = k then _ else g s)).edgeind.length = _
          rw [if_neg hk', (c7 _).2.2 (by rw [(a7 s).1]; exact hs.2)]
          exact (a7 s).2.1
      · exact reps ks2 (fun e he => by rw [← hp2]; exact c8 e he)
      · intro s hs
        rw [List.filter_cons_of_pos (by simpa using h3), List.mem_cons, not_or] at hs
        refine (a10 s).trans (pairs_nodup hd.unique) (Spans.trans (pairs_nodup hd.unique) ((Spans.refl _ _).congr fun e => ?_) (hp2 ▸ c9 s hs.2))
        exact surfEdge_map b7 s e (by intro x; split <;> rfl) (by intro x _ hx; rw [if_neg (by rw [hx]; exact hs.1)])
    · rw [if_neg (by omega)]
      obtain ⟨m', ks2, c1, c2, c3, c4, c5, ⟨g', c6, c7⟩, c8, c9⟩ := surfs_loop len L m1 rmv (rmv2 ++ ex) (i + 1) a2 (by rw [idx1]; exact hL') (by
        intro y hy hyL
        rw [a6] at hy
        obtain ⟨z, hz, rfl⟩ := List.mem_map.1 hy
        rw [(a7 z).2.1, (a7 z).1]
        rw [(a7 z).1] at hyL
        exact hlen z hz (by simp [hyL])) (two_of m1 a4) a8
      refine ⟨m', ex ++ ks2, ?_, ?_, a3.trans c3, c4.trans a4, ?_, ⟨fun s => g' (g s), ?_, ?_⟩, ?_, ?_⟩
      · rw [c1, List.filter_cons_of_neg (by simpa using h3)]
        simp
      · rw [← List.append_assoc]; exact c2
      · rw [c5, a5, List.filter_cons_of_neg (by simpa using h3)]
      · rw [c6, a6, List.map_map]
        rfl
      · intro s
        rw [List.filter_cons_of_neg (by simpa using h3)]
        refine ⟨by rw [(c7 _).1, (a7 s).1], ?_, ?_⟩
        · intro hs
          apply (c7 _).2.1
          rw [(a7 s).1]
          refine hs.imp id ?_
          rintro ⟨hs1, hs2⟩
          refine ⟨List.eq_nil_of_length_eq_zero ?_, ?_⟩
          · rw [(a7 s).2.1, hs1]; rfl
          · rw [(a7 s).2.2, hs2]
        · intro hs
          rw [(c7 _).2.2 (by rw [(a7 s).1]; exact hs), (a7 s).2.1]
      · exact reps ks2 (fun e he => by rw [← a4]; exact c8 e he)
      · intro s hs
        rw [List.filter_cons_of_neg (by simpa using h3)] at hs
        exact (a10 s).trans (pairs_nodup hd.unique) (a4 ▸ c9 s hs)

/-! ### The loop over volumes -/

def SameOutline (m m' : Mesh) (s s' : Int) : Prop := ∀ e, SurfEdge m' s' e ↔ SurfEdge m s e

/-- Each surface which is not to be removed has one with the same edges afterwards; each volume but those of `ks` has surfaces with the same
edges. -/
structure Carried (m m' : Mesh) (ks rm rm' : List Int) : Prop where
  surfs : ∀ s, HasSurf m s → s ∉ rm → ∃ s', HasSurf m' s' ∧ s' ∉ rm' ∧ SameOutline m m' s s'
  there : ∀ c, c ∉ ks → ∀ s, VoluSurf m c s → ∃ s', VoluSurf m' c s' ∧ SameOutline m m' s s'
  back : ∀ c, c ∉ ks → ∀ s', VoluSurf m' c s' → ∃ s, VoluSurf m c s ∧ SameOutline m m' s s'

theorem Carried.refl (m : Mesh) (ks rm : List Int) : Carried m m ks rm rm :=
  ⟨fun s h h' => ⟨s, h, h', fun _ => Iff.rfl⟩, fun _ _ s h => ⟨s, h, fun _ => Iff.rfl⟩, fun _ _ s h => ⟨s, h, fun _ => Iff.rfl⟩⟩

theorem Carried.trans {m m' m'' : Mesh} {ks rm rm' rm'' : List Int} (h : Carried m m' ks rm rm') (g : Carried m' m'' ks rm' rm'') :
    Carried m m'' ks rm rm'' := by
  refine ⟨fun s h1 h2 => ?_, fun c hc s hs => ?_, fun c hc s hs => ?_⟩
  · obtain ⟨s', a1, a2, a3⟩ := h.surfs s h1 h2
    obtain ⟨s'', b1, b2, b3⟩ := g.surfs s' a1 a2
    exact ⟨s'', b1, b2, fun e => (b3 e).trans (a3 e)⟩
  · obtain ⟨s', a1, a3⟩ := h.there c hc s hs
    obtain ⟨s'', b1, b3⟩ := g.there c hc s' a1
    exact ⟨s'', b1, fun e => (b3 e).trans (a3 e)⟩
  · obtain ⟨s', a1, a3⟩ := g.back c hc s hs
    obtain ⟨s'', b1, b3⟩ := h.back c hc s' a1
    exact ⟨s'', b1, fun e => (a3 e).trans (b3 e)⟩

theorem Carried.mono {m m' : Mesh} {ks ks' rm rm' : List Int} (h : Carried m m' ks rm rm') (hk : ∀ k ∈ ks, k ∈ ks') : Carried m m' ks' rm rm' :=
  ⟨h.surfs, fun c hc => h.there c fun h' => hc (hk c h'), fun c hc => h.back c fun h' => hc (hk c h')⟩

theorem carried_off {m m' : Mesh} {k : Int} {rm : List Int} (hs : EndPass.SameIdx m m') (h : ∃ g : Surf → Surf, m'.surfs = m.surfs.map g ∧ ∀ x, (g x).index = x.index ∧ (g x).edgeind = x.edgeind)
    (hv : m'.volus = m.volus.map fun y => if y.index = k then { y with surfind := [] } else y) : Carried m m' [k] rm rm := by
  obtain ⟨g, h1, h2⟩ := h
  have hse : ∀ s, SameOutline m m' s s := fun s e => surfEdge_map h1 s e (fun x => (h2 x).1) (fun x _ _ => (h2 x).2)
  have hvs : ∀ c s, c ≠ k → (VoluSurf m' c s ↔ VoluSurf m c s) := by
    intro c s hc
    constructor
    · rintro ⟨x, hx, hi, hx'⟩
      rw [hv] at hx
      obtain ⟨y, hy, rfl⟩ := List.mem_map.1 hx
      by_cases hk : y.index = k
      · rw [if_pos hk] at hx'; simp at hx'
      · rw [if_neg hk] at hi hx'
        exact ⟨y, hy, hi, hx'⟩
    · rintro ⟨x, hx, hi, hx'⟩
      have hk : x.index ≠ k := by rw [hi]; exact hc
      exact ⟨x, hv ▸ List.mem_map.2 ⟨x, hx, if_neg hk⟩, hi, hx'⟩
  refine ⟨fun s g1 g2 => ⟨s, (hs.same.surfs s).2 g1, g2, hse s⟩, fun c hc s g1 => ⟨s, (hvs c s (by simpa using hc)).2 g1, hse s⟩,
    fun c hc s g1 => ⟨s, (hvs c s (by simpa using hc)).1 g1, hse s⟩⟩

/-- The part of a turn before the volume is detached. -/
def mergeFaces (m : Mesh) (ve : Bool) (rmv2 : List Int) (c : Volu) : Res (Mesh × List Int) :=
  match c.surfind with
  | [a, b] => do
    let sa ← isearch Surf.index m.surfs a
    let sb ← isearch Surf.index m.surfs b
    if a ≠ b ∧ edgeConnEq sa sb = true then do
      let m' ← m.switchSurf b a
      pure (m', rmv2 ++ [b])
    else pure (m, rmv2)
  | _ => if c.surfind.length = 3 ∧ ve = true then .error .throws else pure (m, rmv2)

theorem singularVolus_cons (m : Mesh) (ve : Bool) (n : Nat) (rmv rmv2 : List Int) (i : Nat) {x : Volu} (hx : elemAt m.volus (i : Int) = .ok x) :
    singularVolus m ve (n + 1) rmv rmv2 i = mergeFaces m ve rmv2 x >>= fun p =>
      if x.surfind.length < 4 then p.1.removeVolu x.index >>= fun m2 => singularVolus m2 ve n (rmv ++ [x.index]) p.2 (i + 1)
      else singularVolus p.1 ve n rmv p.2 (i + 1) := by
  conv_lhs => rw [singularVolus, hx]
  unfold mergeFaces
  show (match x.surfind with | [a, b] => _ | _ => _) = _
  split
  · rename_i a b hab
    simp only [hab]
    cases isearch Surf.index m.surfs a with
    | error f => rfl
    | ok sa =>
      cases isearch Surf.index m.surfs b with
      | error f => rfl
      | ok sb =>
        show (if a ≠ b ∧ edgeConnEq sa sb = true then _ else _) = (if a ≠ b ∧ edgeConnEq sa sb = true then _ else _) >>= _
        split
        · cases m.switchSurf b a <;> rfl
        · rfl
  · show (if x.surfind.length = 3 ∧ ve = true then _ else _) = (if x.surfind.length = 3 ∧ ve = true then _ else _) >>= _
    split <;> rfl

theorem mergeFaces_ok {m : Mesh} {ve : Bool} {rmv2 : List Int} {x : Volu} (hd : SoundWithout m ⟨[], [], rmv2, []⟩) (hx : x ∈ m.volus)
    (h3 : ¬ (ve = true ∧ x.surfind.length = 3)) :
    ∃ m1 ex, mergeFaces m ve rmv2 x = .ok (m1, rmv2 ++ ex) ∧ SoundWithout m1 ⟨[], [], rmv2 ++ ex, []⟩ ∧ EndPass.SameIdx m m1 ∧ pairs m1 = pairs m ∧
      (∃ g : Surf → Surf, m1.surfs = m.surfs.map g ∧ ∀ x, (g x).index = x.index ∧ x.edgeind.length ≤ (g x).edgeind.length) ∧
      (∃ g : Volu → Volu, m1.volus = m.volus.map g ∧ ∀ x, (g x).index = x.index ∧ (g x).surfind.length = x.surfind.length) ∧
      Carried m m1 [] rmv2 (rmv2 ++ ex) := by
  have triv : ∃ m1 ex, (.ok (m, rmv2) : Res (Mesh × List Int)) = .ok (m1, rmv2 ++ ex) ∧ SoundWithout m1 ⟨[], [], rmv2 ++ ex, []⟩ ∧ EndPass.SameIdx m m1 ∧ pairs m1 = pairs m ∧
      (∃ g : Surf → Surf, m1.surfs = m.surfs.map g ∧ ∀ x, (g x).index = x.index ∧ x.edgeind.length ≤ (g x).edgeind.length) ∧
      (∃ g : Volu → Volu, m1.volus = m.volus.map g ∧ ∀ x, (g x).index = x.index ∧ (g x).surfind.length = x.surfind.length) ∧
      Carried m m1 [] rmv2 (rmv2 ++ ex) :=
    ⟨m, [], by simp, by simpa using hd, ⟨rfl, rfl, rfl, rfl⟩, rfl, ⟨id, by simp, by simp⟩, ⟨id, by simp, by simp⟩, by simpa using Carried.refl m [] rmv2⟩
  unfold mergeFaces
  split
  · rename_i a b hab
    have kept : ∀ e ∈ x.surfind, HasSurf m e ∧ e ∉ rmv2 := fun e he => by
      obtain ⟨⟨y, hy, hi, -⟩, g⟩ := ((rest_sc hd e x.index).1 ⟨⟨x, hx, rfl, he⟩, by simp⟩).1
      exact ⟨⟨y, hy, hi⟩, g⟩
    obtain ⟨ha, hna⟩ := kept a (by simp [hab])
    obtain ⟨hb, hnb⟩ := kept b (by simp [hab])
    obtain ⟨ea, ha1, ha2, ha3⟩ := elemAt_posOf_ok (ix := Surf.index) ha
    obtain ⟨eb, hb1, hb2, hb3⟩ := elemAt_posOf_ok (ix := Surf.index) hb
    unfold isearch
    rw [ha1, hb1]
    show ∃ m1 ex, (if a ≠ b ∧ edgeConnEq ea eb = true then _ else _) = _ ∧ _
    split
    · rename_i hc
      obtain ⟨m1, k1, k2, k3, k4, k5, k6, k7, k8⟩ := surf_ok hd (Ne.symm hc.1) hb hnb ha hna
      refine ⟨m1, [b], ?_, ?_, k4, pairs_eq k4.edges k6, k7, k8, ?_⟩
      · show (m.switchSurf b a >>= fun m' => _) = _
        rw [k1]
        rfl
      · exact soundWithout_congr (by simp) (by simp) (by intro k; simp [or_comm]) (by simp) k3
      · have hea : ∀ e, SurfEdge m a e ↔ e ∈ ea.edgeind := fun e =>
          ⟨fun ⟨y, hy, hi, h⟩ => inj_of_nodup hd.unique.surfs hy ha2 (hi.trans ha3.symm) ▸ h, fun h => ⟨ea, ha2, ha3, h⟩⟩
        have heb : ∀ e, SurfEdge m b e ↔ e ∈ eb.edgeind := fun e =>
          ⟨fun ⟨y, hy, hi, h⟩ => inj_of_nodup hd.unique.surfs hy hb2 (hi.trans hb3.symm) ▸ h, fun h => ⟨eb, hb2, hb3, h⟩⟩
        have heq : ∀ e, SurfEdge m a e ↔ SurfEdge m b e := by
          intro e
          rw [hea, heb]
          have h := hc.2
          unfold edgeConnEq at h
          simp only [Bool.and_eq_true, List.all_eq_true, List.contains_iff_mem] at h
          exact ⟨h.1 e, h.2 e⟩
        have hself : ∀ s, s ∉ rmv2 → SameOutline m m1 s s := by
          intro s hs e
          rw [k2.surfEdge s e hs]
          constructor
          · rintro (h | ⟨rfl, h⟩)
            · exact h
            · exact (heq e).2 h
          · exact .inl
        have hrep : SameOutline m m1 b a := fun e => (hself a hna e).trans (heq e)
        have hlive : ∀ c s, VoluSurf m c s → s ∉ rmv2 := fun c s h => ((rest_sc hd s c).1 ⟨h, by simp⟩).1.2
        refine ⟨fun s h1 h2 => ?_, fun c _ s hs => ?_, fun c _ s hs => ?_⟩
        · by_cases h : s = b
          · subst h
            exact ⟨a, (k4.same.surfs a).2 ha, by simp only [List.mem_append, List.mem_singleton, not_or]; exact ⟨hna, hc.1⟩, hrep⟩
          · exact ⟨s, (k4.same.surfs s).2 h1, by simp only [List.mem_append, List.mem_singleton, not_or]; exact ⟨h2, h⟩, hself s h2⟩
        · by_cases h : s = b
          · subst h
            exact ⟨a, (k2.voluSurf c a (by simp)).2 (.inr ⟨rfl, hs⟩), hrep⟩
          · exact ⟨s, (k2.voluSurf c s (by simp)).2 (.inl ⟨hs, h⟩), hself s (hlive c s hs)⟩
        · rcases (k2.voluSurf c s (by simp)).1 hs with ⟨h, -⟩ | ⟨rfl, h⟩
          · exact ⟨s, h, hself s (hlive c s h)⟩
          · exact ⟨b, h, hrep⟩
    · exact triv
  · rw [if_neg (fun h => h3 ⟨h.2, h.1⟩)]
    exact triv

theorem mergeFaces_void {m : Mesh} {rmv2 : List Int} {x : Volu} (h3 : x.surfind.length = 3) : mergeFaces m true rmv2 x = .error .throws := by
  unfold mergeFaces
  split
  · rename_i a b hab
    rw [hab] at h3
    simp at h3
  · rw [if_pos ⟨h3, rfl⟩]

theorem volus_loop (ve : Bool) (len : Int → Nat) : ∀ (L : List Int) (m : Mesh) (rmv rmv2 : List Int) (i : Nat), SoundWithout m ⟨[], [], rmv2, []⟩ →
    (m.volus.map Volu.index).drop i = L → (∀ x ∈ m.volus, x.index ∈ L → x.surfind.length = len x.index) →
    ((ve = true ∧ ∃ k ∈ L, len k = 3) ∧ singularVolus m ve L.length rmv rmv2 i = .error .throws) ∨
    (¬ (ve = true ∧ ∃ k ∈ L, len k = 3) ∧
      ∃ m' ks2, singularVolus m ve L.length rmv rmv2 i = .ok (m', rmv ++ L.filter (fun k => decide (len k < 4)), rmv2 ++ ks2) ∧
      SoundWithout m' ⟨[], [], rmv2 ++ ks2, []⟩ ∧ EndPass.SameIdx m m' ∧ pairs m' = pairs m ∧
      (∃ g : Surf → Surf, m'.surfs = m.surfs.map g ∧ ∀ x, (g x).index = x.index ∧ x.edgeind.length ≤ (g x).edgeind.length) ∧
      (∃ g : Volu → Volu, m'.volus = m.volus.map g ∧ ∀ x, (g x).index = x.index ∧
        (x.index ∈ L.filter (fun k => decide (len k < 4)) ∨ x.surfind = [] → (g x).surfind = []) ∧
        (x.index ∉ L.filter (fun k => decide (len k < 4)) → (g x).surfind.length = x.surfind.length)) ∧
      Carried m m' (L.filter fun k => decide (len k < 4)) rmv2 (rmv2 ++ ks2))
  | [], m, rmv, rmv2, i, hd, _, _ => .inr ⟨by simp,
      m, [], by simp [singularVolus], by simpa using hd, ⟨rfl, rfl, rfl, rfl⟩, rfl, ⟨id, by simp, by simp⟩, ⟨id, by simp, by simp⟩, by simpa using Carried.refl m [] rmv2⟩
  | k :: L, m, rmv, rmv2, i, hd, hL, hlen => by
    obtain ⟨x, hx, hxm, hxi, hL'⟩ := elem_of_drop hL
    have hnd : (k :: L).Nodup := hL ▸ (hd.unique.volus.sublist (List.drop_sublist _ _))
    have hk : k ∉ L := (List.nodup_cons.1 hnd).1
    have hxl : x.surfind.length = len k := hxi ▸ hlen x hxm (by simp [hxi])
    rw [List.length_cons, singularVolus_cons m ve L.length rmv rmv2 i hx]
    by_cases hv : ve = true ∧ len k = 3
    · left
      refine ⟨⟨hv.1, k, by simp, hv.2⟩, ?_⟩
      rw [hv.1, mergeFaces_void (by omega)]
      rfl
    · obtain ⟨m1, ex, a1, a2, a3, a4, ⟨g, a6, a7⟩, ⟨f, a8, a9⟩, a10⟩ := mergeFaces_ok hd hxm (ve := ve) (by rw [hxl]; exact hv)
      rw [a1]
      have hiff : (ve = true ∧ ∃ j ∈ k :: L, len j = 3) ↔ (ve = true ∧ ∃ j ∈ L, len j = 3) := by
        constructor
        · rintro ⟨h1, j, hj, h2⟩
          rcases List.mem_cons.1 hj with rfl | hj
          · exact absurd ⟨h1, h2⟩ hv
          · exact ⟨h1, j, hj, h2⟩
        · rintro ⟨h1, j, hj, h2⟩
          exact ⟨h1, j, by simp [hj], h2⟩
      rw [hiff]
      show (_ ∧ (if x.surfind.length < 4 then m1.removeVolu x.index >>= fun m2 => singularVolus m2 ve L.length (rmv ++ [x.index]) (rmv2 ++ ex) (i + 1)
        else singularVolus m1 ve L.length rmv (rmv2 ++ ex) (i + 1)) = _) ∨ _ ∧ ∃ m' ks2, (if x.surfind.length < 4 then m1.removeVolu x.index >>= fun m2 => singularVolus m2 ve L.length (rmv ++ [x.index]) (rmv2 ++ ex) (i + 1)
        else singularVolus m1 ve L.length rmv (rmv2 ++ ex) (i + 1)) = _ ∧ _
      by_cases h4 : len k < 4
      · rw [if_pos (by omega), hxi]
        obtain ⟨m2, b1, b2, b3, b4, b5, ⟨g2, b6, b7⟩, b8⟩ := volu_off a2 ((a3.same.volus k).2 ⟨x, hxm, hxi⟩) (by simp)
        have b9 := carried_off (rm := rmv2 ++ ex) b3 ⟨g2, b6, b7⟩ b8
        rw [b1]
        have hp2 : pairs m2 = pairs m := Eq.trans (by unfold pairs; rw [b5]) a4
        rcases volus_loop ve len L m2 (rmv ++ [k]) (rmv2 ++ ex) (i + 1) b2 (by rw [b3.volus, a3.volus]; exact hL') (by
          intro y hy hyL
          rw [b8, a8, List.map_map] at hy
          obtain ⟨z, hz, rfl⟩ := List.mem_map.1 hy
          simp only [Function.comp] at hyL ⊢
          by_cases hzk : (f z).index = k
          · rw [if_pos hzk] at hyL
            exact absurd (hzk ▸ hyL) hk
          · rw [if_neg hzk] at hyL ⊢
            rw [(a9 z).2, (a9 z).1]
            rw [(a9 z).1] at hyL
            exact hlen z hz (by simp [hyL])) with ⟨h, c⟩ | ⟨h, m', ks2, c1, c2, c3, c4, ⟨g', c5, c6⟩, ⟨f', c7, c8⟩, c9⟩
        · exact .inl ⟨h, c⟩
        · refine .inr ⟨h, m', ex ++ ks2, ?_, ?_, (a3.trans b3).trans c3, c4.trans hp2, ⟨fun s => g' (g2 (g s)), ?_, ?_⟩,
            ⟨fun c => f' (if (f c).index = k then { f c with surfind := [] } else f c), ?_, ?_⟩, ?_⟩
          · show singularVolus m2 ve L.length (rmv ++ [k]) (rmv2 ++ ex) (i + 1) = _
            rw [c1, List.filter_cons_of_pos (by simpa using h4)]
            simp
          · rw [← List.append_assoc]; exact c2
          · rw [c5, b6, a6, List.map_map, List.map_map]; rfl
          · intro s
            refine ⟨by rw [(c6 _).1, (b7 _).1, (a7 _).1], ?_⟩
            refine le_trans ((a7 s).2.trans (le_of_eq ?_)) (c6 _).2
            rw [(b7 _).2]
          · rw [c7, b8, a8, List.map_map, List.map_map]; rfl
          · intro c
            rw [List.filter_cons_of_pos (by simpa using h4)]
            refine ⟨?_, ?_, ?_⟩
            · rw [(c8 _).1]; split <;> exact (a9 c).1
            · intro hs
              apply (c8 _).2.1
              by_cases hk' : (f c).index = k
              · right
                rw [if_pos hk']
              · rw [if_neg hk']
                rw [(a9 c).1] at hk' ⊢
                rcases hs with hs | hs
                · left
                  rcases List.mem_cons.1 hs with h | h
                  · exact absurd h hk'
                  · exact h
                · right
                  apply List.eq_nil_of_length_eq_zero
                  rw [(a9 c).2, hs]; rfl
            · intro hs
              simp only [List.mem_cons, not_or] at hs
              have hk' : (f c).index ≠ k := by rw [(a9 c).1]; exact hs.1
              show (f' (if (f c).index = k then _ else f c)).surfind.length = _
              rw [if_neg hk', (c8 _).2.2 (by rw [(a9 c).1]; exact hs.2)]
              exact (a9 c).2
          · rw [List.filter_cons_of_pos (by simpa using h4), ← List.append_assoc]
            exact (a10.mono (by simp)).trans ((b9.mono (by simp)).trans (c9.mono fun j hj => List.mem_cons_of_mem _ hj))
      · rw [if_neg (by omega)]
        rcases volus_loop ve len L m1 rmv (rmv2 ++ ex) (i + 1) a2 (by rw [a3.volus]; exact hL') (by
          intro y hy hyL
          rw [a8] at hy
          obtain ⟨z, hz, rfl⟩ := List.mem_map.1 hy
          rw [(a9 z).2, (a9 z).1]
          rw [(a9 z).1] at hyL
          exact hlen z hz (by simp [hyL])) with ⟨h, c⟩ | ⟨h, m', ks2, c1, c2, c3, c4, ⟨g', c5, c6⟩, ⟨f', c7, c8⟩, c9⟩
        · exact .inl ⟨h, c⟩
        · refine .inr ⟨h, m', ex ++ ks2, ?_, ?_, a3.trans c3, c4.trans a4, ⟨fun s => g' (g s), ?_, ?_⟩, ⟨fun c => f' (f c), ?_, ?_⟩, ?_⟩
          · rw [c1, List.filter_cons_of_neg (by simpa using h4)]
            simp
          · rw [← List.append_assoc]; exact c2
          · rw [c5, a6, List.map_map]; rfl
          · intro s
            exact ⟨by rw [(c6 _).1, (a7 _).1], le_trans (a7 s).2 (c6 _).2⟩
          · rw [c7, a8, List.map_map]; rfl
          · intro c
            rw [List.filter_cons_of_neg (by simpa using h4)]
            refine ⟨by rw [(c8 _).1, (a9 c).1], ?_, ?_⟩
            · intro hs
              apply (c8 _).2.1
              rw [(a9 c).1]
              refine hs.imp id fun h => ?_
              apply List.eq_nil_of_length_eq_zero
              rw [(a9 c).2, h]; rfl
            · intro hs
              rw [(c8 _).2.2 (by rw [(a9 c).1]; exact hs), (a9 c).2]
          · rw [List.filter_cons_of_neg (by simpa using h4), ← List.append_assoc]
            exact (a10.mono (by simp)).trans c9

/-! ### All of it -/

/-- The length of a list of the element with the index. -/
def lenOf {α : Type} (ix : α → Int) (F : α → List Int) (l : List α) (k : Int) : Nat :=
  match l.find? fun x => ix x == k with
  | some x => (F x).length
  | none => 0

theorem lenOf_eq {α : Type} {ix : α → Int} {F : α → List Int} {l : List α} (hn : (l.map ix).Nodup) {x : α} (hx : x ∈ l) :
    lenOf ix F l (ix x) = (F x).length := by
  unfold lenOf
  cases h : l.find? fun y => ix y == ix x with
  | none => exact absurd (List.find?_eq_none.1 h x hx) (by simp)
  | some y =>
    have h1 := List.find?_some h
    have h2 := List.mem_of_find?_eq_some h
    rw [inj_of_nodup hn h2 hx (by simpa using h1)]

theorem removeIdx_nil {α : Type} (ix : α → Int) (l : List α) : removeIdx ix l [] = l := by
  unfold removeIdx
  exact List.filter_eq_self.2 (by simp)

theorem isLoop_iff {m : Mesh} (hu : UniqueIndices m) {x : Edge} (hx : x ∈ m.edges) {a b : Int} (hv : x.vertind = [a, b]) :
    isLoop m x.index = true ↔ a = b := by
  unfold isLoop
  rw [List.any_eq_true]
  constructor
  · rintro ⟨y, hy, h⟩
    rw [Bool.and_eq_true] at h
    rw [inj_of_nodup hu.edges hy hx (by simpa using h.1), hv] at h
    simpa using h.2
  · rintro rfl
    exact ⟨x, hx, by rw [hv]; simp⟩

theorem isLoop_mem {m : Mesh} {e : Int} (h : isLoop m e = true) : e ∈ m.edges.map Edge.index := by
  unfold isLoop at h
  obtain ⟨y, hy, h⟩ := List.any_eq_true.1 h
  rw [Bool.and_eq_true] at h
  exact List.mem_map.2 ⟨y, hy, by simpa using h.1⟩

theorem isFace_iff {m : Mesh} (hu : UniqueIndices m) {x : Surf} (hx : x ∈ m.surfs) : isFace m x.index = true ↔ 3 ≤ (edgesLeft m x).length := by
  unfold isFace
  rw [List.any_eq_true]
  constructor
  · rintro ⟨y, hy, h⟩
    rw [Bool.and_eq_true] at h
    rw [inj_of_nodup hu.surfs hy hx (by simpa using h.1)] at h
    simpa using h.2
  · intro h
    exact ⟨x, hx, by simpa using h⟩

theorem mem_pairs {m : Mesh} {x : Edge} (hx : x ∈ m.edges) : (x.index, x.vertind) ∈ pairs m := List.mem_map.2 ⟨x, hx, rfl⟩

theorem removeSingular_ok {m : Mesh} {rmv : List Int} {ve : Bool} {m0 : Mesh} (h0 : m0 = { m with verts := removeIdx Vert.index m.verts rmv }) (hm : Sound m0)
    (two : ∀ e ∈ m0.edges, ∃ a b, e.vertind = [a, b]) (zero : ∀ e, EdgeSurf m0 e 0 → m0.volus = []) :
    ((ve = true ∧ ∃ c ∈ m0.volus, (surfsLeft m0 c).length = 3) ∧ m.removeSingular rmv ve = .error .throws) ∨
    (¬ (ve = true ∧ ∃ c ∈ m0.volus, (surfsLeft m0 c).length = 3) ∧ ∃ r, m.removeSingular rmv ve = .ok r ∧ Sound r ∧ Reduced m0 r) := by
  -- the edges
  obtain ⟨ma, a1, a2, a3, a4, a5, ga, a6, a7⟩ := edges_loop (isLoop m0) (m0.edges.map Edge.index) m0 [] 0 hm rfl (by
    intro x hx _
    obtain ⟨a, b, hv⟩ := two x hx
    exact ⟨a, b, hv, isLoop_iff hm.unique hx hv⟩)
  generalize hks : (m0.edges.map Edge.index).filter (isLoop m0) = ks at a1 a5 a7
  have hks' : ∀ e, e ∈ ks ↔ isLoop m0 e = true := fun e => by
    rw [← hks, List.mem_filter]
    exact ⟨And.right, fun h => ⟨isLoop_mem h, h⟩⟩
  rw [List.nil_append, List.length_map] at a1
  obtain ⟨m1, hm1⟩ : ∃ m1, m1 = { ma with edges := removeIdx Edge.index ma.edges ks } := ⟨_, rfl⟩
  have hm1e : m1.edges = m0.edges.filter fun e => !ks.contains e.index := by
    rw [hm1]
    show removeIdx Edge.index ma.edges ks = _
    rw [a5, removeIdx_map (g := id) (by intro e _; split <;> rfl) (by intro e _ he; rw [if_neg he]; rfl), List.map_id]
    rfl
  have bare1 : ∀ k ∈ ks, ∀ y ∈ ma.edges, y.index = k → y.vertind = [] ∧ y.surfind = [] := by
    intro k hk y hy hi
    rw [a5] at hy
    obtain ⟨z, hz, rfl⟩ := List.mem_map.1 hy
    by_cases hz' : z.index ∈ ks
    · rw [if_pos hz']; exact ⟨rfl, rfl⟩
    · rw [if_neg hz'] at hi
      exact absurd (hi ▸ hk) hz'
  have hs1 : Sound m1 := by
    have hd := drop_bare (d' := ⟨[], ks, [], []⟩) (sound_without a2) (by simp) (by
      intro k hk
      refine ⟨?_, .inr ⟨?_, ?_⟩⟩
      · have := isLoop_mem ((hks' k).1 hk)
        rw [← a3.edges] at this
        obtain ⟨y, hy, hi⟩ := List.mem_map.1 this
        exact ⟨y, hy, hi⟩
      · rintro e ⟨y, hy, hi, he⟩
        rw [(bare1 k hk y hy hi).1] at he
        simp at he
      · rintro e ⟨y, hy, hi, he⟩
        rw [(bare1 k hk y hy hi).2] at he
        simp at he) (by simp) (by simp) (by simp) (by simp) (by simp) (by simp)
    have := hd.rest
    have e : without ma ⟨[], ks, [], []⟩ = m1 := by
      rw [hm1]
      unfold without
      simp only [removeIdx_nil]
    rw [← e]
    exact this
  have p1 : ∀ p, p ∈ pairs m1 ↔ p ∈ pairs m0 ∧ isLoop m0 p.1 = false := by
    intro p
    unfold pairs
    rw [hm1e]
    simp only [List.mem_map, List.mem_filter]
    constructor
    · rintro ⟨e, ⟨h1, h2⟩, rfl⟩
      refine ⟨⟨e, h1, rfl⟩, ?_⟩
      have : e.index ∉ ks := by simpa using h2
      rw [hks'] at this
      simpa using this
    · rintro ⟨⟨e, h1, rfl⟩, h2⟩
      refine ⟨e, ⟨h1, ?_⟩, rfl⟩
      have : e.index ∉ ks := by rw [hks']; simpa using h2
      simpa using this
  have hs1s : m1.surfs = m0.surfs.map ga := by rw [hm1]; exact a6
  have hga : ∀ x ∈ m0.surfs, (ga x).edgeind = edgesLeft m0 x := by
    intro x hx
    rw [(a7 x).2]
    unfold edgesLeft
    apply List.filter_congr
    intro e _
    by_cases he : isLoop m0 e = true
    · rw [he]; simpa using (hks' e).2 he
    · have h2 : e ∉ ks := fun h => he ((hks' e).1 h)
      have h3 : isLoop m0 e = false := by simpa using he
      rw [h3]; simpa using h2
  have hs1c : m1.volus = m0.volus := by rw [hm1]; exact a4
  -- the surfaces
  obtain ⟨mb, rm2, b1, b2, b3, b4, b5, ⟨gb, b6, b7⟩, b8, b9⟩ := surfs_loop (lenOf Surf.index Surf.edgeind m1.surfs) (m1.surfs.map Surf.index) m1 [] [] 0
    (sound_without hs1) rfl (fun x hx _ => (lenOf_eq hs1.unique.surfs hx).symm) (by
      intro e he
      rw [hm1e] at he
      exact two e (List.mem_filter.1 he).1) (by
      rintro e _ ⟨x, hx, hi, h⟩
      rw [hs1c]
      rw [hm1e] at hx
      exact zero e ⟨x, (List.mem_filter.1 hx).1, hi, h⟩)
  generalize hks3 : (m1.surfs.map Surf.index).filter (fun k => decide (lenOf Surf.index Surf.edgeind m1.surfs k < 3)) = ks3 at b1 b5 b7 b9
  have hks3' : ∀ x ∈ m1.surfs, (x.index ∈ ks3 ↔ x.edgeind.length < 3) := fun x hx => by
    rw [← hks3, List.mem_filter]
    have := lenOf_eq (F := Surf.edgeind) hs1.unique.surfs hx
    constructor
    · rintro ⟨_, h⟩; rw [this] at h; simpa using h
    · intro h; exact ⟨List.mem_map_of_mem hx, by rw [this]; simpa using h⟩
  have hface : ∀ x ∈ m0.surfs, (x.index ∉ ks3 ↔ isFace m0 x.index = true) := fun x hx => by
    have := hks3' (ga x) (hs1s ▸ List.mem_map_of_mem hx)
    rw [(a7 x).1, hga x hx] at this
    rw [this, isFace_iff hm.unique hx]
    omega
  rw [List.nil_append, List.nil_append, List.length_map] at b1
  rw [List.nil_append] at b2
  simp only [List.nil_append] at b8
  obtain ⟨m2, hm2⟩ : ∃ m2, m2 = { mb with surfs := removeIdx Surf.index mb.surfs ks3, edges := removeIdx Edge.index mb.edges rm2 } := ⟨_, rfl⟩
  have hs2 : Sound m2 := by
    have bare2 : ∀ k ∈ ks3, ∀ y ∈ mb.surfs, y.index = k → y.edgeind = [] ∧ y.voluind = [] := by
      intro k hk y hy hi
      rw [b6] at hy
      obtain ⟨z, hz, rfl⟩ := List.mem_map.1 hy
      rw [(b7 z).1] at hi
      exact (b7 z).2.1 (.inl (hi ▸ hk))
    have hd := drop_bare (d' := ⟨[], rm2, ks3, []⟩) b2 (by simp) (fun k hk => ⟨b2.edges k hk, .inl hk⟩) (by
      intro k hk
      refine ⟨?_, .inr ⟨?_, ?_⟩⟩
      · rw [← hks3] at hk
        have := (List.mem_filter.1 hk).1
        rw [← b3.surfs] at this
        obtain ⟨y, hy, hi⟩ := List.mem_map.1 this
        exact ⟨y, hy, hi⟩
      · rintro e ⟨y, hy, hi, he⟩
        rw [(bare2 k hk y hy hi).1] at he
        simp at he
      · rintro e ⟨y, hy, hi, he⟩
        rw [(bare2 k hk y hy hi).2] at he
        simp at he) (by simp) (by simp) (fun k hk => hk) (by simp) (by simp)
    have := hd.rest
    have e : without mb ⟨[], rm2, ks3, []⟩ = m2 := by
      rw [hm2]
      unfold without
      simp only [removeIdx_nil]
    rw [← e]
    exact this
  have hcv : m2.volus = m0.volus.map fun c => { c with surfind := surfsLeft m0 c } := by
    rw [hm2]
    show mb.volus = _
    rw [b5, hs1c]
    apply List.map_congr_left
    intro c hc
    congr 1
    unfold surfsLeft
    apply List.filter_congr
    intro s hs
    obtain ⟨x, hx, rfl⟩ := hm.noDangling.voluSurf c.index s ⟨c, hc, rfl, hs⟩ fun h => hm.zeroOutside.voluSurf c.index ⟨c, hc, rfl, h ▸ hs⟩
    by_cases hf : isFace m0 x.index = true
    · rw [hf]; simpa using (hface x hx).2 hf
    · have h2 : x.index ∈ ks3 := by by_contra h; exact hf ((hface x hx).1 h)
      have h3 : isFace m0 x.index = false := by simpa using hf
      rw [h3]; simpa using h2
  have p2 : ∀ p, p ∈ pairs m2 ↔ p ∈ pairs m1 ∧ p.1 ∉ rm2 := by
    intro p
    rw [← b4]
    unfold pairs
    rw [hm2]
    simp only [List.mem_map, mem_removeIdx]
    constructor
    · rintro ⟨e, ⟨h1, h2⟩, rfl⟩; exact ⟨⟨e, h1, rfl⟩, h2⟩
    · rintro ⟨⟨e, h1, rfl⟩, h2⟩; exact ⟨e, ⟨h1, h2⟩, rfl⟩
  -- the volumes
  have hlen3 : ∀ c ∈ m0.volus, lenOf Volu.index Volu.surfind m2.volus c.index = (surfsLeft m0 c).length := fun c hc =>
    lenOf_eq (ix := Volu.index) (F := Volu.surfind) hs2.unique.volus (x := { c with surfind := surfsLeft m0 c }) (by rw [hcv]; exact List.mem_map_of_mem hc)
  have hidx3 : m2.volus.map Volu.index = m0.volus.map Volu.index := by rw [hcv, List.map_map]; rfl
  have hvoid : (∃ k ∈ m2.volus.map Volu.index, lenOf Volu.index Volu.surfind m2.volus k = 3) ↔ ∃ c ∈ m0.volus, (surfsLeft m0 c).length = 3 := by
    rw [hidx3]
    constructor
    · rintro ⟨k, hk, h⟩
      obtain ⟨c, hc, rfl⟩ := List.mem_map.1 hk
      exact ⟨c, hc, hlen3 c hc ▸ h⟩
    · rintro ⟨c, hc, h⟩
      exact ⟨c.index, List.mem_map_of_mem hc, (hlen3 c hc).trans h⟩
  have hrun : m.removeSingular rmv ve = (singularVolus m2 ve m2.volus.length [] [] 0 >>= fun p =>
      pure { p.1 with volus := removeIdx Volu.index p.1.volus p.2.1, surfs := removeIdx Surf.index p.1.surfs p.2.2 }) := by
    show (singularEdges { m with verts := removeIdx Vert.index m.verts rmv } m.edges.length [] 0 >>= fun p => _) = _
    have hml : m.edges.length = m0.edges.length := by rw [h0]
    rw [← h0, hml, a1]
    show (singularSurfs { ma with edges := removeIdx Edge.index ma.edges ks } ma.surfs.length [] [] 0 >>= fun p => _) = _
    have hmal : ma.surfs.length = m1.surfs.length := by rw [hm1]
    rw [← hm1, hmal, b1]
    show (singularVolus { mb with surfs := removeIdx Surf.index mb.surfs ks3, edges := removeIdx Edge.index mb.edges rm2 } ve mb.volus.length [] [] 0 >>= fun p => _) = _
    have hmbl : mb.volus.length = m2.volus.length := by rw [hm2]
    rw [← hm2, hmbl]
  rcases volus_loop ve (lenOf Volu.index Volu.surfind m2.volus) (m2.volus.map Volu.index) m2 [] [] 0
    (sound_without hs2) rfl (fun x hx _ => (lenOf_eq hs2.unique.volus hx).symm) with ⟨h, c⟩ | ⟨h, mc, rm3, c1, c2, c3, c4, ⟨gc, c5, c6⟩, ⟨fc, c7, c8⟩, c9⟩
  · left
    rw [hvoid] at h
    refine ⟨h, ?_⟩
    rw [hrun]
    rw [List.length_map] at c
    rw [c]
    rfl
  · right
    rw [hvoid] at h
    refine ⟨h, ?_⟩
    rw [List.nil_append, List.nil_append, List.length_map] at c1
    rw [List.nil_append] at c2
    rw [hrun, c1]
    generalize hks4 : (m2.volus.map Volu.index).filter (fun k => decide (lenOf Volu.index Volu.surfind m2.volus k < 4)) = ks4 at c8 c9
    have hks4' : ∀ c ∈ m0.volus, (c.index ∈ ks4 ↔ (surfsLeft m0 c).length < 4) := fun c hc => by
      rw [← hks4, List.mem_filter, hlen3 c hc, hidx3]
      constructor
      · rintro ⟨_, h⟩; simpa using h
      · intro h; exact ⟨List.mem_map_of_mem hc, by simpa using h⟩
    refine ⟨_, rfl, ?_, ?_⟩
    · have bare3 : ∀ k ∈ ks4, ∀ y ∈ mc.volus, y.index = k → y.surfind = [] := by
        intro k hk y hy hi
        rw [c7] at hy
        obtain ⟨z, hz, rfl⟩ := List.mem_map.1 hy
        rw [(c8 z).1] at hi
        exact (c8 z).2.1 (.inl (hi ▸ hk))
      have hd := drop_bare (d' := ⟨[], [], rm3, ks4⟩) c2 (by simp) (by simp) (fun k hk => ⟨c2.surfs k hk, .inl hk⟩) (by
        intro k hk
        refine ⟨?_, .inr ?_⟩
        · rw [← hks4] at hk
          have := (List.mem_filter.1 hk).1
          rw [← c3.volus] at this
          obtain ⟨y, hy, hi⟩ := List.mem_map.1 this
          exact ⟨y, hy, hi⟩
        · rintro e ⟨y, hy, hi, he⟩
          rw [bare3 k hk y hy hi] at he
          simp at he) (by simp) (by simp) (fun k hk => hk) (by simp)
      have := hd.rest
      have e : without mc ⟨[], [], rm3, ks4⟩ = { mc with volus := removeIdx Volu.index mc.volus ks4, surfs := removeIdx Surf.index mc.surfs rm3 } := by
        unfold without
        simp only [removeIdx_nil]
      show Sound { mc with volus := removeIdx Volu.index mc.volus ks4, surfs := removeIdx Surf.index mc.surfs rm3 }
      rw [← e]
      exact this
    · have hpc : ∀ p, p ∈ pairs mc ↔ p ∈ pairs m0 ∧ isLoop m0 p.1 = false ∧ p.1 ∉ rm2 := fun p => by
        rw [c4, p2, p1, and_assoc]
      have hse1 : ∀ s e, SurfEdge m1 s e ↔ SurfEdge m0 s e ∧ isLoop m0 e = false := by
        intro s e
        constructor
        · rintro ⟨x, hx, hi, hx'⟩
          rw [hs1s] at hx
          obtain ⟨y, hy, rfl⟩ := List.mem_map.1 hx
          rw [hga y hy] at hx'
          rw [(a7 y).1] at hi
          unfold edgesLeft at hx'
          obtain ⟨g1, g2⟩ := List.mem_filter.1 hx'
          exact ⟨⟨y, hy, hi, g1⟩, by simpa using g2⟩
        · rintro ⟨⟨y, hy, hi, hy'⟩, hl⟩
          refine ⟨ga y, hs1s ▸ List.mem_map_of_mem hy, (a7 y).1.trans hi, ?_⟩
          rw [hga y hy]
          exact List.mem_filter.2 ⟨hy', by simpa using hl⟩
      have hse2 : ∀ s e, s ∉ ks3 → (SurfEdge m2 s e ↔ SurfEdge mb s e) := by
        intro s e hs
        rw [hm2]
        constructor
        · rintro ⟨x, hx, hi, hx'⟩
          exact ⟨x, (mem_removeIdx.1 hx).1, hi, hx'⟩
        · rintro ⟨x, hx, hi, hx'⟩
          exact ⟨x, mem_removeIdx.2 ⟨hx, by rw [hi]; exact hs⟩, hi, hx'⟩
      have hfk : ∀ s, isFace m0 s = true → s ∉ ks3 ∧ HasSurf m2 s := by
        intro s hs
        obtain ⟨x, hx, h⟩ := List.any_eq_true.1 (by unfold isFace at hs; exact hs)
        rw [Bool.and_eq_true] at h
        have hi : x.index = s := by simpa using h.1
        subst hi
        have hk := (hface x hx).2 hs
        refine ⟨hk, ?_⟩
        rw [hm2]
        obtain ⟨y, hy, hyi⟩ := (b3.same.surfs x.index).2 ⟨ga x, hs1s ▸ List.mem_map_of_mem hx, (a7 x).1⟩
        exact ⟨y, mem_removeIdx.2 ⟨hy, by rw [hyi]; exact hk⟩, hyi⟩
      have line : ∀ e e', HasEdge m0 e → Alike (pairs m1) e e' → SameLine m0 e e' := by
        intro e e' he h
        rcases h with rfl | ⟨a, b, h1, h2⟩
        · obtain ⟨x, hx, hi⟩ := he
          exact ⟨x, hx, x, hx, hi, hi, .inl rfl⟩
        · have get : ∀ (k : Int) (l : List Int), (k, l) ∈ pairs m1 → ∃ x ∈ m0.edges, x.index = k ∧ x.vertind = l := by
            intro k l hk
            obtain ⟨x, hx, hxe⟩ := List.mem_map.1 ((p1 _).1 hk).1
            injection hxe with g1 g2
            exact ⟨x, hx, g1, g2⟩
          obtain ⟨x, hx, hxi, hxv⟩ := get _ _ h1
          rcases h2 with h2 | h2
          · obtain ⟨y, hy, hyi, hyv⟩ := get _ _ h2
            exact ⟨x, hx, y, hy, hxi, hyi, .inl (hyv.trans hxv.symm)⟩
          · obtain ⟨y, hy, hyi, hyv⟩ := get _ _ h2
            exact ⟨x, hx, y, hy, hxi, hyi, .inr (by rw [hyv, hxv]; rfl)⟩
      have hse3 : ∀ s e, s ∉ rm3 → (SurfEdge { mc with volus := removeIdx Volu.index mc.volus ks4, surfs := removeIdx Surf.index mc.surfs rm3 } s e ↔ SurfEdge mc s e) := by
        intro s e hs
        constructor
        · rintro ⟨x, hx, hi, hx'⟩
          exact ⟨x, (mem_removeIdx.1 hx).1, hi, hx'⟩
        · rintro ⟨x, hx, hi, hx'⟩
          exact ⟨x, mem_removeIdx.2 ⟨hx, by rw [hi]; exact hs⟩, hi, hx'⟩
      have hface3 : ∀ s s', s ∉ ks3 → s' ∉ rm3 → SameOutline m2 mc s s' →
          SameFace m0 { mc with volus := removeIdx Volu.index mc.volus ks4, surfs := removeIdx Surf.index mc.surfs rm3 } s s' := by
        intro s s' hs hs' ho
        have hsp := (b9 s hs).congr fun e => ((hse3 s' e hs').trans (ho e)).trans (hse2 s e hs)
        have hedge : ∀ e, SurfEdge m0 s e → HasEdge m0 e := fun e h =>
          hm.noDangling.surfEdge s e h
        constructor
        · intro e he hl
          obtain ⟨e', g1, g2⟩ := hsp.1 e ((hse1 s e).2 ⟨he, hl⟩)
          exact ⟨e', g1, line e e' (hedge e he) g2⟩
        · intro e' he'
          obtain ⟨e, g1, g2⟩ := hsp.2 e' he'
          obtain ⟨g3, g4⟩ := (hse1 s e).1 g1
          exact ⟨e, g3, g4, line e e' (hedge e g3) g2⟩
      have hvs2 : ∀ c s, VoluSurf m2 c s ↔ VoluSurf m0 c s ∧ isFace m0 s = true := by
        intro c s
        constructor
        · rintro ⟨x, hx, hi, hx'⟩
          rw [hcv] at hx
          obtain ⟨y, hy, rfl⟩ := List.mem_map.1 hx
          obtain ⟨g1, g2⟩ := List.mem_filter.1 (show s ∈ y.surfind.filter _ from hx')
          exact ⟨⟨y, hy, hi, g1⟩, g2⟩
        · rintro ⟨⟨y, hy, hi, hy'⟩, hl⟩
          exact ⟨{ y with surfind := surfsLeft m0 y }, hcv ▸ List.mem_map_of_mem hy, hi, List.mem_filter.2 ⟨hy', hl⟩⟩
      have hvs3 : ∀ c s, c ∉ ks4 → (VoluSurf { mc with volus := removeIdx Volu.index mc.volus ks4, surfs := removeIdx Surf.index mc.surfs rm3 } c s ↔ VoluSurf mc c s) := by
        intro c s hs
        constructor
        · rintro ⟨x, hx, hi, hx'⟩
          exact ⟨x, (mem_removeIdx.1 hx).1, hi, hx'⟩
        · rintro ⟨x, hx, hi, hx'⟩
          exact ⟨x, mem_removeIdx.2 ⟨hx, by rw [hi]; exact hs⟩, hi, hx'⟩
      have hlive : ∀ c s, VoluSurf mc c s → s ∉ rm3 := fun c s h => ((rest_sc c2 s c).1 ⟨h, by simp⟩).1.2
      rw [List.nil_append] at c9
      refine ⟨?_, ?_, ?_, ?_, ?_, ?_, ?_, ?_⟩
      · show mc.verts.map Vert.index = _
        rw [c3.verts, hm2]
        show mb.verts.map Vert.index = _
        rw [b3.verts, hm1]
        exact a3.verts
      · intro x hx
        obtain ⟨h1, h2, -⟩ := (hpc _).1 (mem_pairs (m := mc) hx)
        obtain ⟨y, hy, hye⟩ := List.mem_map.1 h1
        injection hye with e1 e2
        obtain ⟨a, b, hv⟩ := two y hy
        refine ⟨⟨a, b, e2 ▸ hv, fun hab => ?_⟩, y, hy, e1, e2⟩
        have := (isLoop_iff hm.unique hy hv).2 hab
        rw [e1] at this
        exact absurd (this.symm.trans h2) (by simp)
      · intro y hy a b hv hab
        have hl : isLoop m0 y.index = false := by
          have := (isLoop_iff hm.unique hy hv).not.2 hab
          simpa using this
        have hy1 : (y.index, [a, b]) ∈ pairs m1 := (p1 _).2 ⟨hv ▸ mem_pairs hy, hl⟩
        have fin : ∀ e u v, (e, [u, v]) ∈ pairs m1 → e ∉ rm2 → ∃ x ∈ mc.edges, x.vertind = [u, v] := by
          intro e u v he hn
          obtain ⟨g1, g2⟩ := (p1 _).1 he
          obtain ⟨x, hx, hxe⟩ := List.mem_map.1 ((hpc (e, [u, v])).2 ⟨g1, g2, hn⟩)
          injection hxe with _ h2
          exact ⟨x, hx, h2⟩
        by_cases hr : y.index ∈ rm2
        · obtain ⟨e', k1, u, v, k2, k3⟩ := b8 _ hr
          have := List.inj_on_of_nodup_map (pairs_nodup hs1.unique) hy1 k2 rfl
          simp only [Prod.mk.injEq, List.cons.injEq, true_and, and_true] at this
          obtain ⟨rfl, rfl⟩ := this
          rcases k3 with k3 | k3
          · obtain ⟨x, hx, hxv⟩ := fin _ _ _ k3 k1
            exact ⟨x, hx, .inl hxv⟩
          · obtain ⟨x, hx, hxv⟩ := fin _ _ _ k3 k1
            exact ⟨x, hx, .inr hxv⟩
        · obtain ⟨x, hx, hxv⟩ := fin _ _ _ hy1 hr
          exact ⟨x, hx, .inl hxv⟩
      · intro x hx
        have hx' : x ∈ mc.surfs := (mem_removeIdx.1 hx).1
        rw [c5] at hx'
        obtain ⟨y, hy, rfl⟩ := List.mem_map.1 hx'
        rw [hm2] at hy
        obtain ⟨hy1, hy2⟩ := mem_removeIdx.1 hy
        rw [b6] at hy1
        obtain ⟨z, hz, rfl⟩ := List.mem_map.1 hy1
        rw [(b7 z).1] at hy2
        have hz3 : 3 ≤ z.edgeind.length := by
          have := (hks3' z hz).not.1 hy2
          omega
        refine ⟨le_trans hz3 (le_trans (le_of_eq ((b7 z).2.2 hy2).symm) (c6 _).2), ?_⟩
        rw [(c6 _).1, (b7 z).1]
        rw [hs1s] at hz
        obtain ⟨w, hw, rfl⟩ := List.mem_map.1 hz
        rw [(a7 w).1] at hy2 ⊢
        exact (hface w hw).1 hy2
      · intro x hx
        obtain ⟨hx1, hx2⟩ := mem_removeIdx.1 hx
        rw [c7] at hx1
        obtain ⟨y, hy, rfl⟩ := List.mem_map.1 hx1
        rw [(c8 y).1] at hx2
        replace hx2 : y.index ∉ ks4 := hx2
        rw [(c8 y).2.2 hx2]
        rw [hcv] at hy
        obtain ⟨c, hc, rfl⟩ := List.mem_map.1 hy
        have := (hks4' c hc).not.1 hx2
        show 4 ≤ (surfsLeft m0 c).length
        omega
      · intro i
        constructor
        · rintro ⟨x, hx, rfl⟩
          obtain ⟨hx1, hx2⟩ := mem_removeIdx.1 hx
          rw [c7] at hx1
          obtain ⟨y, hy, rfl⟩ := List.mem_map.1 hx1
          rw [(c8 y).1] at hx2
          replace hx2 : y.index ∉ ks4 := hx2
          rw [hcv] at hy
          obtain ⟨c, hc, rfl⟩ := List.mem_map.1 hy
          have := (hks4' c hc).not.1 hx2
          exact ⟨c, hc, (c8 { c with surfind := surfsLeft m0 c }).1.symm, by omega⟩
        · rintro ⟨c, hc, rfl, h4⟩
          refine ⟨fc { c with surfind := surfsLeft m0 c }, mem_removeIdx.2 ⟨?_, ?_⟩, (c8 _).1⟩
          · rw [c7, hcv, List.map_map]
            exact List.mem_map.2 ⟨c, hc, rfl⟩
          · rw [(c8 _).1]
            show c.index ∉ ks4
            rw [hks4' c hc]
            omega
      · intro s hs
        obtain ⟨g1, g2⟩ := hfk s hs
        obtain ⟨s', k1, k2, k3⟩ := c9.surfs s g2 (by simp)
        obtain ⟨x, hx, hxi⟩ := k1
        exact ⟨s', ⟨x, mem_removeIdx.2 ⟨hx, by rw [hxi]; exact k2⟩, hxi⟩, hface3 s s' g1 k2 k3⟩
      · rintro c ⟨z, hz, rfl⟩
        have hck : z.index ∉ ks4 := (mem_removeIdx.1 hz).2
        constructor
        · intro s g1 g2
          obtain ⟨s', k1, k2⟩ := c9.there z.index hck s ((hvs2 _ _).2 ⟨g1, g2⟩)
          exact ⟨s', (hvs3 _ _ hck).2 k1, hface3 s s' (hfk s g2).1 (hlive _ _ k1) k2⟩
        · intro s' g1
          have g2 := (hvs3 _ _ hck).1 g1
          obtain ⟨s, k1, k2⟩ := c9.back z.index hck s' g2
          obtain ⟨k3, k4⟩ := (hvs2 _ _).1 k1
          exact ⟨s, k3, k4, hface3 s s' (hfk s k4).1 (hlive _ _ g2) k2⟩

end RSVS.Singular
