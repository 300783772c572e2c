import Verif.Lemmas.FloodMesh
import Verif.Model.Border
import Verif.Spec.Border

/-!
# Border marks: lemmas
-/

namespace RSVS.Mesh

open RSVS.Spec

/-! ### Loops -/

theorem anyHit_ok {f : Int → Res Bool} :
    ∀ {l : List Int}, (∀ x ∈ l, ∃ b, f x = .ok b) →
      ∃ b, anyHit f l = .ok b ∧ (b = true ↔ ∃ x ∈ l, f x = .ok true) := by
  intro l
  induction l with
  | nil => intro _; exact ⟨false, rfl, by simp⟩
  | cons a l ih =>
    intro h
    obtain ⟨b, hb⟩ := h a (by simp)
    cases b with
    | true =>
      refine ⟨true, ?_, ?_⟩
      · unfold anyHit; rw [hb]; rfl
      · simp only [true_iff]; exact ⟨a, by simp, hb⟩
    | false =>
      obtain ⟨b', h1, h2⟩ := ih (fun x hx => h x (by simp [hx]))
      refine ⟨b', ?_, ?_⟩
      · unfold anyHit; rw [hb]; exact h1
      · rw [h2]
        constructor
        · rintro ⟨x, hx, hfx⟩; exact ⟨x, by simp [hx], hfx⟩
        · rintro ⟨x, hx, hfx⟩
          rcases List.mem_cons.mp hx with rfl | hx
          · rw [hb] at hfx; cases hfx
          · exact ⟨x, hx, hfx⟩

theorem mapM_pure_map {α β : Type} {f : α → Res β} {g : α → β} :
    ∀ {l : List α}, (∀ x ∈ l, f x = .ok (g x)) → l.mapM f = .ok (l.map g) := by
  intro l
  induction l with
  | nil => intro _; rfl
  | cons a l ih =>
    intro h
    rw [List.mapM_cons, h a (by simp), ih (fun x hx => h x (by simp [hx]))]
    rfl

theorem markAll_ok {α : Type} {f : α → Res Bool} {set : α → Bool → α} {l : List α}
    (h : ∀ x ∈ l, ∃ b, f x = .ok b) :
    ∃ g : α → Bool, markAll f set l = .ok (l.map (fun x => set x (g x))) ∧
      ∀ x ∈ l, f x = .ok (g x) := by
  refine ⟨fun x => match f x with | .ok b => b | .error _ => false, ?_, ?_⟩
  · unfold markAll
    apply mapM_pure_map
    intro x hx
    obtain ⟨b, hb⟩ := h x hx
    simp only [hb]
    rfl
  · intro x hx
    obtain ⟨b, hb⟩ := h x hx
    simp only [hb]

theorem lookup_ok {α : Type} {ix : α → Int} {bd : α → Bool} {l : List α} {k : Int}
    (hn : (l.map ix).Nodup) (h : ∃ a ∈ l, ix a = k) :
    ∃ b, ((elemAt l (posOf ix l k) >>= fun x => pure (bd x)) : Res Bool) = .ok b ∧
      (b = true ↔ ∃ a ∈ l, ix a = k ∧ bd a = true) := by
  obtain ⟨a, h1, ha, hi⟩ := elemAt_posOf_ok (ix := ix) h
  refine ⟨bd a, by rw [h1]; rfl, ?_⟩
  constructor
  · intro hb; exact ⟨a, ha, hi, hb⟩
  · rintro ⟨x, hx, hxi, hb⟩
    rw [inj_of_nodup hn ha hx (by rw [hi, hxi])]
    exact hb

/-! ### Forgetting the marks -/

theorem vertEdge_unmarked {m : Mesh} {v e : Int} : VertEdge (unmarked m) v e ↔ VertEdge m v e := by
  unfold VertEdge unmarked; simp
theorem edgeVert_unmarked {m : Mesh} {v e : Int} : EdgeVert (unmarked m) v e ↔ EdgeVert m v e := by
  unfold EdgeVert unmarked; simp
theorem edgeSurf_unmarked {m : Mesh} {v e : Int} : EdgeSurf (unmarked m) v e ↔ EdgeSurf m v e := by
  unfold EdgeSurf unmarked; simp
theorem surfEdge_unmarked {m : Mesh} {v e : Int} : SurfEdge (unmarked m) v e ↔ SurfEdge m v e := by
  unfold SurfEdge unmarked; simp
theorem surfVolu_unmarked {m : Mesh} {v e : Int} : SurfVolu (unmarked m) v e ↔ SurfVolu m v e := by
  unfold SurfVolu unmarked; simp
theorem voluSurf_unmarked {m : Mesh} {v e : Int} : VoluSurf (unmarked m) v e ↔ VoluSurf m v e := by
  unfold VoluSurf unmarked; simp
theorem hasVert_unmarked {m : Mesh} {i : Int} : HasVert (unmarked m) i ↔ HasVert m i := by
  unfold HasVert unmarked; simp
theorem hasEdge_unmarked {m : Mesh} {i : Int} : HasEdge (unmarked m) i ↔ HasEdge m i := by
  unfold HasEdge unmarked; simp
theorem hasSurf_unmarked {m : Mesh} {i : Int} : HasSurf (unmarked m) i ↔ HasSurf m i := by
  unfold HasSurf unmarked; simp
theorem hasVolu_unmarked {m : Mesh} {i : Int} : HasVolu (unmarked m) i ↔ HasVolu m i := by
  unfold HasVolu unmarked; simp

/-- Meshes which differ in the marks only. -/
def SameUnmarked (m' m : Mesh) : Prop := unmarked m' = unmarked m

theorem SameUnmarked.vertEdge {m' m : Mesh} (h : SameUnmarked m' m) {v e : Int} :
    VertEdge m' v e ↔ VertEdge m v e := by
  rw [← vertEdge_unmarked, show unmarked m' = unmarked m from h, vertEdge_unmarked]
theorem SameUnmarked.edgeVert {m' m : Mesh} (h : SameUnmarked m' m) {v e : Int} :
    EdgeVert m' v e ↔ EdgeVert m v e := by
  rw [← edgeVert_unmarked, show unmarked m' = unmarked m from h, edgeVert_unmarked]
theorem SameUnmarked.edgeSurf {m' m : Mesh} (h : SameUnmarked m' m) {v e : Int} :
    EdgeSurf m' v e ↔ EdgeSurf m v e := by
  rw [← edgeSurf_unmarked, show unmarked m' = unmarked m from h, edgeSurf_unmarked]
theorem SameUnmarked.surfEdge {m' m : Mesh} (h : SameUnmarked m' m) {v e : Int} :
    SurfEdge m' v e ↔ SurfEdge m v e := by
  rw [← surfEdge_unmarked, show unmarked m' = unmarked m from h, surfEdge_unmarked]
theorem SameUnmarked.surfVolu {m' m : Mesh} (h : SameUnmarked m' m) {v e : Int} :
    SurfVolu m' v e ↔ SurfVolu m v e := by
  rw [← surfVolu_unmarked, show unmarked m' = unmarked m from h, surfVolu_unmarked]
theorem SameUnmarked.voluSurf {m' m : Mesh} (h : SameUnmarked m' m) {v e : Int} :
    VoluSurf m' v e ↔ VoluSurf m v e := by
  rw [← voluSurf_unmarked, show unmarked m' = unmarked m from h, voluSurf_unmarked]
theorem SameUnmarked.hasVert {m' m : Mesh} (h : SameUnmarked m' m) {i : Int} :
    HasVert m' i ↔ HasVert m i := by
  rw [← hasVert_unmarked, show unmarked m' = unmarked m from h, hasVert_unmarked]
theorem SameUnmarked.hasEdge {m' m : Mesh} (h : SameUnmarked m' m) {i : Int} :
    HasEdge m' i ↔ HasEdge m i := by
  rw [← hasEdge_unmarked, show unmarked m' = unmarked m from h, hasEdge_unmarked]
theorem SameUnmarked.hasSurf {m' m : Mesh} (h : SameUnmarked m' m) {i : Int} :
    HasSurf m' i ↔ HasSurf m i := by
  rw [← hasSurf_unmarked, show unmarked m' = unmarked m from h, hasSurf_unmarked]
theorem SameUnmarked.hasVolu {m' m : Mesh} (h : SameUnmarked m' m) {i : Int} :
    HasVolu m' i ↔ HasVolu m i := by
  rw [← hasVolu_unmarked, show unmarked m' = unmarked m from h, hasVolu_unmarked]

theorem SameUnmarked.unique {m' m : Mesh} (h : SameUnmarked m' m) (hu : UniqueIndices m) :
    UniqueIndices m' := by
  have hv : (unmarked m').verts.map Vert.index = (unmarked m).verts.map Vert.index :=
    congrArg (fun x => x.verts.map Vert.index) h
  have he : (unmarked m').edges.map Edge.index = (unmarked m).edges.map Edge.index :=
    congrArg (fun x => x.edges.map Edge.index) h
  have hs : (unmarked m').surfs.map Surf.index = (unmarked m).surfs.map Surf.index :=
    congrArg (fun x => x.surfs.map Surf.index) h
  have hc : (unmarked m').volus.map Volu.index = (unmarked m).volus.map Volu.index :=
    congrArg (fun x => x.volus.map Volu.index) h
  simp only [unmarked, List.map_map, Function.comp_def] at hv he hs hc
  exact ⟨hv ▸ hu.verts, he ▸ hu.edges, hs ▸ hu.surfs, hc ▸ hu.volus⟩

theorem SameUnmarked.sound {m' m : Mesh} (h : SameUnmarked m' m) (hm : Sound m) : Sound m' := by
  refine ⟨h.unique hm.unique, ⟨?_, ?_, ?_, ?_⟩, ⟨?_, ?_, ?_, ?_, ?_, ?_⟩, ⟨?_, ?_, ?_, ?_⟩,
    ⟨?_, ?_, ?_⟩⟩
  · intro i; rw [h.hasVert]; exact hm.pos.verts i
  · intro i; rw [h.hasEdge]; exact hm.pos.edges i
  · intro i; rw [h.hasSurf]; exact hm.pos.surfs i
  · intro i; rw [h.hasVolu]; exact hm.pos.volus i
  · intro a b; rw [h.vertEdge, h.hasEdge]; exact hm.noDangling.vertEdge a b
  · intro a b; rw [h.edgeVert, h.hasVert]; exact hm.noDangling.edgeVert a b
  · intro a b; rw [h.edgeSurf, h.hasSurf]; exact hm.noDangling.edgeSurf a b
  · intro a b; rw [h.surfEdge, h.hasEdge]; exact hm.noDangling.surfEdge a b
  · intro a b; rw [h.surfVolu, h.hasVolu]; exact hm.noDangling.surfVolu a b
  · intro a b; rw [h.voluSurf, h.hasSurf]; exact hm.noDangling.voluSurf a b
  · intro a; rw [h.vertEdge]; exact hm.zeroOutside.vertEdge a
  · intro a; rw [h.edgeVert]; exact hm.zeroOutside.edgeVert a
  · intro a; rw [h.surfEdge]; exact hm.zeroOutside.surfEdge a
  · intro a; rw [h.voluSurf]; exact hm.zeroOutside.voluSurf a
  · intro a b; rw [h.vertEdge, h.edgeVert, h.hasVert, h.hasEdge]; exact hm.sym.vertEdge a b
  · intro a b; rw [h.edgeSurf, h.surfEdge, h.hasEdge, h.hasSurf]; exact hm.sym.edgeSurf a b
  · intro a b; rw [h.surfVolu, h.voluSurf, h.hasSurf, h.hasVolu]; exact hm.sym.surfVolu a b

/-! ### The stages -/

theorem hasEdge_of_vertEdge' {m : Mesh} (hm : Sound m) {v e : Int} (h : VertEdge m v e) :
    HasEdge m e :=
  hm.noDangling.vertEdge v e h (by rintro rfl; exact hm.zeroOutside.vertEdge v h)
theorem hasVert_of_edgeVert' {m : Mesh} (hm : Sound m) {v e : Int} (h : EdgeVert m e v) :
    HasVert m v :=
  hm.noDangling.edgeVert e v h (by rintro rfl; exact hm.zeroOutside.edgeVert e h)
theorem hasSurf_of_voluSurf' {m : Mesh} (hm : Sound m) {c s : Int} (h : VoluSurf m c s) :
    HasSurf m s :=
  hm.noDangling.voluSurf c s h (by rintro rfl; exact hm.zeroOutside.voluSurf c h)

theorem surfBorder_ok {m : Mesh} (hu : UniqueIndices m) {s : Int} (h : HasSurf m s) :
    ∃ b, surfBorder m.surfs s = .ok b ∧ (b = true ↔ SurfMarked m s) := lookup_ok hu.surfs h
theorem edgeBorder_ok {m : Mesh} (hu : UniqueIndices m) {s : Int} (h : HasEdge m s) :
    ∃ b, edgeBorder m.edges s = .ok b ∧ (b = true ↔ EdgeMarked m s) := lookup_ok hu.edges h
theorem vertBorder_ok {m : Mesh} (hu : UniqueIndices m) {s : Int} (h : HasVert m s) :
    ∃ b, vertBorder m.verts s = .ok b ∧ (b = true ↔ VertMarked m s) := lookup_ok hu.verts h

/-- A list scanned for marked elements. -/
theorem scan_ok {f : Int → Res Bool} {P : Int → Prop} {l : List Int}
    (h : ∀ x ∈ l, ∃ b, f x = .ok b ∧ (b = true ↔ P x)) :
    ∃ b, anyHit f l = .ok b ∧ (b = true ↔ ∃ x ∈ l, P x) := by
  obtain ⟨b, h1, h2⟩ := anyHit_ok (f := f) (l := l) (fun x hx => by
    obtain ⟨b, hb, _⟩ := h x hx; exact ⟨b, hb⟩)
  refine ⟨b, h1, ?_⟩
  rw [h2]
  constructor
  · rintro ⟨x, hx, hfx⟩
    obtain ⟨b', hb', hp⟩ := h x hx
    rw [hfx] at hb'; cases hb'
    exact ⟨x, hx, hp.mp rfl⟩
  · rintro ⟨x, hx, hp⟩
    obtain ⟨b', hb', hp'⟩ := h x hx
    rw [hp'.mpr hp] at hb'
    exact ⟨x, hx, hb'⟩

theorem edgeTouches_ok {m : Mesh} (hm : Sound m) {e : Int} (h : HasEdge m e) :
    ∃ b, m.edgeTouches e = .ok b ∧ (b = true ↔ ∃ v, EdgeVert m e v ∧ VertMarked m v) := by
  obtain ⟨x, h1, hx, hxi⟩ := elemAt_posOf_ok (ix := Edge.index) h
  have hev : ∀ v, v ∈ x.vertind ↔ EdgeVert m e v := by
    intro v
    constructor
    · intro hv; exact ⟨x, hx, hxi, hv⟩
    · rintro ⟨y, hy, hyi, hv⟩
      rw [inj_of_nodup hm.unique.edges hx hy (by rw [hxi, hyi])]; exact hv
  obtain ⟨b, h2, h3⟩ := scan_ok (f := vertBorder m.verts) (P := VertMarked m) (l := x.vertind)
    (fun v hv => vertBorder_ok hm.unique (hasVert_of_edgeVert' hm ((hev v).mp hv)))
  refine ⟨b, ?_, ?_⟩
  · unfold edgeTouches isearch
    rw [h1]
    exact h2
  · rw [h3]
    simp only [hev]

theorem surfTouches_ok {m : Mesh} (hm : Sound m) {s : Int} (h : HasSurf m s) :
    ∃ b, m.surfTouches s = .ok b ∧ (b = true ↔ ∃ v, SurfVert m s v ∧ VertMarked m v) := by
  obtain ⟨x, h1, hx, hxi⟩ := elemAt_posOf_ok (ix := Surf.index) h
  have hse : ∀ e, e ∈ x.edgeind ↔ SurfEdge m s e := by
    intro e
    constructor
    · intro he; exact ⟨x, hx, hxi, he⟩
    · rintro ⟨y, hy, hyi, he⟩
      rw [inj_of_nodup hm.unique.surfs hx hy (by rw [hxi, hyi])]; exact he
  obtain ⟨b, h2, h3⟩ := scan_ok (f := m.edgeTouches)
    (P := fun e => ∃ v, EdgeVert m e v ∧ VertMarked m v) (l := x.edgeind)
    (fun e he => edgeTouches_ok hm (hm.noDangling.surfEdge s e ((hse e).mp he)))
  refine ⟨b, ?_, ?_⟩
  · unfold surfTouches isearch
    rw [h1]
    exact h2
  · rw [h3]
    simp only [hse, SurfVert]
    constructor
    · rintro ⟨e, he, v, hv, hb⟩; exact ⟨v, ⟨e, he, hv⟩, hb⟩
    · rintro ⟨v, ⟨e, he, hv⟩, hb⟩; exact ⟨e, he, v, hv, hb⟩

theorem setBorders3_ok {m : Mesh} (hm : Sound m) (h0 : ∀ e, ¬ EdgeSurf m e 0) :
    ∃ m', setBorders3 m = .ok m' ∧ SameUnmarked m' m ∧
      (∀ s, SurfMarked m' s ↔ OutSurf3 m s) ∧ (∀ e, EdgeMarked m' e ↔ OutEdge3 m e) ∧
      (∀ c, VoluMarked m' c ↔ ∃ s, VoluSurf m c s ∧ OutSurf3 m s) := by
  obtain ⟨gs, s1, s2⟩ := markAll_ok (l := m.surfs) (set := fun (s : Surf) b => { s with isBorder := b })
    (f := fun s => anyHit (fun c => .ok (c == 0)) s.voluind) (fun s _ => by
      obtain ⟨b, hb, _⟩ := anyHit_ok (f := fun c => .ok (c == 0)) (l := s.voluind)
        (fun x _ => ⟨_, rfl⟩)
      exact ⟨b, hb⟩)
  have gs0 : ∀ s ∈ m.surfs, (gs s = true ↔ 0 ∈ s.voluind) := by
    intro s hs
    obtain ⟨b, hb, hb'⟩ := scan_ok (f := fun c => .ok (c == 0)) (P := fun c => c = 0)
      (l := s.voluind) (fun x _ => ⟨_, rfl, by simp⟩)
    have := s2 s hs
    rw [this] at hb
    cases hb
    rw [hb']
    simp
  let surfs' := m.surfs.map (fun (s : Surf) => { s with isBorder := gs s })
  have hmS : ∀ s, (∃ x ∈ surfs', x.index = s ∧ x.isBorder = true) ↔ OutSurf3 m s := by
    intro s
    show (∃ x ∈ m.surfs.map _, _) ↔ _
    simp only [List.mem_map, exists_exists_and_eq_and]
    constructor
    · rintro ⟨x, hx, hxi, hb⟩
      exact ⟨x, hx, hxi, (gs0 x hx).mp hb⟩
    · rintro ⟨x, hx, hxi, hb⟩
      exact ⟨x, hx, hxi, (gs0 x hx).mpr hb⟩
  have huS : (surfs'.map Surf.index).Nodup := by
    have : surfs'.map Surf.index = m.surfs.map Surf.index := by
      show (m.surfs.map _).map _ = _
      rw [List.map_map]; rfl
    rw [this]; exact hm.unique.surfs
  have lookS : ∀ s, HasSurf m s → ∃ b, surfBorder surfs' s = .ok b ∧ (b = true ↔ OutSurf3 m s) := by
    intro s hs
    obtain ⟨b, h1, h2⟩ := lookup_ok (ix := Surf.index) (bd := Surf.isBorder) (l := surfs')
      (k := s) huS (by
        obtain ⟨x, hx, hxi⟩ := hs
        exact ⟨_, List.mem_map.mpr ⟨x, hx, rfl⟩, hxi⟩)
    exact ⟨b, h1, by rw [h2, hmS]⟩
  have scanC : ∀ c ∈ m.volus, ∃ b, anyHit (surfBorder surfs') c.surfind = .ok b ∧
      (b = true ↔ ∃ s ∈ c.surfind, OutSurf3 m s) := by
    intro c hc
    exact scan_ok (fun s hs => lookS s (hasSurf_of_voluSurf' hm ⟨c, hc, rfl, hs⟩))
  have scanE : ∀ e ∈ m.edges, ∃ b, anyHit (surfBorder surfs') e.surfind = .ok b ∧
      (b = true ↔ ∃ s ∈ e.surfind, OutSurf3 m s) := by
    intro e he
    refine scan_ok (fun s hs => lookS s ?_)
    have hes : EdgeSurf m e.index s := ⟨e, he, rfl, hs⟩
    exact hm.noDangling.edgeSurf _ s hes (by rintro rfl; exact h0 _ hes)
  obtain ⟨gc, c1, c2⟩ := markAll_ok (l := m.volus) (set := fun (s : Volu) b => { s with isBorder := b })
    (f := fun c => anyHit (surfBorder surfs') c.surfind) (fun c hc => by
      obtain ⟨b, hb, _⟩ := scanC c hc; exact ⟨b, hb⟩)
  obtain ⟨ge, e1, e2⟩ := markAll_ok (l := m.edges) (set := fun (s : Edge) b => { s with isBorder := b })
    (f := fun e => anyHit (surfBorder surfs') e.surfind) (fun e he => by
      obtain ⟨b, hb, _⟩ := scanE e he; exact ⟨b, hb⟩)
  refine ⟨{ m with
    surfs := surfs', volus := m.volus.map (fun (c : Volu) => { c with isBorder := gc c }),
    edges := m.edges.map (fun (e : Edge) => { e with isBorder := ge e }) }, ?_, ?_, hmS, ?_, ?_⟩
  · unfold setBorders3
    rw [s1]
    show (markAll (fun c => anyHit (surfBorder surfs') c.surfind) _ m.volus >>= _) = _
    rw [c1]
    show (markAll (fun e => anyHit (surfBorder surfs') e.surfind) _ m.edges >>= _) = _
    rw [e1]
    rfl
  · show unmarked _ = unmarked m
    simp [unmarked, surfs', Function.comp_def]
  · intro e
    show (∃ x ∈ m.edges.map _, _) ↔ _
    simp only [List.mem_map, exists_exists_and_eq_and]
    constructor
    · rintro ⟨x, hx, rfl, hb⟩
      obtain ⟨b, h1, h2⟩ := scanE x hx
      have h3 := e2 x hx
      rw [h1] at h3; cases h3
      obtain ⟨s, hs, ho⟩ := h2.mp hb
      exact ⟨s, ⟨x, hx, rfl, hs⟩, ho⟩
    · rintro ⟨s, ⟨x, hx, rfl, hs⟩, ho⟩
      obtain ⟨b, h1, h2⟩ := scanE x hx
      have h3 := e2 x hx
      rw [h1] at h3; cases h3
      exact ⟨x, hx, rfl, h2.mpr ⟨s, hs, ho⟩⟩
  · intro e
    show (∃ x ∈ m.volus.map _, _) ↔ _
    simp only [List.mem_map, exists_exists_and_eq_and]
    constructor
    · rintro ⟨x, hx, rfl, hb⟩
      obtain ⟨b, h1, h2⟩ := scanC x hx
      have h3 := c2 x hx
      rw [h1] at h3; cases h3
      obtain ⟨s, hs, ho⟩ := h2.mp hb
      exact ⟨s, ⟨x, hx, rfl, hs⟩, ho⟩
    · rintro ⟨s, ⟨x, hx, rfl, hs⟩, ho⟩
      obtain ⟨b, h1, h2⟩ := scanC x hx
      have h3 := c2 x hx
      rw [h1] at h3; cases h3
      exact ⟨x, hx, rfl, h2.mpr ⟨s, hs, ho⟩⟩

theorem setBorders2_ok {m : Mesh} (hm : Sound m) :
    ∃ m', setBorders2 m = .ok m' ∧ SameUnmarked m' m ∧
      (∀ e, EdgeMarked m' e ↔ OutEdge2 m e) ∧
      (∀ s, SurfMarked m' s ↔ ∃ e, SurfEdge m s e ∧ OutEdge2 m e) := by
  have scanE : ∀ e ∈ m.edges, ∃ b, anyHit (fun s => .ok (s == 0)) e.surfind = .ok b ∧
      (b = true ↔ 0 ∈ e.surfind) := by
    intro e _
    obtain ⟨b, hb, hb'⟩ := scan_ok (f := fun c => .ok (c == 0)) (P := fun c => c = 0)
      (l := e.surfind) (fun x _ => ⟨_, rfl, by simp⟩)
    exact ⟨b, hb, by rw [hb']; simp⟩
  obtain ⟨ge, e1, e2⟩ := markAll_ok (l := m.edges) (set := fun (s : Edge) b => { s with isBorder := b })
    (f := fun e => anyHit (fun s => .ok (s == 0)) e.surfind) (fun e he => by
      obtain ⟨b, hb, _⟩ := scanE e he; exact ⟨b, hb⟩)
  let edges' := m.edges.map (fun (e : Edge) => { e with isBorder := ge e })
  have hmE : ∀ s, (∃ x ∈ edges', x.index = s ∧ x.isBorder = true) ↔ OutEdge2 m s := by
    intro s
    show (∃ x ∈ m.edges.map _, _) ↔ _
    simp only [List.mem_map, exists_exists_and_eq_and]
    have h3 : ∀ x ∈ m.edges, (ge x = true ↔ 0 ∈ x.surfind) := by
      intro x hx
      obtain ⟨b, h1, h2⟩ := scanE x hx
      have h3 := e2 x hx
      rw [h1] at h3; cases h3
      exact h2
    constructor
    · rintro ⟨x, hx, hxi, hb⟩
      exact ⟨x, hx, hxi, (h3 x hx).mp hb⟩
    · rintro ⟨x, hx, hxi, hb⟩
      exact ⟨x, hx, hxi, (h3 x hx).mpr hb⟩
  have huE : (edges'.map Edge.index).Nodup := by
    have : edges'.map Edge.index = m.edges.map Edge.index := by
      show (m.edges.map _).map _ = _
      rw [List.map_map]; rfl
    rw [this]; exact hm.unique.edges
  have lookE : ∀ s, HasEdge m s → ∃ b, edgeBorder edges' s = .ok b ∧ (b = true ↔ OutEdge2 m s) := by
    intro s hs
    obtain ⟨b, h1, h2⟩ := lookup_ok (ix := Edge.index) (bd := Edge.isBorder) (l := edges')
      (k := s) huE (by
        obtain ⟨x, hx, hxi⟩ := hs
        exact ⟨_, List.mem_map.mpr ⟨x, hx, rfl⟩, hxi⟩)
    exact ⟨b, h1, by rw [h2, hmE]⟩
  have scanS : ∀ c ∈ m.surfs, ∃ b, anyHit (edgeBorder edges') c.edgeind = .ok b ∧
      (b = true ↔ ∃ s ∈ c.edgeind, OutEdge2 m s) := by
    intro c hc
    exact scan_ok (fun s hs => lookE s (hm.noDangling.surfEdge _ s ⟨c, hc, rfl, hs⟩))
  obtain ⟨gc, c1, c2⟩ := markAll_ok (l := m.surfs) (set := fun (s : Surf) b => { s with isBorder := b })
    (f := fun c => anyHit (edgeBorder edges') c.edgeind) (fun c hc => by
      obtain ⟨b, hb, _⟩ := scanS c hc; exact ⟨b, hb⟩)
  refine ⟨{ m with
    surfs := m.surfs.map (fun (c : Surf) => { c with isBorder := gc c }), edges := edges' },
    ?_, ?_, hmE, ?_⟩
  · unfold setBorders2
    rw [e1]
    show (markAll (fun c => anyHit (edgeBorder edges') c.edgeind) _ m.surfs >>= _) = _
    rw [c1]
    rfl
  · show unmarked _ = unmarked m
    simp [unmarked, edges', Function.comp_def]
  · intro e
    show (∃ x ∈ m.surfs.map _, _) ↔ _
    simp only [List.mem_map, exists_exists_and_eq_and]
    constructor
    · rintro ⟨x, hx, rfl, hb⟩
      obtain ⟨b, h1, h2⟩ := scanS x hx
      have h3 := c2 x hx
      rw [h1] at h3; cases h3
      obtain ⟨s, hs, ho⟩ := h2.mp hb
      exact ⟨s, ⟨x, hx, rfl, hs⟩, ho⟩
    · rintro ⟨s, ⟨x, hx, rfl, hs⟩, ho⟩
      obtain ⟨b, h1, h2⟩ := scanS x hx
      have h3 := c2 x hx
      rw [h1] at h3; cases h3
      exact ⟨x, hx, rfl, h2.mpr ⟨s, hs, ho⟩⟩

theorem setBordersVert_ok {m : Mesh} (hm : Sound m) :
    ∃ m', setBordersVert m = .ok m' ∧ SameUnmarked m' m ∧
      m'.edges = m.edges ∧ m'.surfs = m.surfs ∧ m'.volus = m.volus ∧
      (∀ v, VertMarked m' v ↔ ∃ e, VertEdge m v e ∧ EdgeMarked m e) := by
  have scanV : ∀ c ∈ m.verts, ∃ b, anyHit (edgeBorder m.edges) c.edgeind = .ok b ∧
      (b = true ↔ ∃ s ∈ c.edgeind, EdgeMarked m s) := by
    intro c hc
    exact scan_ok (fun s hs => edgeBorder_ok hm.unique (hasEdge_of_vertEdge' hm ⟨c, hc, rfl, hs⟩))
  obtain ⟨gc, c1, c2⟩ := markAll_ok (l := m.verts) (set := fun (s : Vert) b => { s with isBorder := b })
    (f := fun c => anyHit (edgeBorder m.edges) c.edgeind) (fun c hc => by
      obtain ⟨b, hb, _⟩ := scanV c hc; exact ⟨b, hb⟩)
  refine ⟨{ m with
    verts := m.verts.map (fun (c : Vert) => { c with isBorder := gc c }) },
    ?_, ?_, rfl, rfl, rfl, ?_⟩
  · unfold setBordersVert
    rw [c1]
    rfl
  · show unmarked _ = unmarked m
    simp [unmarked, Function.comp_def]
  · intro e
    show (∃ x ∈ m.verts.map _, _) ↔ _
    simp only [List.mem_map, exists_exists_and_eq_and]
    constructor
    · rintro ⟨x, hx, rfl, hb⟩
      obtain ⟨b, h1, h2⟩ := scanV x hx
      have h3 := c2 x hx
      rw [h1] at h3; cases h3
      obtain ⟨s, hs, ho⟩ := h2.mp hb
      exact ⟨s, ⟨x, hx, rfl, hs⟩, ho⟩
    · rintro ⟨s, ⟨x, hx, rfl, hs⟩, ho⟩
      obtain ⟨b, h1, h2⟩ := scanV x hx
      have h3 := c2 x hx
      rw [h1] at h3; cases h3
      exact ⟨x, hx, rfl, h2.mpr ⟨s, hs, ho⟩⟩

theorem spreadVolu_ok {m : Mesh} (hm : Sound m) :
    ∃ m', spreadVolu m = .ok m' ∧ SameUnmarked m' m ∧
      m'.verts = m.verts ∧ m'.edges = m.edges ∧ m'.surfs = m.surfs ∧
      (∀ c, VoluMarked m' c ↔ (VoluMarked m c ∨ ∃ v, VoluVert m c v ∧ VertMarked m v)) := by
  have scan : ∀ c ∈ m.volus, ∃ b, (if c.isBorder then .ok true else
      anyHit m.surfTouches c.surfind : Res Bool) = .ok b ∧
      (b = true ↔ (c.isBorder = true ∨ ∃ s ∈ c.surfind, ∃ v, SurfVert m s v ∧ VertMarked m v)) := by
    intro c hc
    by_cases hb : c.isBorder = true
    · exact ⟨true, by rw [if_pos hb], by simp [hb]⟩
    · obtain ⟨b, h1, h2⟩ := scan_ok (f := m.surfTouches)
        (P := fun s => ∃ v, SurfVert m s v ∧ VertMarked m v) (l := c.surfind)
        (fun s hs => surfTouches_ok hm (hasSurf_of_voluSurf' hm ⟨c, hc, rfl, hs⟩))
      refine ⟨b, by rw [if_neg hb]; exact h1, ?_⟩
      rw [h2]
      simp [hb]
  obtain ⟨gc, c1, c2⟩ := markAll_ok (l := m.volus) (set := fun (s : Volu) b => { s with isBorder := b })
    (f := fun c => if c.isBorder then .ok true else anyHit m.surfTouches c.surfind) (fun c hc => by
      obtain ⟨b, hb, _⟩ := scan c hc; exact ⟨b, hb⟩)
  refine ⟨{ m with
    volus := m.volus.map (fun (c : Volu) => { c with isBorder := gc c }) },
    ?_, ?_, rfl, rfl, rfl, ?_⟩
  · unfold spreadVolu
    rw [c1]
    rfl
  · show unmarked _ = unmarked m
    simp [unmarked, Function.comp_def]
  · intro c
    show (∃ x ∈ m.volus.map _, _) ↔ _
    simp only [List.mem_map, exists_exists_and_eq_and]
    have hg : ∀ x ∈ m.volus, (gc x = true ↔
        (x.isBorder = true ∨ ∃ s ∈ x.surfind, ∃ v, SurfVert m s v ∧ VertMarked m v)) := by
      intro x hx
      obtain ⟨b, h1, h2⟩ := scan x hx
      have h3 := c2 x hx
      rw [h1] at h3; cases h3
      exact h2
    constructor
    · rintro ⟨x, hx, rfl, hb⟩
      rcases (hg x hx).mp hb with h | ⟨s, hs, v, ⟨e, he, hv⟩, hm'⟩
      · exact Or.inl ⟨x, hx, rfl, h⟩
      · exact Or.inr ⟨v, ⟨s, e, ⟨x, hx, rfl, hs⟩, he, hv⟩, hm'⟩
    · rintro (⟨x, hx, rfl, h⟩ | ⟨v, ⟨s, e, ⟨x, hx, rfl, hs⟩, he, hv⟩, hm'⟩)
      · exact ⟨x, hx, rfl, (hg x hx).mpr (Or.inl h)⟩
      · exact ⟨x, hx, rfl, (hg x hx).mpr (Or.inr ⟨s, hs, v, ⟨e, he, hv⟩, hm'⟩)⟩

theorem spreadSurf_ok {m : Mesh} (hm : Sound m) :
    ∃ m', spreadSurf m = .ok m' ∧ SameUnmarked m' m ∧
      m'.verts = m.verts ∧ m'.edges = m.edges ∧ m'.volus = m.volus ∧
      (∀ c, SurfMarked m' c ↔ (SurfMarked m c ∨ ∃ v, SurfVert m c v ∧ VertMarked m v)) := by
  have scan : ∀ c ∈ m.surfs, ∃ b, (if c.isBorder then .ok true else
      anyHit m.edgeTouches c.edgeind : Res Bool) = .ok b ∧
      (b = true ↔ (c.isBorder = true ∨ ∃ s ∈ c.edgeind, ∃ v, EdgeVert m s v ∧ VertMarked m v)) := by
    intro c hc
    by_cases hb : c.isBorder = true
    · exact ⟨true, by rw [if_pos hb], by simp [hb]⟩
    · obtain ⟨b, h1, h2⟩ := scan_ok (f := m.edgeTouches)
        (P := fun s => ∃ v, EdgeVert m s v ∧ VertMarked m v) (l := c.edgeind)
        (fun s hs => edgeTouches_ok hm (hm.noDangling.surfEdge _ s ⟨c, hc, rfl, hs⟩))
      refine ⟨b, by rw [if_neg hb]; exact h1, ?_⟩
      rw [h2]
      simp [hb]
  obtain ⟨gc, c1, c2⟩ := markAll_ok (l := m.surfs) (set := fun (s : Surf) b => { s with isBorder := b })
    (f := fun c => if c.isBorder then .ok true else anyHit m.edgeTouches c.edgeind) (fun c hc => by
      obtain ⟨b, hb, _⟩ := scan c hc; exact ⟨b, hb⟩)
  refine ⟨{ m with
    surfs := m.surfs.map (fun (c : Surf) => { c with isBorder := gc c }) },
    ?_, ?_, rfl, rfl, rfl, ?_⟩
  · unfold spreadSurf
    rw [c1]
    rfl
  · show unmarked _ = unmarked m
    simp [unmarked, Function.comp_def]
  · intro c
    show (∃ x ∈ m.surfs.map _, _) ↔ _
    simp only [List.mem_map, exists_exists_and_eq_and]
    have hg : ∀ x ∈ m.surfs, (gc x = true ↔
        (x.isBorder = true ∨ ∃ s ∈ x.edgeind, ∃ v, EdgeVert m s v ∧ VertMarked m v)) := by
      intro x hx
      obtain ⟨b, h1, h2⟩ := scan x hx
      have h3 := c2 x hx
      rw [h1] at h3; cases h3
      exact h2
    constructor
    · rintro ⟨x, hx, rfl, hb⟩
      rcases (hg x hx).mp hb with h | ⟨s, hs, v, hv, hm'⟩
      · exact Or.inl ⟨x, hx, rfl, h⟩
      · exact Or.inr ⟨v, ⟨s, ⟨x, hx, rfl, hs⟩, hv⟩, hm'⟩
    · rintro (⟨x, hx, rfl, h⟩ | ⟨v, ⟨s, ⟨x, hx, rfl, hs⟩, hv⟩, hm'⟩)
      · exact ⟨x, hx, rfl, (hg x hx).mpr (Or.inl h)⟩
      · exact ⟨x, hx, rfl, (hg x hx).mpr (Or.inr ⟨s, hs, v, hv, hm'⟩)⟩

theorem setBorders_ok3 {m : Mesh} (hm : Sound m) (h3 : m.volus ≠ []) (h0 : ∀ e, ¬ EdgeSurf m e 0) :
    ∃ m', setBorders m = .ok m' ∧ Marked3 m m' := by
  obtain ⟨m1, a1, a2, a3, a4, a5⟩ := setBorders3_ok hm h0
  obtain ⟨m2, b1, b2, b3, b4, b5, b6⟩ := setBordersVert_ok (a2.sound hm)
  have s2 : SameUnmarked m2 m := (show unmarked m2 = unmarked m1 from b2).trans a2
  obtain ⟨m', c1, c2, c3, c4, c5, c6⟩ := spreadVolu_ok (s2.sound hm)
  have s3 : SameUnmarked m' m := (show unmarked m' = unmarked m2 from c2).trans s2
  have hv2 : ∀ v, VertMarked m2 v ↔ OutVert3 m v := by
    intro v
    rw [b6]
    unfold OutVert3
    simp only [a2.vertEdge, a4]
  refine ⟨m', ?_, s3, ?_, ?_, ?_, ?_⟩
  · unfold setBorders
    rw [if_pos (by cases hc : m.volus with | nil => exact absurd hc h3 | cons a l => simp), a1]
    show (setBordersVert m1 >>= _) = _
    rw [b1]
    exact c1
  · intro s
    rw [← a3]
    unfold SurfMarked
    rw [c5, b4]
  · intro s
    rw [← a4]
    unfold EdgeMarked
    rw [c4, b3]
  · intro v
    rw [← hv2]
    unfold VertMarked
    rw [c3]
  · intro c
    rw [c6]
    have h1 : VoluMarked m2 c ↔ ∃ s, VoluSurf m c s ∧ OutSurf3 m s := by
      rw [← a5]; unfold VoluMarked; rw [b5]
    rw [h1]
    simp only [VoluVert, s2.voluSurf, s2.surfEdge, s2.edgeVert, hv2]

theorem setBorders_ok2 {m : Mesh} (hm : Sound m) (h3 : m.volus = []) :
    ∃ m', setBorders m = .ok m' ∧ Marked2 m m' := by
  obtain ⟨m1, a1, a2, a3, a4⟩ := setBorders2_ok hm
  obtain ⟨m2, b1, b2, b3, b4, b5, b6⟩ := setBordersVert_ok (a2.sound hm)
  have s2 : SameUnmarked m2 m := (show unmarked m2 = unmarked m1 from b2).trans a2
  obtain ⟨m', c1, c2, c3, c4, c5, c6⟩ := spreadSurf_ok (s2.sound hm)
  have s3 : SameUnmarked m' m := (show unmarked m' = unmarked m2 from c2).trans s2
  have hv2 : ∀ v, VertMarked m2 v ↔ OutVert2 m v := by
    intro v
    rw [b6]
    unfold OutVert2
    simp only [a2.vertEdge, a3]
  refine ⟨m', ?_, s3, ?_, ?_, ?_⟩
  · unfold setBorders
    rw [if_neg (by rw [h3]; simp), a1]
    show (setBordersVert m1 >>= _) = _
    rw [b1]
    exact c1
  · intro s
    rw [← a3]
    unfold EdgeMarked
    rw [c4, b3]
  · intro v
    rw [← hv2]
    unfold VertMarked
    rw [c3]
  · intro c
    rw [c6]
    have h1 : SurfMarked m2 c ↔ ∃ s, SurfEdge m c s ∧ OutEdge2 m s := by
      rw [← a4]; unfold SurfMarked; rw [b4]
    rw [h1]
    simp only [SurfVert, s2.surfEdge, s2.edgeVert, hv2]

/-- Lists which agree except for marks, and have the same marks, are equal. -/
theorem eq_of_marks {α : Type} {ix : α → Int} {bd : α → Bool} {er : α → α}
    (her : ∀ a b, er a = er b → bd a = bd b → a = b) (hix : ∀ a, ix (er a) = ix a)
    {l l' : List α} (hn : (l.map ix).Nodup) (h : l.map er = l'.map er)
    (hm : ∀ i, (∃ a ∈ l, ix a = i ∧ bd a = true) ↔ (∃ a ∈ l', ix a = i ∧ bd a = true)) :
    l = l' := by
  have hixl : l.map ix = l'.map ix := by
    have := congrArg (List.map ix) h
    simpa [List.map_map, Function.comp_def, hix] using this
  have hlen : l.length = l'.length := by simpa using congrArg List.length h
  have hn' : (l'.map ix).Nodup := hixl ▸ hn
  apply List.ext_getElem hlen
  intro k hk hk'
  have e1 : er l[k] = er l'[k] := by
    have := congrArg (fun x => x[k]?) h
    simpa [hk, hk'] using this
  apply her _ _ e1
  have hi : ix l[k] = ix l'[k] := by rw [← hix, e1, hix]
  have key : ∀ {l : List α}, (l.map ix).Nodup → ∀ a ∈ l,
      ((∃ b ∈ l, ix b = ix a ∧ bd b = true) ↔ bd a = true) := by
    intro l hn a ha
    constructor
    · rintro ⟨b, hb, hbi, hbd⟩
      rw [← inj_of_nodup hn hb ha hbi]; exact hbd
    · intro h; exact ⟨a, ha, rfl, h⟩
  have h1 := key hn _ (List.getElem_mem hk)
  have h2 := key hn' _ (List.getElem_mem hk')
  have h3 := hm (ix l[k])
  rw [h1, hi, h2] at h3
  cases hx : bd l[k] <;> cases hy : bd l'[k] <;> simp_all

theorem mesh_eq_of_marks {a b : Mesh} (hu : UniqueIndices a) (h : SameUnmarked a b)
    (hv : ∀ i, VertMarked a i ↔ VertMarked b i) (he : ∀ i, EdgeMarked a i ↔ EdgeMarked b i)
    (hs : ∀ i, SurfMarked a i ↔ SurfMarked b i) (hc : ∀ i, VoluMarked a i ↔ VoluMarked b i) :
    a = b := by
  have h' : unmarked a = unmarked b := h
  unfold unmarked at h'
  obtain ⟨av, ae, as, ac, ad⟩ := a
  obtain ⟨bv, be, bs, bc, bd⟩ := b
  simp only [Mesh.mk.injEq] at h'
  obtain ⟨h1, h2, h3, h4, h5⟩ := h'
  have e1 : av = bv := eq_of_marks (ix := Vert.index) (bd := Vert.isBorder)
    (er := fun x => { x with isBorder := false })
    (fun a b => by cases a; cases b; simp; tauto) (fun _ => rfl) hu.verts h1 hv
  have e2 : ae = be := eq_of_marks (ix := Edge.index) (bd := Edge.isBorder)
    (er := fun x => { x with isBorder := false })
    (fun a b => by cases a; cases b; simp; tauto) (fun _ => rfl) hu.edges h2 he
  have e3 : as = bs := eq_of_marks (ix := Surf.index) (bd := Surf.isBorder)
    (er := fun x => { x with isBorder := false })
    (fun a b => by cases a; cases b; simp; tauto) (fun _ => rfl) hu.surfs h3 hs
  have e4 : ac = bc := eq_of_marks (ix := Volu.index) (bd := Volu.isBorder)
    (er := fun x => { x with isBorder := false })
    (fun a b => by cases a; cases b; simp; tauto) (fun _ => rfl) hu.volus h4 hc
  rw [e1, e2, e3, e4, h5]

/-! ### Vertices off the border -/

/-- A loop which appends lists. -/
theorem flatMapM_ok {α : Type} {f : α → Res (List Int)} {P : α → Int → Prop} {l : List α}
    (h : ∀ x ∈ l, ∃ ys, f x = .ok ys ∧ ∀ y, y ∈ ys ↔ P x y) :
    ∃ ys, l.mapM f = .ok ys ∧ ∀ y, y ∈ ys.flatten ↔ ∃ x ∈ l, P x y := by
  obtain ⟨ys, h1, h2⟩ := mapM_ok_of (f := f) (l := l) (fun x hx => by
    obtain ⟨y, hy, _⟩ := h x hx; exact ⟨y, hy⟩)
  refine ⟨ys, h1, ?_⟩
  intro y
  rw [List.mem_flatten]
  constructor
  · rintro ⟨z, hz, hy⟩
    obtain ⟨x, hx, hfx⟩ := (h2 z).mp hz
    obtain ⟨z', hz', hp⟩ := h x hx
    rw [hfx] at hz'; cases hz'
    exact ⟨x, hx, (hp y).mp hy⟩
  · rintro ⟨x, hx, hp⟩
    obtain ⟨z, hz, hp'⟩ := h x hx
    exact ⟨z, (h2 z).mpr ⟨x, hx, hz⟩, (hp' y).mpr hp⟩

theorem offBorderEdge_ok {m : Mesh} (hm : Sound m) {e : Int} (h : HasEdge m e) :
    ∃ ys, m.offBorderEdge e = .ok ys ∧
      ∀ v, v ∈ ys ↔ EdgeVert m e v ∧ ¬ VertMarked m v := by
  obtain ⟨x, h1, hx, hxi⟩ := elemAt_posOf_ok (ix := Edge.index) h
  have hev : ∀ v, v ∈ x.vertind ↔ EdgeVert m e v := by
    intro v
    constructor
    · intro hv; exact ⟨x, hx, hxi, hv⟩
    · rintro ⟨y, hy, hyi, hv⟩
      rw [inj_of_nodup hm.unique.edges hx hy (by rw [hxi, hyi])]; exact hv
  obtain ⟨ys, h2, h3⟩ := flatMapM_ok (f := fun v => do
      let b ← vertBorder m.verts v
      pure (if b then [] else [v])) (P := fun v w => w = v ∧ ¬ VertMarked m v) (l := x.vertind)
    (fun v hv => by
      obtain ⟨b, hb, hb'⟩ := vertBorder_ok hm.unique (hasVert_of_edgeVert' hm ((hev v).mp hv))
      refine ⟨if b then [] else [v], by rw [hb]; rfl, ?_⟩
      intro w
      rw [← hb']
      cases b <;> simp)
  refine ⟨ys.flatten, ?_, ?_⟩
  · unfold offBorderEdge isearch
    rw [h1]
    show ((List.mapM (m := Except Fault) _ x.vertind) >>= _) = _
    rw [h2]
    rfl
  · intro v
    rw [h3]
    simp only [hev]
    constructor
    · rintro ⟨w, hw, rfl, hn⟩; exact ⟨hw, hn⟩
    · rintro ⟨hw, hn⟩; exact ⟨v, hw, rfl, hn⟩

theorem offBorderSurf_ok {m : Mesh} (hm : Sound m) {s : Int} (h : HasSurf m s) :
    ∃ ys, m.offBorderSurf s = .ok ys ∧
      ∀ v, v ∈ ys ↔ SurfVert m s v ∧ ¬ VertMarked m v := by
  obtain ⟨x, h1, hx, hxi⟩ := elemAt_posOf_ok (ix := Surf.index) h
  have hse : ∀ v, v ∈ x.edgeind ↔ SurfEdge m s v := by
    intro v
    constructor
    · intro hv; exact ⟨x, hx, hxi, hv⟩
    · rintro ⟨y, hy, hyi, hv⟩
      rw [inj_of_nodup hm.unique.surfs hx hy (by rw [hxi, hyi])]; exact hv
  obtain ⟨ys, h2, h3⟩ := flatMapM_ok (f := m.offBorderEdge)
    (P := fun e v => EdgeVert m e v ∧ ¬ VertMarked m v) (l := x.edgeind)
    (fun e he => offBorderEdge_ok hm (hm.noDangling.surfEdge s e ((hse e).mp he)))
  refine ⟨ys.flatten, ?_, ?_⟩
  · unfold offBorderSurf isearch
    rw [h1]
    show ((List.mapM (m := Except Fault) _ x.edgeind) >>= _) = _
    rw [h2]
    rfl
  · intro v
    rw [h3]
    simp only [hse, SurfVert]
    constructor
    · rintro ⟨e, he, hv, hn⟩; exact ⟨⟨e, he, hv⟩, hn⟩
    · rintro ⟨⟨e, he, hv⟩, hn⟩; exact ⟨e, he, hv, hn⟩

theorem outerSel_ok {outer : Int} {eps : ℚ} {vals : Int → List ℚ}
    (ho : outer = -1 ∨ outer = 0 ∨ outer = 1) (c : Volu) :
    ∃ b, outerSel outer eps vals c = .ok b ∧
      (b = true ↔ c.isBorder = true ∧ Wanted outer eps (vals c.index)) := by
  unfold outerSel
  cases hc : c.isBorder with
  | false => exact ⟨false, rfl, by simp⟩
  | true =>
    unfold outerTest Wanted
    rcases ho with rfl | rfl | rfl
    · exact ⟨true, rfl, by simp⟩
    · exact ⟨_, rfl, by simp⟩
    · exact ⟨_, rfl, by simp⟩

theorem offBorderVolu_ok {m : Mesh} (hm : Sound m) {outer : Int} {eps : ℚ} {vals : Int → List ℚ}
    (ho : outer = -1 ∨ outer = 0 ∨ outer = 1) {c : Volu} (hc : c ∈ m.volus) :
    ∃ vs cs, m.offBorderVolu outer eps vals c = .ok (vs, cs) ∧
      ((c.isBorder = true ∧ Wanted outer eps (vals c.index)) → cs = [c.index]) ∧
      (¬ (c.isBorder = true ∧ Wanted outer eps (vals c.index)) → cs = []) ∧
      (∀ v, v ∈ vs ↔ cs = [c.index] ∧ VoluVert m c.index v ∧ ¬ VertMarked m v) := by
  obtain ⟨b, h1, h2⟩ := outerSel_ok (eps := eps) (vals := vals) ho c
  unfold offBorderVolu
  rw [h1]
  cases b with
  | false =>
    refine ⟨[], [], rfl, fun h => absurd (h2.mpr h) (by simp), fun _ => rfl, by simp⟩
  | true =>
    have hvs : ∀ s, s ∈ c.surfind ↔ VoluSurf m c.index s := by
      intro s
      constructor
      · intro hs; exact ⟨c, hc, rfl, hs⟩
      · rintro ⟨y, hy, hyi, hs⟩
        rw [← inj_of_nodup hm.unique.volus hy hc hyi]; exact hs
    obtain ⟨ys, h3, h4⟩ := flatMapM_ok (f := m.offBorderSurf)
      (P := fun s v => SurfVert m s v ∧ ¬ VertMarked m v) (l := c.surfind)
      (fun s hs => offBorderSurf_ok hm (hasSurf_of_voluSurf' hm ((hvs s).mp hs)))
    refine ⟨ys.flatten, [c.index], ?_, fun _ => rfl, fun h => absurd (h2.mp rfl) h, ?_⟩
    · show ((List.mapM (m := Except Fault) _ c.surfind) >>= _) = _
      rw [h3]
      rfl
    · intro v
      rw [h4]
      simp only [hvs, SurfVert, VoluVert, true_and]
      constructor
      · rintro ⟨s, hs, ⟨e, he, hv⟩, hn⟩; exact ⟨⟨s, e, hs, he, hv⟩, hn⟩
      · rintro ⟨⟨s, e, hs, he, hv⟩, hn⟩; exact ⟨s, hs, ⟨e, he, hv⟩, hn⟩

theorem getOffBorderVert3D_ok {m : Mesh} (hm : Sound m) {outer : Int} {eps : ℚ}
    {vals : Int → List ℚ} (ho : outer = -1 ∨ outer = 0 ∨ outer = 1) :
    ∃ vs cs, getOffBorderVert3D m outer eps vals = .ok (vs, cs) ∧
      cs.Sublist (m.volus.map Volu.index) ∧
      (∀ c, c ∈ cs ↔ VoluMarked m c ∧ Wanted outer eps (vals c)) ∧
      (∀ v, v ∈ vs ↔ ∃ c ∈ cs, VoluVert m c v ∧ ¬ VertMarked m v) := by
  have key : ∀ l : List Volu, (∀ c ∈ l, c ∈ m.volus) →
      ∃ r, l.mapM (m.offBorderVolu outer eps vals) = .ok r ∧
      ((r.map Prod.snd).flatten).Sublist (l.map Volu.index) ∧
      (∀ c, c ∈ (r.map Prod.snd).flatten ↔
        ∃ x ∈ l, x.index = c ∧ x.isBorder = true ∧ Wanted outer eps (vals c)) ∧
      (∀ v, v ∈ (r.map Prod.fst).flatten ↔
        ∃ c ∈ (r.map Prod.snd).flatten, VoluVert m c v ∧ ¬ VertMarked m v) := by
    intro l
    induction l with
    | nil => intro _; exact ⟨[], rfl, by simp, by simp, by simp⟩
    | cons a l ih =>
      intro hl
      obtain ⟨vs, cs, h1, h2, h3, h4⟩ := offBorderVolu_ok (eps := eps) (vals := vals) hm ho
        (hl a (by simp))
      obtain ⟨r, r1, r2, r3, r4⟩ := ih (fun c hc => hl c (by simp [hc]))
      refine ⟨(vs, cs) :: r, ?_, ?_, ?_, ?_⟩
      · rw [List.mapM_cons, h1, r1]; rfl
      · simp only [List.map_cons, List.flatten_cons]
        by_cases hw : a.isBorder = true ∧ Wanted outer eps (vals a.index)
        · rw [h2 hw]; exact r2.cons_cons _
        · rw [h3 hw]; exact r2.cons _
      · intro c
        simp only [List.map_cons, List.flatten_cons, List.mem_append, r3]
        by_cases hw : a.isBorder = true ∧ Wanted outer eps (vals a.index)
        · rw [h2 hw]
          constructor
          · rintro (h | ⟨x, hx, h⟩)
            · have : c = a.index := by simpa using h
              subst this
              exact ⟨a, by simp, rfl, hw⟩
            · exact ⟨x, by simp [hx], h⟩
          · rintro ⟨x, hx, hxi, h⟩
            rcases List.mem_cons.mp hx with rfl | hx
            · exact Or.inl (by simp [hxi])
            · exact Or.inr ⟨x, hx, hxi, h⟩
        · rw [h3 hw]
          constructor
          · rintro (h | ⟨x, hx, h⟩)
            · cases h
            · exact ⟨x, by simp [hx], h⟩
          · rintro ⟨x, hx, hxi, h⟩
            rcases List.mem_cons.mp hx with rfl | hx
            · subst hxi; exact absurd h hw
            · exact Or.inr ⟨x, hx, hxi, h⟩
      · intro v
        simp only [List.map_cons, List.flatten_cons, List.mem_append, h4, r4]
        by_cases hw : a.isBorder = true ∧ Wanted outer eps (vals a.index)
        · rw [h2 hw]
          constructor
          · rintro (⟨_, h⟩ | ⟨c, hc, h⟩)
            · exact ⟨a.index, by simp, h⟩
            · exact ⟨c, Or.inr hc, h⟩
          · rintro ⟨c, hc | hc, h⟩
            · have : c = a.index := by simpa using hc
              subst this
              exact Or.inl ⟨rfl, h⟩
            · exact Or.inr ⟨c, hc, h⟩
        · rw [h3 hw]
          simp
  obtain ⟨r, r1, r2, r3, r4⟩ := key m.volus (fun _ h => h)
  refine ⟨_, _, ?_, r2, ?_, r4⟩
  · unfold getOffBorderVert3D
    rw [r1]
    rfl
  · intro c
    rw [r3]
    constructor
    · rintro ⟨x, hx, hxi, hb, hw⟩; exact ⟨⟨x, hx, hxi, hb⟩, hw⟩
    · rintro ⟨⟨x, hx, hxi, hb⟩, hw⟩; exact ⟨x, hx, hxi, hb, hw⟩

theorem getOffBorderVert3D_unknown {m : Mesh} {outer : Int} {eps : ℚ}
    {vals : Int → List ℚ} (ho : outer ≠ -1 ∧ outer ≠ 0 ∧ outer ≠ 1) {c : Int}
    (hc : VoluMarked m c) : getOffBorderVert3D m outer eps vals = .error .throws := by
  obtain ⟨x, hx, _, hb⟩ := hc
  have key : ∀ l : List Volu, x ∈ l →
      l.mapM (m.offBorderVolu outer eps vals) = .error .throws := by
    intro l
    induction l with
    | nil => intro h; cases h
    | cons a l ih =>
      intro h
      rw [List.mapM_cons]
      cases ha : a.isBorder with
      | true =>
        have : m.offBorderVolu outer eps vals a = .error .throws := by
          unfold offBorderVolu outerSel outerTest
          simp only [ha, if_true, if_neg ho.2.1, if_neg ho.2.2, if_pos ho.1]
          rfl
        rw [this]
        rfl
      | false =>
        have : m.offBorderVolu outer eps vals a = .ok ([], []) := by
          unfold offBorderVolu outerSel
          simp only [ha, Bool.false_eq_true, if_false]
          rfl
        rw [this]
        rcases List.mem_cons.mp h with rfl | h
        · rw [hb] at ha; cases ha
        · rw [ih h]; rfl
  unfold getOffBorderVert3D
  rw [key _ hx]
  rfl

end RSVS.Mesh
