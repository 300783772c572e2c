import Mathlib.Tactic.IntervalCases
import Verif.Lemmas.MeshDetach

/-!
# Helper lemmas on cropping
-/

namespace RSVS.Mesh

open RSVS.Spec

/-- Same elements, and no new reference but 0. -/
structure Shrink (m m' : Mesh) : Prop where
  same : SameElements m m'
  vertEdge : ∀ a b, b ≠ 0 → VertEdge m' a b → VertEdge m a b
  edgeVert : ∀ a b, b ≠ 0 → EdgeVert m' a b → EdgeVert m a b
  edgeSurf : ∀ a b, b ≠ 0 → EdgeSurf m' a b → EdgeSurf m a b
  surfEdge : ∀ a b, b ≠ 0 → SurfEdge m' a b → SurfEdge m a b
  surfVolu : ∀ a b, b ≠ 0 → SurfVolu m' a b → SurfVolu m a b
  voluSurf : ∀ a b, b ≠ 0 → VoluSurf m' a b → VoluSurf m a b

theorem sameElements_refl (m : Mesh) : SameElements m m :=
  ⟨fun _ => Iff.rfl, fun _ => Iff.rfl, fun _ => Iff.rfl, fun _ => Iff.rfl⟩

theorem sameElements_trans {a b c : Mesh} (h : SameElements a b) (h' : SameElements b c) :
    SameElements a c :=
  ⟨fun i => (h'.verts i).trans (h.verts i), fun i => (h'.edges i).trans (h.edges i),
   fun i => (h'.surfs i).trans (h.surfs i), fun i => (h'.volus i).trans (h.volus i)⟩

theorem Shrink.refl (m : Mesh) : Shrink m m :=
  ⟨sameElements_refl m, fun _ _ _ h => h, fun _ _ _ h => h, fun _ _ _ h => h, fun _ _ _ h => h,
   fun _ _ _ h => h, fun _ _ _ h => h⟩

theorem Shrink.trans {a b c : Mesh} (h : Shrink a b) (h' : Shrink b c) : Shrink a c :=
  ⟨sameElements_trans h.same h'.same,
   fun x y hy hx => h.vertEdge x y hy (h'.vertEdge x y hy hx),
   fun x y hy hx => h.edgeVert x y hy (h'.edgeVert x y hy hx),
   fun x y hy hx => h.edgeSurf x y hy (h'.edgeSurf x y hy hx),
   fun x y hy hx => h.surfEdge x y hy (h'.surfEdge x y hy hx),
   fun x y hy hx => h.surfVolu x y hy (h'.surfVolu x y hy hx),
   fun x y hy hx => h.voluSurf x y hy (h'.voluSurf x y hy hx)⟩

/-- No surface refers to volume `k`. -/
def VoluFree (m : Mesh) (k : Int) : Prop := k ≠ 0 ∧ ∀ s, ¬ SurfVolu m s k
/-- Neither an edge nor a volume refers to surface `k`. -/
def SurfFree (m : Mesh) (k : Int) : Prop :=
  k ≠ 0 ∧ (∀ e, ¬ EdgeSurf m e k) ∧ (∀ c, ¬ VoluSurf m c k)
/-- Neither a vertex nor a surface refers to edge `k`. -/
def EdgeFree (m : Mesh) (k : Int) : Prop :=
  k ≠ 0 ∧ (∀ v, ¬ VertEdge m v k) ∧ (∀ s, ¬ SurfEdge m s k)
/-- No edge refers to vertex `k`. -/
def VertFree (m : Mesh) (k : Int) : Prop := k ≠ 0 ∧ ∀ e, ¬ EdgeVert m e k

theorem VoluFree.shrink {m m' : Mesh} (h : Shrink m m') (k : Int) (hk : VoluFree m k) :
    VoluFree m' k :=
  ⟨hk.1, fun s hs => hk.2 s (h.surfVolu _ _ hk.1 hs)⟩

theorem SurfFree.shrink {m m' : Mesh} (h : Shrink m m') (k : Int) (hk : SurfFree m k) :
    SurfFree m' k :=
  ⟨hk.1, fun s hs => hk.2.1 s (h.edgeSurf _ _ hk.1 hs), fun s hs => hk.2.2 s (h.voluSurf _ _ hk.1 hs)⟩

theorem EdgeFree.shrink {m m' : Mesh} (h : Shrink m m') (k : Int) (hk : EdgeFree m k) :
    EdgeFree m' k :=
  ⟨hk.1, fun s hs => hk.2.1 s (h.vertEdge _ _ hk.1 hs), fun s hs => hk.2.2 s (h.surfEdge _ _ hk.1 hs)⟩

theorem fold_op {op : Mesh → Int → Res Mesh} {Q : Mesh → Int → Prop}
    (hop : ∀ m k m', Sound m → op m k = .ok m' → Sound m' ∧ Shrink m m' ∧ Q m' k)
    (hQ : ∀ m m' k, Shrink m m' → Q m k → Q m' k) :
    ∀ (ks : List Int) (m m' : Mesh), Sound m → ks.foldlM op m = .ok m' →
      Sound m' ∧ Shrink m m' ∧ ∀ k ∈ ks, Q m' k := by
  intro ks
  induction ks with
  | nil =>
    intro m m' hm h
    cases h
    exact ⟨hm, Shrink.refl m, by simp⟩
  | cons k ks ih =>
    intro m m' hm h
    rw [List.foldlM_cons, bind_ok_iff] at h
    obtain ⟨m1, h1, h2⟩ := h
    obtain ⟨ha, hb, hc⟩ := hop m k m1 hm h1
    obtain ⟨hd, he, hf⟩ := ih m1 m' ha h2
    refine ⟨hd, hb.trans he, ?_⟩
    intro k' hk'
    rcases List.mem_cons.mp hk' with rfl | hk'
    · exact hQ _ _ _ he hc
    · exact hf k' hk'

theorem removeVolu_op (m : Mesh) (k : Int) (m' : Mesh) (hm : Sound m)
    (h : m.removeVolu k = .ok m') : Sound m' ∧ Shrink m m' ∧ VoluFree m' k := by
  have hk : HasVolu m k := by
    unfold removeVolu at h
    obtain ⟨a, ha, _⟩ := bind_ok_iff.mp h
    obtain ⟨h1, h2⟩ := elemAt_posOf ha
    exact ⟨a, h1, h2⟩
  rw [removeVolu_eq hm hk] at h
  cases h
  have h0 : k ≠ 0 := ne_of_gt (hm.pos.volus k hk)
  have hd := voluOff_detached hm.unique h0
  refine ⟨sound_of_voluDetached hm (voluOff_unique hm.unique k) hd, ?_, h0, ?_⟩
  · exact ⟨hd.same, fun a b _ h => (hd.vertEdge a b).mp h, fun a b _ h => (hd.edgeVert a b).mp h,
      fun a b _ h => (hd.edgeSurf a b).mp h, fun a b _ h => (hd.surfEdge a b).mp h,
      fun a b hb h => ((hd.surfVolu a b hb).mp h).1, fun a b _ h => ((hd.voluSurf a b).mp h).1⟩
  · intro s hs
    exact ((hd.surfVolu s k h0).mp hs).2 rfl

theorem removeSurf_op (m : Mesh) (k : Int) (m' : Mesh) (hm : Sound m)
    (h : m.removeSurf k = .ok m') : Sound m' ∧ Shrink m m' ∧ SurfFree m' k := by
  have hk : HasSurf m k := by
    unfold removeSurf at h
    obtain ⟨a, ha, _⟩ := bind_ok_iff.mp h
    obtain ⟨h1, h2⟩ := elemAt_posOf ha
    exact ⟨a, h1, h2⟩
  rw [removeSurf_eq hm hk] at h
  cases h
  have h0 : k ≠ 0 := ne_of_gt (hm.pos.surfs k hk)
  have hd := surfOff_detached m k
  refine ⟨sound_of_surfDetached hm (surfOff_unique hm.unique k) hd, ?_, h0, ?_, ?_⟩
  · exact ⟨hd.same, fun a b _ h => (hd.vertEdge a b).mp h, fun a b _ h => (hd.edgeVert a b).mp h,
      fun a b _ h => ((hd.edgeSurf a b).mp h).1, fun a b _ h => ((hd.surfEdge a b).mp h).1,
      fun a b hb h => ((hd.surfVolu a b).mp h).1, fun a b _ h => ((hd.voluSurf a b).mp h).1⟩
  · intro s hs; exact ((hd.edgeSurf s k).mp hs).2 rfl
  · intro s hs; exact ((hd.voluSurf s k).mp hs).2 rfl

theorem removeEdge_op (m : Mesh) (k : Int) (m' : Mesh) (hm : Sound m)
    (h : m.removeEdge k = .ok m') : Sound m' ∧ Shrink m m' ∧ EdgeFree m' k := by
  have hk : HasEdge m k := by
    unfold removeEdge at h
    obtain ⟨a, ha, _⟩ := bind_ok_iff.mp h
    obtain ⟨h1, h2⟩ := elemAt_posOf ha
    exact ⟨a, h1, h2⟩
  rw [removeEdge_eq hm hk] at h
  cases h
  have h0 : k ≠ 0 := ne_of_gt (hm.pos.edges k hk)
  have hd := edgeOff_detached m k
  refine ⟨sound_of_edgeDetached hm (edgeOff_unique hm.unique k) hd, ?_, h0, ?_, ?_⟩
  · exact ⟨hd.same, fun a b _ h => ((hd.vertEdge a b).mp h).1, fun a b _ h => ((hd.edgeVert a b).mp h).1,
      fun a b _ h => ((hd.edgeSurf a b).mp h).1, fun a b _ h => ((hd.surfEdge a b).mp h).1,
      fun a b hb h => (hd.surfVolu a b).mp h, fun a b _ h => (hd.voluSurf a b).mp h⟩
  · intro s hs; exact ((hd.vertEdge s k).mp hs).2 rfl
  · intro s hs; exact ((hd.surfEdge s k).mp hs).2 rfl

theorem removeVert_inv {m m' : Mesh} {k : Int} (h : m.removeVert k = .ok m') : HasVert m k := by
  unfold removeVert at h
  obtain ⟨a, ha, _⟩ := bind_ok_iff.mp h
  obtain ⟨h1, h2⟩ := elemAt_posOf ha
  exact ⟨a, h1, h2⟩

theorem removeVert_empty {m m' : Mesh} {k : Int} (hk : ∀ e, ¬ VertEdge m k e)
    (h : m.removeVert k = .ok m') : m' = m := by
  unfold removeVert at h
  obtain ⟨a, ha, h⟩ := bind_ok_iff.mp h
  obtain ⟨h1, h2⟩ := elemAt_posOf ha
  have : a.edgeind = [] := by
    rw [List.eq_nil_iff_forall_not_mem]
    intro e he
    exact hk e ⟨a, h1, h2, he⟩
  rw [this] at h
  simp only [posList, List.map_nil, visit, List.foldlM_nil] at h
  cases h
  rfl

theorem removeVert_fold :
    ∀ (ks : List Int) (m m' : Mesh), (∀ k ∈ ks, ∀ e, ¬ VertEdge m k e) →
      ks.foldlM removeVert m = .ok m' → m' = m ∧ ∀ k ∈ ks, HasVert m k := by
  intro ks
  induction ks with
  | nil => intro m m' _ h; cases h; simp
  | cons k ks ih =>
    intro m m' hk h
    rw [List.foldlM_cons, bind_ok_iff] at h
    obtain ⟨m1, h1, h2⟩ := h
    have := removeVert_empty (hk k (by simp)) h1
    subst this
    obtain ⟨h3, h4⟩ := ih m1 m' (fun k' hk' => hk k' (by simp [hk'])) h2
    refine ⟨h3, ?_⟩
    intro k' hk'
    rcases List.mem_cons.mp hk' with rfl | hk'
    · exact removeVert_inv h1
    · exact h4 k' hk'

theorem mem_concatField {α : Type} {ix : α → Int} {field : α → List Int} {l : List α} :
    ∀ (ks : List Int) (acc : List Int) (r : List Int),
      (posList ix l ks).foldlM (m := Except Fault) (fun acc p => do
        let a ← elemAt l p
        pure (acc ++ field a)) acc = .ok r → (l.map ix).Nodup →
      (∀ x, x ∈ r ↔ x ∈ acc ∨ ∃ k ∈ ks, ∃ a ∈ l, ix a = k ∧ x ∈ field a) := by
  intro ks
  induction ks with
  | nil => intro acc r h _; cases h; simp
  | cons k ks ih =>
    intro acc r h hn x
    simp only [posList, List.map_cons, List.foldlM_cons] at h
    rw [bind_ok_iff] at h
    obtain ⟨acc1, h1, h2⟩ := h
    rw [bind_ok_iff] at h1
    obtain ⟨a, ha, h3⟩ := h1
    cases h3
    obtain ⟨hal, hai⟩ := elemAt_posOf ha
    rw [ih _ r h2 hn x, List.mem_append]
    constructor
    · rintro ((h | h) | ⟨k', hk', b, hb, hbi, hx⟩)
      · exact Or.inl h
      · exact Or.inr ⟨k, by simp, a, hal, hai, h⟩
      · exact Or.inr ⟨k', by simp [hk'], b, hb, hbi, hx⟩
    · rintro (h | ⟨k', hk', b, hb, hbi, hx⟩)
      · exact Or.inl (Or.inl h)
      · rcases List.mem_cons.mp hk' with rfl | hk'
        · rw [inj_of_nodup hn hb hal (hbi.trans hai.symm)] at hx
          exact Or.inl (Or.inr hx)
        · exact Or.inr ⟨k', hk', b, hb, hbi, hx⟩

theorem cropVolus_of_zero {l : List Int} (hpos : ∀ x ∈ l, 0 ≤ x) (h : 0 ∈ l ∨ l = []) :
    (cropVolus l).2 = (cropVolus l).1 ∧ ∀ x, x ∈ (cropVolus l).1 ↔ x ∈ l ∧ x ≠ 0 := by
  rcases h with h | rfl
  · have hs := sortUnique_strict l
    have hm : ∀ x, x ∈ sortUnique l ↔ x ∈ l := fun x => mem_sortUnique
    unfold cropVolus
    cases hl : sortUnique l with
    | nil => rw [hl] at hm; exact absurd ((hm 0).mpr h) (by simp)
    | cons x r =>
      rw [hl] at hs hm
      rw [List.pairwise_cons] at hs
      have hx0 : x = 0 := by
        have h1 : 0 ∈ x :: r := (hm 0).mpr h
        rcases List.mem_cons.mp h1 with h1 | h1
        · exact h1.symm
        · have := hs.1 0 h1
          have := hpos x ((hm x).mp (by simp))
          omega
      subst hx0
      simp only [if_true, List.length_cons, Nat.add_sub_cancel, List.take_length]
      refine ⟨trivial, ?_⟩
      intro y
      rw [← hm y, List.mem_cons]
      constructor
      · intro hy; exact ⟨Or.inr hy, ne_of_gt (hs.1 y hy)⟩
      · rintro ⟨h1 | h1, h2⟩
        · exact absurd h1 h2
        · exact h1
  · refine ⟨rfl, ?_⟩
    intro x
    show x ∈ ([] : List Int) ↔ _
    simp

/-- Padding the volumes of the surfaces with 0. -/
theorem pad_sound {m : Mesh} (hm : Sound m) :
    let m' := { m with surfs := m.surfs.map (fun s =>
      if s.voluind.length = 1 then { s with voluind := s.voluind ++ [0] } else s) }
    Sound m' ∧ Shrink m m' := by
  intro m'
  have hi : m'.surfs.map Surf.index = m.surfs.map Surf.index :=
    map_index_if (by intro a; split <;> rfl)
  have hsame : SameElements m m' := by
    refine ⟨fun _ => Iff.rfl, fun _ => Iff.rfl, ?_, fun _ => Iff.rfl⟩
    intro i
    have : HasSurf m' i ↔ i ∈ m'.surfs.map Surf.index := by simp [HasSurf]
    rw [this, hi]
    simp [HasSurf]
  have hse : ∀ s e, SurfEdge m' s e ↔ SurfEdge m s e := by
    intro s e
    simp only [SurfEdge, m', List.mem_map]
    constructor
    · rintro ⟨x, ⟨y, hy, rfl⟩, h, h2⟩
      exact ⟨y, hy, by split at h <;> exact h, by split at h2 <;> exact h2⟩
    · rintro ⟨y, hy, h, h2⟩
      exact ⟨_, ⟨y, hy, rfl⟩, by split <;> exact h, by split <;> exact h2⟩
  have hsv : ∀ s c, c ≠ 0 → (SurfVolu m' s c ↔ SurfVolu m s c) := by
    intro s c hc
    simp only [SurfVolu, m', List.mem_map]
    constructor
    · rintro ⟨x, ⟨y, hy, rfl⟩, h, h2⟩
      refine ⟨y, hy, by split at h <;> exact h, ?_⟩
      split at h2
      · simpa [hc] using h2
      · exact h2
    · rintro ⟨y, hy, h, h2⟩
      refine ⟨_, ⟨y, hy, rfl⟩, by split <;> exact h, ?_⟩
      split
      · simp [h2]
      · exact h2
  refine ⟨⟨⟨hm.unique.verts, hm.unique.edges, by rw [hi]; exact hm.unique.surfs, hm.unique.volus⟩,
    posIndices_of_same hsame hm.pos, ?_, ?_, ?_⟩, ?_⟩
  · exact ⟨hm.noDangling.vertEdge, hm.noDangling.edgeVert,
      fun e s h hs => (hsame.surfs s).mpr (hm.noDangling.edgeSurf e s h hs),
      fun s e h => hm.noDangling.surfEdge s e ((hse s e).mp h),
      fun s c h hc => hm.noDangling.surfVolu s c ((hsv s c hc).mp h) hc,
      fun c s h hs => (hsame.surfs s).mpr (hm.noDangling.voluSurf c s h hs)⟩
  · exact ⟨hm.zeroOutside.vertEdge, hm.zeroOutside.edgeVert,
      fun s h => hm.zeroOutside.surfEdge s ((hse s 0).mp h), hm.zeroOutside.voluSurf⟩
  · refine ⟨hm.sym.vertEdge, ?_, ?_⟩
    · intro e s he hs
      rw [hse]
      exact hm.sym.edgeSurf e s he ((hsame.surfs s).mp hs)
    · intro s c hs hc
      rw [hsv s c (ne_of_gt (hm.pos.volus c hc))]
      exact hm.sym.surfVolu s c ((hsame.surfs s).mp hs) hc
  · exact ⟨hsame, fun _ _ _ h => h, fun _ _ _ h => h, fun _ _ _ h => h,
      fun a b _ h => (hse a b).mp h, fun a b hb h => (hsv a b hb).mp h, fun _ _ _ h => h⟩

theorem mem_removeIdx {α : Type} {ix : α → Int} {l : List α} {del : List Int} {a : α} :
    a ∈ removeIdx ix l del ↔ a ∈ l ∧ ix a ∉ del := by
  simp [removeIdx]

/-- Removing elements nobody refers to keeps the mesh sound. -/
theorem remove_sound {m : Mesh} (hm : Sound m) {vd ed sd cd : List Int}
    (hv : ∀ k ∈ vd, VertFree m k) (he : ∀ k ∈ ed, EdgeFree m k) (hs : ∀ k ∈ sd, SurfFree m k)
    (hc : ∀ k ∈ cd, VoluFree m k) :
    Sound { m with verts := removeIdx Vert.index m.verts vd,
                   edges := removeIdx Edge.index m.edges ed,
                   surfs := removeIdx Surf.index m.surfs sd,
                   volus := removeIdx Volu.index m.volus cd } := by
  generalize hm' : ({ m with
                   verts := removeIdx Vert.index m.verts vd,
                   edges := removeIdx Edge.index m.edges ed,
                   surfs := removeIdx Surf.index m.surfs sd,
                   volus := removeIdx Volu.index m.volus cd } : Mesh) = m'
  have hV : ∀ i, HasVert m' i ↔ HasVert m i ∧ i ∉ vd := by
    intro i; subst hm'; simp only [HasVert, mem_removeIdx]
    constructor
    · rintro ⟨x, ⟨h1, h2⟩, rfl⟩; exact ⟨⟨x, h1, rfl⟩, h2⟩
    · rintro ⟨⟨x, h1, rfl⟩, h2⟩; exact ⟨x, ⟨h1, h2⟩, rfl⟩
  have hE : ∀ i, HasEdge m' i ↔ HasEdge m i ∧ i ∉ ed := by
    intro i; subst hm'; simp only [HasEdge, mem_removeIdx]
    constructor
    · rintro ⟨x, ⟨h1, h2⟩, rfl⟩; exact ⟨⟨x, h1, rfl⟩, h2⟩
    · rintro ⟨⟨x, h1, rfl⟩, h2⟩; exact ⟨x, ⟨h1, h2⟩, rfl⟩
  have hS : ∀ i, HasSurf m' i ↔ HasSurf m i ∧ i ∉ sd := by
    intro i; subst hm'; simp only [HasSurf, mem_removeIdx]
    constructor
    · rintro ⟨x, ⟨h1, h2⟩, rfl⟩; exact ⟨⟨x, h1, rfl⟩, h2⟩
    · rintro ⟨⟨x, h1, rfl⟩, h2⟩; exact ⟨x, ⟨h1, h2⟩, rfl⟩
  have hC : ∀ i, HasVolu m' i ↔ HasVolu m i ∧ i ∉ cd := by
    intro i; subst hm'; simp only [HasVolu, mem_removeIdx]
    constructor
    · rintro ⟨x, ⟨h1, h2⟩, rfl⟩; exact ⟨⟨x, h1, rfl⟩, h2⟩
    · rintro ⟨⟨x, h1, rfl⟩, h2⟩; exact ⟨x, ⟨h1, h2⟩, rfl⟩
  have hVE : ∀ a b, VertEdge m' a b ↔ VertEdge m a b ∧ a ∉ vd := by
    intro a b; subst hm'; simp only [VertEdge, mem_removeIdx]
    constructor
    · rintro ⟨x, ⟨h1, h2⟩, rfl, h3⟩; exact ⟨⟨x, h1, rfl, h3⟩, h2⟩
    · rintro ⟨⟨x, h1, rfl, h3⟩, h2⟩; exact ⟨x, ⟨h1, h2⟩, rfl, h3⟩
  have hEV : ∀ a b, EdgeVert m' a b ↔ EdgeVert m a b ∧ a ∉ ed := by
    intro a b; subst hm'; simp only [EdgeVert, mem_removeIdx]
    constructor
    · rintro ⟨x, ⟨h1, h2⟩, rfl, h3⟩; exact ⟨⟨x, h1, rfl, h3⟩, h2⟩
    · rintro ⟨⟨x, h1, rfl, h3⟩, h2⟩; exact ⟨x, ⟨h1, h2⟩, rfl, h3⟩
  have hES : ∀ a b, EdgeSurf m' a b ↔ EdgeSurf m a b ∧ a ∉ ed := by
    intro a b; subst hm'; simp only [EdgeSurf, mem_removeIdx]
    constructor
    · rintro ⟨x, ⟨h1, h2⟩, rfl, h3⟩; exact ⟨⟨x, h1, rfl, h3⟩, h2⟩
    · rintro ⟨⟨x, h1, rfl, h3⟩, h2⟩; exact ⟨x, ⟨h1, h2⟩, rfl, h3⟩
  have hSE : ∀ a b, SurfEdge m' a b ↔ SurfEdge m a b ∧ a ∉ sd := by
    intro a b; subst hm'; simp only [SurfEdge, mem_removeIdx]
    constructor
    · rintro ⟨x, ⟨h1, h2⟩, rfl, h3⟩; exact ⟨⟨x, h1, rfl, h3⟩, h2⟩
    · rintro ⟨⟨x, h1, rfl, h3⟩, h2⟩; exact ⟨x, ⟨h1, h2⟩, rfl, h3⟩
  have hSV : ∀ a b, SurfVolu m' a b ↔ SurfVolu m a b ∧ a ∉ sd := by
    intro a b; subst hm'; simp only [SurfVolu, mem_removeIdx]
    constructor
    · rintro ⟨x, ⟨h1, h2⟩, rfl, h3⟩; exact ⟨⟨x, h1, rfl, h3⟩, h2⟩
    · rintro ⟨⟨x, h1, rfl, h3⟩, h2⟩; exact ⟨x, ⟨h1, h2⟩, rfl, h3⟩
  have hVS : ∀ a b, VoluSurf m' a b ↔ VoluSurf m a b ∧ a ∉ cd := by
    intro a b; subst hm'; simp only [VoluSurf, mem_removeIdx]
    constructor
    · rintro ⟨x, ⟨h1, h2⟩, rfl, h3⟩; exact ⟨⟨x, h1, rfl, h3⟩, h2⟩
    · rintro ⟨⟨x, h1, rfl, h3⟩, h2⟩; exact ⟨x, ⟨h1, h2⟩, rfl, h3⟩
  have hsub : ∀ {α : Type} (ix : α → Int) (l : List α) (del : List Int), (l.map ix).Nodup →
      ((removeIdx ix l del).map ix).Nodup := by
    intro α ix l del h
    exact h.sublist (List.filter_sublist.map ix)
  refine ⟨?_, ?_, ?_, ?_, ?_⟩
  · subst hm'
    exact ⟨hsub _ _ _ hm.unique.verts, hsub _ _ _ hm.unique.edges, hsub _ _ _ hm.unique.surfs,
      hsub _ _ _ hm.unique.volus⟩
  · exact ⟨fun i h => hm.pos.verts i ((hV i).mp h).1, fun i h => hm.pos.edges i ((hE i).mp h).1,
      fun i h => hm.pos.surfs i ((hS i).mp h).1, fun i h => hm.pos.volus i ((hC i).mp h).1⟩
  · constructor
    · intro a b h h0
      have h1 := ((hVE a b).mp h).1
      exact (hE b).mpr ⟨hm.noDangling.vertEdge a b h1 h0, fun hb => (he b hb).2.1 a h1⟩
    · intro a b h h0
      have h1 := ((hEV a b).mp h).1
      exact (hV b).mpr ⟨hm.noDangling.edgeVert a b h1 h0, fun hb => (hv b hb).2 a h1⟩
    · intro a b h h0
      have h1 := ((hES a b).mp h).1
      exact (hS b).mpr ⟨hm.noDangling.edgeSurf a b h1 h0, fun hb => (hs b hb).2.1 a h1⟩
    · intro a b h
      have h1 := ((hSE a b).mp h).1
      exact (hE b).mpr ⟨hm.noDangling.surfEdge a b h1, fun hb => (he b hb).2.2 a h1⟩
    · intro a b h h0
      have h1 := ((hSV a b).mp h).1
      exact (hC b).mpr ⟨hm.noDangling.surfVolu a b h1 h0, fun hb => (hc b hb).2 a h1⟩
    · intro a b h h0
      have h1 := ((hVS a b).mp h).1
      exact (hS b).mpr ⟨hm.noDangling.voluSurf a b h1 h0, fun hb => (hs b hb).2.2 a h1⟩
  · exact ⟨fun a h => hm.zeroOutside.vertEdge a ((hVE a 0).mp h).1,
      fun a h => hm.zeroOutside.edgeVert a ((hEV a 0).mp h).1,
      fun a h => hm.zeroOutside.surfEdge a ((hSE a 0).mp h).1,
      fun a h => hm.zeroOutside.voluSurf a ((hVS a 0).mp h).1⟩
  · constructor
    · intro a b ha hb
      have ha' := (hV a).mp ha
      have hb' := (hE b).mp hb
      rw [hVE, hEV, hm.sym.vertEdge a b ha'.1 hb'.1]
      exact ⟨fun h => ⟨h.1, hb'.2⟩, fun h => ⟨h.1, ha'.2⟩⟩
    · intro a b ha hb
      have ha' := (hE a).mp ha
      have hb' := (hS b).mp hb
      rw [hES, hSE, hm.sym.edgeSurf a b ha'.1 hb'.1]
      exact ⟨fun h => ⟨h.1, hb'.2⟩, fun h => ⟨h.1, ha'.2⟩⟩
    · intro a b ha hb
      have ha' := (hS a).mp ha
      have hb' := (hC b).mp hb
      rw [hSV, hVS, hm.sym.surfVolu a b ha'.1 hb'.1]
      exact ⟨fun h => ⟨h.1, hb'.2⟩, fun h => ⟨h.1, ha'.2⟩⟩

/-- What the upward part collects. -/
theorem cropLists_spec {m : Mesh} (hu : UniqueIndices m) {l : List Int} {t : Nat}
    (ht : 1 ≤ t ∧ t ≤ 4) {vd ed sd cd : List Int}
    (h : m.cropLists l t = .ok (vd, ed, sd, cd)) :
    (t = 1 → vd = l ∧ (∀ x, x ∈ ed ↔ ∃ v ∈ l, VertEdge m v x)) ∧
    (t ≠ 1 → vd = []) ∧
    (t = 2 → ed = l) ∧ (2 < t → ed = []) ∧
    (t ≤ 2 → ∀ x, x ∈ sd ↔ ∃ e ∈ ed, EdgeSurf m e x) ∧
    (t = 3 → sd = l) ∧ (3 < t → sd = []) ∧
    (t ≤ 3 → ∀ x, x ∈ cd ↔ ∃ s ∈ sd, SurfVolu m s x) ∧
    (t = 4 → cd = l) := by
  unfold cropLists at h
  obtain ⟨ed', h1, h⟩ := bind_ok_iff.mp h
  obtain ⟨sd', h2, h⟩ := bind_ok_iff.mp h
  obtain ⟨cd', h3, h⟩ := bind_ok_iff.mp h
  cases h
  refine ⟨?_, ?_, ?_, ?_, ?_, ?_, ?_, ?_, ?_⟩
  · intro h
    subst h
    rw [cropPick, if_pos rfl] at h1
    refine ⟨by simp, ?_⟩
    intro x
    have := mem_concatField (ix := Vert.index) l [] ed (by simpa [concatField] using h1) hu.verts x
    simpa [VertEdge] using this
  · intro h; simp [h]
  · intro h
    rw [cropPick, if_neg (by omega), if_pos h] at h1
    cases h1; rfl
  · intro h
    rw [cropPick, if_neg (by omega), if_neg (by omega)] at h1
    cases h1; rfl
  · intro h x
    rw [cropPick, if_pos h] at h2
    have := mem_concatField (ix := Edge.index) ed [] sd (by simpa [concatField] using h2) hu.edges x
    simpa [EdgeSurf] using this
  · intro h
    rw [cropPick, if_neg (by omega), if_pos h] at h2
    cases h2; rfl
  · intro h
    rw [cropPick, if_neg (by omega), if_neg (by omega)] at h2
    cases h2; rfl
  · intro h x
    rw [cropPick, if_pos h] at h3
    have := mem_concatField (ix := Surf.index) sd [] cd (by simpa [concatField] using h3) hu.surfs x
    simpa [SurfVolu] using this
  · intro h
    rw [cropPick, if_neg (by omega)] at h3
    cases h3; rfl

/-- The edges are those there were; apart from those listed they have the ends they had, and none has got surface 0. -/
def EdgesKept (ks : List Int) (m m' : Mesh) : Prop :=
  ∀ x ∈ m'.edges, ∃ y ∈ m.edges, y.index = x.index ∧ (x.index ∉ ks → y.vertind = x.vertind) ∧ (0 ∈ x.surfind → 0 ∈ y.surfind)

theorem EdgesKept.rfl {ks : List Int} {m m' : Mesh} (h : m'.edges = m.edges) : EdgesKept ks m m' :=
  fun x hx => ⟨x, h ▸ hx, Eq.refl _, fun _ => Eq.refl _, id⟩

theorem EdgesKept.trans {ks : List Int} {m m' m'' : Mesh} (h : EdgesKept ks m m') (h' : EdgesKept ks m' m'') : EdgesKept ks m m'' := by
  intro x hx
  obtain ⟨y, hy, h1, h2, h3⟩ := h' x hx
  obtain ⟨z, hz, g1, g2, g3⟩ := h y hy
  exact ⟨z, hz, g1.trans h1, fun hk => (g2 (h1 ▸ hk)).trans (h2 hk), g3 ∘ h3⟩

theorem fold_kept {op : Mesh → Int → Res Mesh} {ks : List Int} :
    ∀ (l : List Int) (m m' : Mesh), (∀ m, ∀ k ∈ l, ∀ m', Sound m → op m k = .ok m' → Sound m' ∧ EdgesKept ks m m') → Sound m →
      l.foldlM op m = .ok m' → EdgesKept ks m m' := by
  intro l
  induction l with
  | nil => intro m m' _ _ h; cases h; exact .rfl (Eq.refl _)
  | cons k l ih =>
    intro m m' hop hm h
    rw [List.foldlM_cons, bind_ok_iff] at h
    obtain ⟨m1, h1, h2⟩ := h
    obtain ⟨g1, g2⟩ := hop m k List.mem_cons_self m1 hm h1
    exact g2.trans (ih m1 m' (fun m k hk => hop m k (List.mem_cons_of_mem _ hk)) g1 h2)

theorem removeVolu_kept {ks : List Int} (m : Mesh) (k : Int) (m' : Mesh) (hm : Sound m) (h : m.removeVolu k = .ok m') : Sound m' ∧ EdgesKept ks m m' := by
  refine ⟨(removeVolu_op m k m' hm h).1, ?_⟩
  have hk : HasVolu m k := by
    unfold removeVolu at h
    obtain ⟨a, ha, _⟩ := bind_ok_iff.mp h
    obtain ⟨h1, h2⟩ := elemAt_posOf ha
    exact ⟨a, h1, h2⟩
  rw [removeVolu_eq hm hk] at h
  cases h
  exact .rfl (Eq.refl _)

theorem removeSurf_kept {ks : List Int} (m : Mesh) (k : Int) (m' : Mesh) (hm : Sound m) (h : m.removeSurf k = .ok m') : Sound m' ∧ EdgesKept ks m m' := by
  refine ⟨(removeSurf_op m k m' hm h).1, ?_⟩
  have hk : HasSurf m k := by
    unfold removeSurf at h
    obtain ⟨a, ha, _⟩ := bind_ok_iff.mp h
    obtain ⟨h1, h2⟩ := elemAt_posOf ha
    exact ⟨a, h1, h2⟩
  rw [removeSurf_eq hm hk] at h
  cases h
  intro x hx
  obtain ⟨y, hy, e⟩ := List.mem_map.mp hx
  subst e
  exact ⟨y, hy, Eq.refl _, fun _ => Eq.refl _, fun h0 => (mem_eraseAll.mp h0).1⟩

theorem removeEdge_kept {ks : List Int} (m : Mesh) (k : Int) (hks : k ∈ ks) (m' : Mesh) (hm : Sound m) (h : m.removeEdge k = .ok m') :
    Sound m' ∧ EdgesKept ks m m' := by
  refine ⟨(removeEdge_op m k m' hm h).1, ?_⟩
  have hk : HasEdge m k := by
    unfold removeEdge at h
    obtain ⟨a, ha, _⟩ := bind_ok_iff.mp h
    obtain ⟨h1, h2⟩ := elemAt_posOf ha
    exact ⟨a, h1, h2⟩
  rw [removeEdge_eq hm hk] at h
  cases h
  intro x hx
  obtain ⟨y, hy, e⟩ := List.mem_map.mp hx
  by_cases hi : y.index = k
  · rw [if_pos hi] at e
    subst e
    exact ⟨y, hy, Eq.refl _, fun hn => absurd (hi ▸ hks) hn, fun h0 => by simp at h0⟩
  · rw [if_neg hi] at e
    subst e
    exact ⟨y, hy, Eq.refl _, fun _ => Eq.refl _, id⟩

/-- The clean part of `Crop` when the marker 0 is among the volumes collected. -/
theorem cropCore_all {m m' : Mesh} (hm : Sound m) {l : List Int} {t : Nat}
    (ht : 1 ≤ t ∧ t ≤ 4) (hnn : t = 4 → ∀ x ∈ l, 0 ≤ x) (hto : Reached m l t 0)
    (h : m.cropCore l t = .ok m') :
    Sound m' ∧ (∀ i ∈ l, i ≠ 0 → ¬ HasElem m' i t) ∧
    (∀ i, HasVert m' i → HasVert m i) ∧ (∀ i, HasEdge m' i → HasEdge m i) ∧
    (∀ i, HasSurf m' i → HasSurf m i) ∧
    (∀ i, HasVolu m' i ↔ HasVolu m i ∧ ¬ Reached m l t i) ∧
    (∀ x ∈ m'.edges, ∃ y ∈ m.edges, y.index = x.index ∧ y.vertind = x.vertind ∧ (0 ∈ x.surfind → 0 ∈ y.surfind)) := by
  unfold cropCore at h
  rw [if_neg (by omega)] at h
  obtain ⟨⟨vd, ed, sd, cd⟩, h1, h⟩ := bind_ok_iff.mp h
  obtain ⟨k1, k2, k3, k4, k5, k6, k7, k8, k9⟩ := cropLists_spec hm.unique ht h1
  have hcd : ∀ c, c ∈ cd ↔ Reached m l t c := by
    intro c
    obtain ⟨t1, t4⟩ := ht
    interval_cases t
    · rw [k8 (by omega)]
      constructor
      · rintro ⟨s, hs, hc⟩
        obtain ⟨e, he, hs⟩ := (k5 (by omega) s).mp hs
        obtain ⟨v, hv, he⟩ := ((k1 rfl).2 e).mp he
        exact ⟨v, hv, e, he, s, hs, hc⟩
      · rintro ⟨v, hv, e, he, s, hs, hc⟩
        refine ⟨s, ?_, hc⟩
        rw [k5 (by omega)]
        refine ⟨e, ?_, hs⟩
        rw [(k1 rfl).2]
        exact ⟨v, hv, he⟩
    · rw [k8 (by omega)]
      constructor
      · rintro ⟨s, hs, hc⟩
        obtain ⟨e, he, hs⟩ := (k5 (by omega) s).mp hs
        rw [k3 rfl] at he
        exact ⟨e, he, s, hs, hc⟩
      · rintro ⟨e, he, s, hs, hc⟩
        refine ⟨s, ?_, hc⟩
        rw [k5 (by omega)]
        exact ⟨e, by rw [k3 rfl]; exact he, hs⟩
    · rw [k8 (by omega), k6 rfl]
      exact Iff.rfl
    · rw [k9 rfl]; exact Iff.rfl
  have hz : 0 ∈ cd := (hcd 0).mpr hto
  have hcn : ∀ x ∈ cd, 0 ≤ x := by
    intro x hx
    by_cases h4 : t = 4
    · rw [k9 h4] at hx; exact hnn h4 x hx
    · rw [k8 (by omega)] at hx
      obtain ⟨s, _, hs⟩ := hx
      by_cases hx0 : x = 0
      · omega
      · have := hm.pos.volus x (hm.noDangling.surfVolu s x hs hx0)
        omega
  obtain ⟨q1, q2⟩ := cropVolus_of_zero hcn (Or.inl hz)
  simp only at h
  generalize hcv : cropVolus cd = cv at h q1 q2
  obtain ⟨cd', det⟩ := cv
  simp only at h q1 q2
  subst q1
  obtain ⟨m1, hf1, h⟩ := bind_ok_iff.mp h
  obtain ⟨hm1, hs1, hq1⟩ := fold_op removeVolu_op (fun _ _ k h => VoluFree.shrink h k) _ m m1 hm hf1
  obtain ⟨hm2, hs2⟩ := pad_sound hm1
  obtain ⟨m3, hf3, h⟩ := bind_ok_iff.mp h
  obtain ⟨hm3, hs3, hq3⟩ := fold_op removeSurf_op (fun _ _ k h => SurfFree.shrink h k) _ _ m3 hm2 hf3
  obtain ⟨m4, hf4, h⟩ := bind_ok_iff.mp h
  obtain ⟨hm4, hs4, hq4⟩ := fold_op removeEdge_op (fun _ _ k h => EdgeFree.shrink h k) _ _ m4 hm3 hf4
  obtain ⟨m5, hf5, h⟩ := bind_ok_iff.mp h
  have hs14 : Shrink m m4 := hs1.trans (hs2.trans (hs3.trans hs4))
  have hempty : ∀ k ∈ sortUnique (vd ++
      ((m4.verts.filter (fun v => v.edgeind.length == 0)).map Vert.index)),
      ∀ e, ¬ VertEdge m4 k e := by
    intro k hk e hke
    rw [mem_sortUnique, List.mem_append] at hk
    have he0 : e ≠ 0 := by
      rintro rfl; exact hm4.zeroOutside.vertEdge _ hke
    rcases hk with hk | hk
    · by_cases t1 : t = 1
      · have hvd := (k1 t1).1
        have hin : e ∈ ed := by
          rw [(k1 t1).2]
          exact ⟨k, by rw [← hvd]; exact hk, hs14.vertEdge _ _ he0 hke⟩
        exact (hq4 e (by rw [mem_sortUnique, List.mem_append]; exact Or.inl hin)).2.1 k hke
      · rw [k2 t1] at hk; simp at hk
    · obtain ⟨v, hv, rfl⟩ := List.mem_map.mp hk
      rw [List.mem_filter] at hv
      obtain ⟨w, hw, hwi, hwe⟩ := hke
      have : w = v := inj_of_nodup hm4.unique.verts hw hv.1 hwi
      subst this
      have hl : w.edgeind.length = 0 := by simpa using hv.2
      rw [List.length_eq_zero_iff] at hl
      rw [hl] at hwe
      simp at hwe
  obtain ⟨h5, hhas⟩ := removeVert_fold _ _ _ hempty hf5
  subst h5
  cases h
  have hvfree : ∀ k ∈ sortUnique (vd ++
      ((m5.verts.filter (fun v => v.edgeind.length == 0)).map Vert.index)), VertFree m5 k := by
    intro k hk
    refine ⟨ne_of_gt (hm4.pos.verts k (hhas k hk)), ?_⟩
    intro e he
    have hE : HasEdge m5 e := by
      obtain ⟨x, hx, hxi, _⟩ := he
      exact ⟨x, hx, hxi⟩
    exact hempty k hk e ((hm4.sym.vertEdge k e (hhas k hk) hE).mpr he)
  have hs34 := hs3.trans hs4
  have hk4 := fold_kept _ m3 m5 (fun m k hk m' => removeEdge_kept m k hk m') hm3 hf4
  have hkept := (fold_kept _ m m1 (fun m k _ m' => removeVolu_kept m k m') hm hf1).trans
    (EdgesKept.trans (fun x hx => fold_kept _ _ m3 (fun m k _ m' => removeSurf_kept m k m') hm2 hf3 x hx) hk4)
  refine ⟨remove_sound hm4 hvfree hq4 (fun k hk => SurfFree.shrink hs4 k (hq3 k hk))
    (fun k hk => VoluFree.shrink (hs2.trans hs34) k (hq1 k hk)), ?_, ?_, ?_, ?_, ?_, ?_⟩
  · intro i hi hi0 hhe
    obtain ⟨t1, t4⟩ := ht
    interval_cases t
    · obtain ⟨x, hx, rfl⟩ := hhe
      rw [mem_removeIdx] at hx
      exact hx.2 (by rw [mem_sortUnique, List.mem_append]; exact Or.inl (by rw [(k1 rfl).1]; exact hi))
    · obtain ⟨x, hx, rfl⟩ := hhe
      rw [mem_removeIdx] at hx
      exact hx.2 (by rw [mem_sortUnique, List.mem_append]; exact Or.inl (by rw [k3 rfl]; exact hi))
    · obtain ⟨x, hx, rfl⟩ := hhe
      rw [mem_removeIdx] at hx
      exact hx.2 (by rw [mem_sortUnique, List.mem_append]; exact Or.inl (by rw [k6 rfl]; exact hi))
    · obtain ⟨x, hx, rfl⟩ := hhe
      rw [mem_removeIdx] at hx
      exact hx.2 ((q2 _).mpr ⟨by rw [k9 rfl]; exact hi, hi0⟩)
  · rintro i ⟨x, hx, hi⟩
    exact (hs14.same.verts i).mp ⟨x, (mem_removeIdx.mp hx).1, hi⟩
  · rintro i ⟨x, hx, hi⟩
    exact (hs14.same.edges i).mp ⟨x, (mem_removeIdx.mp hx).1, hi⟩
  · rintro i ⟨x, hx, hi⟩
    exact (hs14.same.surfs i).mp ⟨x, (mem_removeIdx.mp hx).1, hi⟩
  · intro i
    constructor
    · rintro ⟨x, hx, hi⟩
      have hx' := mem_removeIdx.mp hx
      have hh := (hs14.same.volus i).mp ⟨x, hx'.1, hi⟩
      refine ⟨hh, fun hr => hx'.2 ?_⟩
      rw [hi]
      exact (q2 i).mpr ⟨(hcd i).mpr hr, ne_of_gt (hm.pos.volus i hh)⟩
    · rintro ⟨hh, hr⟩
      obtain ⟨x, hx, rfl⟩ := (hs14.same.volus i).mpr hh
      exact ⟨x, mem_removeIdx.mpr ⟨hx, fun h' => hr ((hcd _).mp ((q2 _).mp h').1)⟩, rfl⟩
  · intro x hx
    obtain ⟨h1, h2⟩ := mem_removeIdx.mp hx
    obtain ⟨y, hy, g1, g2, g3⟩ := hkept x h1
    exact ⟨y, hy, g1, g2 h2, g3⟩

theorem cropCore_sound {m m' : Mesh} (hm : Sound m) {l : List Int} {t : Nat}
    (ht : 1 ≤ t ∧ t ≤ 4) (hnn : t = 4 → ∀ x ∈ l, 0 ≤ x) (hto : Reached m l t 0)
    (h : m.cropCore l t = .ok m') :
    Sound m' ∧ (∀ i ∈ l, i ≠ 0 → ¬ HasElem m' i t) ∧
    (∀ i, HasVert m' i → HasVert m i) ∧ (∀ i, HasEdge m' i → HasEdge m i) ∧
    (∀ i, HasSurf m' i → HasSurf m i) ∧
    (∀ i, HasVolu m' i ↔ HasVolu m i ∧ ¬ Reached m l t i) := by
  obtain ⟨h1, h2, h3, h4, h5, h6, -⟩ := cropCore_all hm ht hnn hto h
  exact ⟨h1, h2, h3, h4, h5, h6⟩

end RSVS.Mesh
