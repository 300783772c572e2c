import Verif.Model.SpawnRemove
import Verif.Spec.SpawnRemove
import Verif.Lemmas.Flood
import Verif.Lemmas.MeshCrop
import Verif.Lemmas.Refine
import Verif.Lemmas.Coarsen
import Verif.Lemmas.TetMesh

/-!
# Lemmas for the removal of parts of a snake
-/

namespace RSVS.SpawnRemove

open RSVS.Spec RSVS.Mesh

/-! ### Taking elements off and out -/

/-- `m1` is `m` with the surfaces `ks` detached. -/
structure SurfsOff (m m1 : Mesh) (ks : List Int) : Prop where
  sound : Sound m1
  verts : m1.verts = m.verts
  edges : m1.edges.map Edge.index = m.edges.map Edge.index
  pairs : m1.edges.map Edge.vertind = m.edges.map Edge.vertind
  surfs : m1.surfs.map Surf.index = m.surfs.map Surf.index
  same : SameElements m m1
  vertEdge : ∀ v e, VertEdge m1 v e ↔ VertEdge m v e
  edgeVert : ∀ e v, EdgeVert m1 e v ↔ EdgeVert m e v
  edgeSurf : ∀ e s, EdgeSurf m1 e s ↔ EdgeSurf m e s ∧ s ∉ ks
  surfEdge : ∀ s e, SurfEdge m1 s e ↔ SurfEdge m s e ∧ s ∉ ks
  surfVolu : ∀ s c, SurfVolu m1 s c ↔ SurfVolu m s c ∧ s ∉ ks
  voluSurf : ∀ c s, VoluSurf m1 c s ↔ VoluSurf m c s ∧ s ∉ ks

theorem surfsOff : ∀ (ks : List Int) (m : Mesh), Sound m → (∀ k ∈ ks, HasSurf m k) →
    ∃ m1, ks.foldlM (m := Except Fault) Mesh.removeSurf m = .ok m1 ∧ SurfsOff m m1 ks
  | [], m, hm, _ => ⟨m, rfl, hm, rfl, rfl, rfl, rfl, ⟨by simp, by simp, by simp, by simp⟩, by simp, by simp, by simp, by simp, by simp, by simp⟩
  | k :: ks, m, hm, hk => by
    have hd := surfOff_detached m k
    have hs := sound_of_surfDetached hm (surfOff_unique hm.unique k) hd
    obtain ⟨m1, h1, h2⟩ := surfsOff ks (surfOff m k) hs (fun j hj => (hd.same.surfs j).mpr (hk j (by simp [hj])))
    refine ⟨m1, ?_, h2.sound, ?_, ?_, ?_, ?_, ?_, ?_, ?_, ?_, ?_, ?_, ?_⟩
    · rw [List.foldlM_cons, removeSurf_eq hm (hk k (by simp))]
      exact h1
    · rw [h2.verts]; rfl
    · rw [h2.edges]; simp [surfOff]
    · rw [h2.pairs]; simp [surfOff]
    · rw [h2.surfs]
      simp only [surfOff, List.map_map]
      apply List.map_congr_left
      intro a _
      simp only [Function.comp]
      split <;> rfl
    · exact ⟨fun i => (h2.same.verts i).trans (hd.same.verts i), fun i => (h2.same.edges i).trans (hd.same.edges i),
        fun i => (h2.same.surfs i).trans (hd.same.surfs i), fun i => (h2.same.volus i).trans (hd.same.volus i)⟩
    · intro v e; rw [h2.vertEdge, hd.vertEdge]
    · intro v e; rw [h2.edgeVert, hd.edgeVert]
    · intro v e; rw [h2.edgeSurf, hd.edgeSurf, List.mem_cons, not_or, and_assoc]
    · intro v e; rw [h2.surfEdge, hd.surfEdge, List.mem_cons, not_or, and_assoc]
    · intro v e; rw [h2.surfVolu, hd.surfVolu, List.mem_cons, not_or, and_assoc]
    · intro v e; rw [h2.voluSurf, hd.voluSurf, List.mem_cons, not_or, and_assoc]

/-- `m1` is `m` with the edges `ks` detached. -/
structure EdgesOff (m m1 : Mesh) (ks : List Int) : Prop where
  sound : Sound m1
  verts : m1.verts.map Vert.index = m.verts.map Vert.index
  coords : m1.verts.map Vert.coord = m.verts.map Vert.coord
  edges : m1.edges.map Edge.index = m.edges.map Edge.index
  short : ∀ x ∈ m1.edges, x.vertind.length ≤ 2
  pairs : ∀ x ∈ m1.edges, x.index ∉ ks → ∃ y ∈ m.edges, y.index = x.index ∧ y.vertind = x.vertind
  surfs : m1.surfs.map Surf.index = m.surfs.map Surf.index
  same : SameElements m m1
  vertEdge : ∀ v e, VertEdge m1 v e ↔ VertEdge m v e ∧ e ∉ ks
  edgeVert : ∀ e v, EdgeVert m1 e v ↔ EdgeVert m e v ∧ e ∉ ks
  edgeSurf : ∀ e s, EdgeSurf m1 e s ↔ EdgeSurf m e s ∧ e ∉ ks
  surfEdge : ∀ s e, SurfEdge m1 s e ↔ SurfEdge m s e ∧ e ∉ ks
  surfVolu : ∀ s c, SurfVolu m1 s c ↔ SurfVolu m s c
  voluSurf : ∀ c s, VoluSurf m1 c s ↔ VoluSurf m c s

theorem edgesOff : ∀ (ks : List Int) (m : Mesh), Sound m → (∀ x ∈ m.edges, x.vertind.length ≤ 2) → (∀ k ∈ ks, HasEdge m k) →
    ∃ m1, ks.foldlM (m := Except Fault) Mesh.removeEdge m = .ok m1 ∧ EdgesOff m m1 ks
  | [], m, hm, h2, _ => ⟨m, rfl, hm, rfl, rfl, rfl, h2, fun x hx _ => ⟨x, hx, rfl, rfl⟩, rfl, ⟨by simp, by simp, by simp, by simp⟩, by simp, by simp, by simp, by simp, by simp, by simp⟩
  | k :: ks, m, hm, hl, hk => by
    have hd := edgeOff_detached m k
    have hs := sound_of_edgeDetached hm (edgeOff_unique hm.unique k) hd
    obtain ⟨m1, h1, h2⟩ := edgesOff ks (edgeOff m k) hs (by
      intro x hx
      simp only [edgeOff, List.mem_map] at hx
      obtain ⟨y, hy, rfl⟩ := hx
      split
      · simp
      · exact hl y hy) (fun j hj => (hd.same.edges j).mpr (hk j (by simp [hj])))
    refine ⟨m1, ?_, h2.sound, ?_, ?_, ?_, h2.short, ?_, ?_, ?_, ?_, ?_, ?_, ?_, ?_, ?_⟩
    · rw [List.foldlM_cons, removeEdge_eq hm (hk k (by simp))]
      exact h1
    · rw [h2.verts]; simp [edgeOff]
    · rw [h2.coords]; simp [edgeOff]
    · rw [h2.edges]
      simp only [edgeOff, List.map_map]
      apply List.map_congr_left
      intro a _
      simp only [Function.comp]
      split <;> rfl
    · intro x hx hn
      rw [List.mem_cons, not_or] at hn
      obtain ⟨y, hy, hi, e⟩ := h2.pairs x hx hn.2
      simp only [edgeOff, List.mem_map] at hy
      obtain ⟨z, hz, rfl⟩ := hy
      split at e
      · rename_i hzk
        rw [if_pos hzk] at hi
        exact absurd (hi.symm.trans hzk) hn.1
      · rename_i hzk
        rw [if_neg hzk] at hi
        exact ⟨z, hz, hi, e⟩
    · rw [h2.surfs]; simp [edgeOff]
    · exact ⟨fun i => (h2.same.verts i).trans (hd.same.verts i), fun i => (h2.same.edges i).trans (hd.same.edges i),
        fun i => (h2.same.surfs i).trans (hd.same.surfs i), fun i => (h2.same.volus i).trans (hd.same.volus i)⟩
    · intro v e; rw [h2.vertEdge, hd.vertEdge, List.mem_cons, not_or, and_assoc]
    · intro v e; rw [h2.edgeVert, hd.edgeVert, List.mem_cons, not_or, and_assoc]
    · intro v e; rw [h2.edgeSurf, hd.edgeSurf, List.mem_cons, not_or, and_assoc]
    · intro v e; rw [h2.surfEdge, hd.surfEdge, List.mem_cons, not_or, and_assoc]
    · intro v e; rw [h2.surfVolu, hd.surfVolu]
    · intro v e; rw [h2.voluSurf, hd.voluSurf]

theorem map_removeIdx {α : Type} (ix : α → Int) (l : List α) (d : List Int) :
    (removeIdx ix l d).map ix = removeIdx (fun i => i) (l.map ix) d := by
  simp [removeIdx, List.filter_map, Function.comp_def]

/-- The mesh after the removal and the tightening. -/
def cutOut (m : Mesh) (dv de ds : List Int) : Mesh :=
  { m with
    verts := (removeIdx Vert.index m.verts dv).map tightenVert
    edges := (removeIdx Edge.index m.edges de).map fun e => { e with surfind := sortUnique e.surfind }
    surfs := (removeIdx Surf.index m.surfs ds).map tightenSurf
    volus := m.volus.map tightenVolu }

theorem tighten_cut {m : Mesh} (h : ∀ e ∈ m.edges, e.vertind.length ≤ 2) (dv de ds : List Int) :
    Mesh.tighten
      { m with
        verts := removeIdx Vert.index m.verts dv
        edges := removeIdx Edge.index m.edges de
        surfs := removeIdx Surf.index m.surfs ds } = .ok (cutOut m dv de ds) := by
  rw [RSVS.Refine.tighten_eq]
  · rfl
  · intro e he
    exact h e (mem_removeIdx.mp he).1

section cut
variable {m : Mesh} {dv de ds : List Int}

theorem cut_hasVert (v : Int) : HasVert (cutOut m dv de ds) v ↔ HasVert m v ∧ v ∉ dv := by
  simp only [HasVert, cutOut, List.mem_map, mem_removeIdx]
  constructor
  · rintro ⟨x, ⟨y, ⟨hy, hd⟩, rfl⟩, rfl⟩
    exact ⟨⟨y, hy, rfl⟩, hd⟩
  · rintro ⟨⟨y, hy, rfl⟩, hd⟩
    exact ⟨_, ⟨y, ⟨hy, hd⟩, rfl⟩, rfl⟩

theorem cut_hasEdge (v : Int) : HasEdge (cutOut m dv de ds) v ↔ HasEdge m v ∧ v ∉ de := by
  simp only [HasEdge, cutOut, List.mem_map, mem_removeIdx]
  constructor
  · rintro ⟨x, ⟨y, ⟨hy, hd⟩, rfl⟩, rfl⟩
    exact ⟨⟨y, hy, rfl⟩, hd⟩
  · rintro ⟨⟨y, hy, rfl⟩, hd⟩
    exact ⟨_, ⟨y, ⟨hy, hd⟩, rfl⟩, rfl⟩

theorem cut_hasSurf (v : Int) : HasSurf (cutOut m dv de ds) v ↔ HasSurf m v ∧ v ∉ ds := by
  simp only [HasSurf, cutOut, List.mem_map, mem_removeIdx]
  constructor
  · rintro ⟨x, ⟨y, ⟨hy, hd⟩, rfl⟩, rfl⟩
    exact ⟨⟨y, hy, rfl⟩, hd⟩
  · rintro ⟨⟨y, hy, rfl⟩, hd⟩
    exact ⟨_, ⟨y, ⟨hy, hd⟩, rfl⟩, rfl⟩

theorem cut_hasVolu (v : Int) : HasVolu (cutOut m dv de ds) v ↔ HasVolu m v := by
  simp only [HasVolu, cutOut, List.mem_map]
  constructor
  · rintro ⟨x, ⟨y, hy, rfl⟩, rfl⟩
    exact ⟨y, hy, rfl⟩
  · rintro ⟨y, hy, rfl⟩
    exact ⟨_, ⟨y, hy, rfl⟩, rfl⟩

theorem cut_vertEdge (v e : Int) : VertEdge (cutOut m dv de ds) v e ↔ VertEdge m v e ∧ v ∉ dv := by
  simp only [VertEdge, cutOut, List.mem_map, mem_removeIdx]
  constructor
  · rintro ⟨x, ⟨y, ⟨hy, hd⟩, rfl⟩, rfl, h⟩
    exact ⟨⟨y, hy, rfl, mem_sortUnique.mp h⟩, hd⟩
  · rintro ⟨⟨y, hy, rfl, h⟩, hd⟩
    exact ⟨_, ⟨y, ⟨hy, hd⟩, rfl⟩, rfl, mem_sortUnique.mpr h⟩

theorem cut_edgeVert (v e : Int) : EdgeVert (cutOut m dv de ds) v e ↔ EdgeVert m v e ∧ v ∉ de := by
  simp only [EdgeVert, cutOut, List.mem_map, mem_removeIdx]
  constructor
  · rintro ⟨x, ⟨y, ⟨hy, hd⟩, rfl⟩, rfl, h⟩
    exact ⟨⟨y, hy, rfl, h⟩, hd⟩
  · rintro ⟨⟨y, hy, rfl, h⟩, hd⟩
    exact ⟨_, ⟨y, ⟨hy, hd⟩, rfl⟩, rfl, h⟩

theorem cut_edgeSurf (v e : Int) : EdgeSurf (cutOut m dv de ds) v e ↔ EdgeSurf m v e ∧ v ∉ de := by
  simp only [EdgeSurf, cutOut, List.mem_map, mem_removeIdx]
  constructor
  · rintro ⟨x, ⟨y, ⟨hy, hd⟩, rfl⟩, rfl, h⟩
    exact ⟨⟨y, hy, rfl, mem_sortUnique.mp h⟩, hd⟩
  · rintro ⟨⟨y, hy, rfl, h⟩, hd⟩
    exact ⟨_, ⟨y, ⟨hy, hd⟩, rfl⟩, rfl, mem_sortUnique.mpr h⟩

theorem cut_surfEdge (v e : Int) : SurfEdge (cutOut m dv de ds) v e ↔ SurfEdge m v e ∧ v ∉ ds := by
  simp only [SurfEdge, cutOut, List.mem_map, mem_removeIdx]
  constructor
  · rintro ⟨x, ⟨y, ⟨hy, hd⟩, rfl⟩, rfl, h⟩
    exact ⟨⟨y, hy, rfl, mem_sortUnique.mp h⟩, hd⟩
  · rintro ⟨⟨y, hy, rfl, h⟩, hd⟩
    exact ⟨_, ⟨y, ⟨hy, hd⟩, rfl⟩, rfl, mem_sortUnique.mpr h⟩

theorem cut_surfVolu (v e : Int) : SurfVolu (cutOut m dv de ds) v e ↔ SurfVolu m v e ∧ v ∉ ds := by
  simp only [SurfVolu, cutOut, List.mem_map, mem_removeIdx]
  constructor
  · rintro ⟨x, ⟨y, ⟨hy, hd⟩, rfl⟩, rfl, h⟩
    exact ⟨⟨y, hy, rfl, mem_sortUnique.mp h⟩, hd⟩
  · rintro ⟨⟨y, hy, rfl, h⟩, hd⟩
    exact ⟨_, ⟨y, ⟨hy, hd⟩, rfl⟩, rfl, mem_sortUnique.mpr h⟩

theorem cut_voluSurf (v e : Int) : VoluSurf (cutOut m dv de ds) v e ↔ VoluSurf m v e := by
  simp only [VoluSurf, cutOut, List.mem_map]
  constructor
  · rintro ⟨x, ⟨y, hy, rfl⟩, rfl, h⟩
    exact ⟨y, hy, rfl, mem_sortUnique.mp h⟩
  · rintro ⟨y, hy, rfl, h⟩
    exact ⟨_, ⟨y, hy, rfl⟩, rfl, mem_sortUnique.mpr h⟩

theorem nodup_sub {α : Type} {ix : α → Int} {l : List α} (h : (l.map ix).Nodup) (d : List Int) (g : α → α) (hg : ∀ a, ix (g a) = ix a) :
    (((removeIdx ix l d).map g).map ix).Nodup := by
  rw [List.map_map, show ix ∘ g = ix from funext hg]
  exact h.sublist (List.filter_sublist.map ix)

theorem cut_unique (h : UniqueIndices m) : UniqueIndices (cutOut m dv de ds) := by
  refine ⟨nodup_sub h.verts _ _ (fun _ => rfl), nodup_sub h.edges _ _ (fun _ => rfl), nodup_sub h.surfs _ _ (fun _ => rfl), ?_⟩
  show ((m.volus.map tightenVolu).map Volu.index).Nodup
  rw [List.map_map]
  exact h.volus

end cut

/-! ### What is left -/

theorem parts_left {m m1 : Mesh} {Gone : Int → Prop} {dv de ds ks : List Int} (hm : Sound m)
    (hclosed : ∀ e v w, EdgeVert m e v → EdgeVert m e w → Gone v → Gone w)
    (hv : ∀ v, v ∈ dv ↔ HasVert m v ∧ Gone v)
    (he : ∀ e, e ∈ de ↔ ∃ v, HasVert m v ∧ Gone v ∧ VertEdge m v e)
    (hk : ∀ s, s ∈ ks ↔ ∃ v e, HasVert m v ∧ Gone v ∧ VertEdge m v e ∧ EdgeSurf m e s)
    (hz : ∀ e, ¬ EdgeSurf m e 0)
    (hs : ∀ s, s ∈ ds ↔ s ∈ ks) (h1 : SurfsOff m m1 ks) :
    PartsLeft m (cutOut m1 dv de ds) Gone ∧ Sound (cutOut m1 dv de ds) := by
  have hde : ∀ e, e ∈ de ↔ ∃ v, EdgeVert m e v ∧ Gone v := by
    intro e
    rw [he]
    constructor
    · rintro ⟨v, h, g, hve⟩
      have hne : e ≠ 0 := fun h => hm.zeroOutside.vertEdge v (h ▸ hve)
      exact ⟨v, (hm.sym.vertEdge v e h (hm.noDangling.vertEdge v e hve hne)).mp hve, g⟩
    · rintro ⟨v, hev, g⟩
      have hne : v ≠ 0 := fun h => hm.zeroOutside.edgeVert e (h ▸ hev)
      have h := hm.noDangling.edgeVert e v hev hne
      obtain ⟨x, hx, hxi, _⟩ := hev
      exact ⟨v, h, g, (hm.sym.vertEdge v e h ⟨x, hx, hxi⟩).mpr ⟨x, hx, hxi, by assumption⟩⟩
  have hds : ∀ s, s ∈ ds ↔ ∃ e v, SurfEdge m s e ∧ EdgeVert m e v ∧ Gone v := by
    intro s
    rw [hs, hk]
    constructor
    · rintro ⟨v, e, h, g, hve, hes⟩
      obtain ⟨w, hw, gw⟩ := (hde e).mp ((he e).mpr ⟨v, h, g, hve⟩)
      have hne : s ≠ 0 := fun h => hz e (h ▸ hes)
      have hss := hm.noDangling.edgeSurf e s hes hne
      obtain ⟨x, hx, hxi, hxs⟩ := hes
      exact ⟨e, w, (hm.sym.edgeSurf e s ⟨x, hx, hxi⟩ hss).mp ⟨x, hx, hxi, hxs⟩, hw, gw⟩
    · rintro ⟨e, v, hse, hev, g⟩
      obtain ⟨w, hw, gw, hwe⟩ := (he e).mp ((hde e).mpr ⟨v, hev, g⟩)
      have hee := hm.noDangling.surfEdge s e hse
      obtain ⟨x, hx, hxi, hxs⟩ := hse
      exact ⟨w, e, hw, gw, hwe, (hm.sym.edgeSurf e s hee ⟨x, hx, hxi⟩).mpr ⟨x, hx, hxi, hxs⟩⟩
  have HV : ∀ v, HasVert (cutOut m1 dv de ds) v ↔ HasVert m v ∧ ¬ Gone v := by
    intro v
    rw [cut_hasVert, h1.same.verts, hv]
    constructor
    · rintro ⟨a, b⟩; exact ⟨a, fun g => b ⟨a, g⟩⟩
    · rintro ⟨a, b⟩; exact ⟨a, fun g => b g.2⟩
  have HE : ∀ e, HasEdge (cutOut m1 dv de ds) e ↔ HasEdge m e ∧ ∀ v, EdgeVert m e v → ¬ Gone v := by
    intro e
    rw [cut_hasEdge, h1.same.edges, hde]
    simp only [not_exists, not_and]
  have HS : ∀ s, HasSurf (cutOut m1 dv de ds) s ↔ HasSurf m s ∧ ∀ e v, SurfEdge m s e → EdgeVert m e v → ¬ Gone v := by
    intro s
    rw [cut_hasSurf, h1.same.surfs, hds]
    simp only [not_exists, not_and]
  have key1 : ∀ {a b : Int} {R : Prop}, (R → HasVert m a) → (R ∧ a ∉ dv ↔ R ∧ HasVert (cutOut m1 dv de ds) a) := by
    intro a b R hR
    rw [cut_hasVert, h1.same.verts]
    constructor
    · rintro ⟨x, y⟩; exact ⟨x, hR x, y⟩
    · rintro ⟨x, y, z⟩; exact ⟨x, z⟩
  have eV : ∀ {v e}, VertEdge m v e → HasVert m v := fun ⟨x, hx, hi, _⟩ => ⟨x, hx, hi⟩
  have eE : ∀ {v e}, EdgeVert m v e → HasEdge m v := fun ⟨x, hx, hi, _⟩ => ⟨x, hx, hi⟩
  have eE' : ∀ {v e}, EdgeSurf m v e → HasEdge m v := fun ⟨x, hx, hi, _⟩ => ⟨x, hx, hi⟩
  have eS : ∀ {v e}, SurfEdge m v e → HasSurf m v := fun ⟨x, hx, hi, _⟩ => ⟨x, hx, hi⟩
  have eS' : ∀ {v e}, SurfVolu m v e → HasSurf m v := fun ⟨x, hx, hi, _⟩ => ⟨x, hx, hi⟩
  have kE : ∀ e, HasEdge (cutOut m1 dv de ds) e ↔ HasEdge m e ∧ e ∉ de := fun e => by rw [cut_hasEdge, h1.same.edges]
  have kS : ∀ e, HasSurf (cutOut m1 dv de ds) e ↔ HasSurf m e ∧ e ∉ ds := fun e => by rw [cut_hasSurf, h1.same.surfs]
  have kV : ∀ e, HasVert (cutOut m1 dv de ds) e ↔ HasVert m e ∧ e ∉ dv := fun e => by rw [cut_hasVert, h1.same.verts]
  have rVE : ∀ v e, VertEdge (cutOut m1 dv de ds) v e ↔ VertEdge m v e ∧ HasVert (cutOut m1 dv de ds) v := by
    intro v e; rw [cut_vertEdge, h1.vertEdge, kV]
    exact ⟨fun ⟨a, b⟩ => ⟨a, eV a, b⟩, fun ⟨a, _, b⟩ => ⟨a, b⟩⟩
  have rEV : ∀ v e, EdgeVert (cutOut m1 dv de ds) v e ↔ EdgeVert m v e ∧ HasEdge (cutOut m1 dv de ds) v := by
    intro v e; rw [cut_edgeVert, h1.edgeVert, kE]
    exact ⟨fun ⟨a, b⟩ => ⟨a, eE a, b⟩, fun ⟨a, _, b⟩ => ⟨a, b⟩⟩
  have rES : ∀ e s, EdgeSurf (cutOut m1 dv de ds) e s ↔ EdgeSurf m e s ∧ HasEdge (cutOut m1 dv de ds) e ∧ HasSurf (cutOut m1 dv de ds) s := by
    intro v e; rw [cut_edgeSurf, h1.edgeSurf, kE, kS, hs]
    constructor
    · rintro ⟨⟨a, b⟩, c⟩
      have hne : e ≠ 0 := fun h => hz v (h ▸ a)
      exact ⟨a, ⟨eE' a, c⟩, hm.noDangling.edgeSurf _ _ a hne, b⟩
    · rintro ⟨a, ⟨_, b⟩, _, c⟩; exact ⟨⟨a, c⟩, b⟩
  have rSE : ∀ v e, SurfEdge (cutOut m1 dv de ds) v e ↔ SurfEdge m v e ∧ HasSurf (cutOut m1 dv de ds) v := by
    intro v e; rw [cut_surfEdge, h1.surfEdge, kS, hs]
    exact ⟨fun ⟨⟨a, b⟩, _⟩ => ⟨a, eS a, b⟩, fun ⟨a, _, b⟩ => ⟨⟨a, b⟩, b⟩⟩
  have rSC : ∀ v e, SurfVolu (cutOut m1 dv de ds) v e ↔ SurfVolu m v e ∧ HasSurf (cutOut m1 dv de ds) v := by
    intro v e; rw [cut_surfVolu, h1.surfVolu, kS, hs]
    exact ⟨fun ⟨⟨a, b⟩, _⟩ => ⟨a, eS' a, b⟩, fun ⟨a, _, b⟩ => ⟨⟨a, b⟩, b⟩⟩
  have rCS : ∀ c s, VoluSurf (cutOut m1 dv de ds) c s ↔ VoluSurf m c s ∧ HasSurf (cutOut m1 dv de ds) s := by
    intro v e; rw [cut_voluSurf, h1.voluSurf, kS, hs]
    constructor
    · rintro ⟨a, b⟩
      have hne : e ≠ 0 := fun h => hm.zeroOutside.voluSurf v (h ▸ a)
      exact ⟨a, hm.noDangling.voluSurf _ _ a hne, b⟩
    · rintro ⟨a, _, b⟩; exact ⟨a, b⟩
  have rC : ∀ c, HasVolu (cutOut m1 dv de ds) c ↔ HasVolu m c := fun c => by rw [cut_hasVolu, h1.same.volus]
  refine ⟨⟨HV, HE, HS, rC, rVE, rEV, rES, rSE, rSC, rCS, ?_⟩, cut_unique h1.sound.unique, ⟨?_, ?_, ?_, ?_⟩, ⟨?_, ?_, ?_, ?_, ?_, ?_⟩, ⟨?_, ?_, ?_, ?_⟩, ⟨?_, ?_, ?_⟩⟩
  · intro x hx
    simp only [cutOut, List.mem_map, mem_removeIdx] at hx
    obtain ⟨y, ⟨hy, _⟩, rfl⟩ := hx
    exact ⟨y, h1.verts ▸ hy, rfl, rfl⟩
  · intro i h; exact hm.pos.verts i ((HV i).mp h).1
  · intro i h; exact hm.pos.edges i ((HE i).mp h).1
  · intro i h; exact hm.pos.surfs i ((HS i).mp h).1
  · intro i h; exact hm.pos.volus i ((rC i).mp h)
  · intro v e h hne
    obtain ⟨h, hk⟩ := (rVE v e).mp h
    have hee := hm.noDangling.vertEdge v e h hne
    rw [HE]
    refine ⟨hee, fun w hw g => ((HV v).mp hk).2 ?_⟩
    exact hclosed e w v hw ((hm.sym.vertEdge v e (eV h) hee).mp h) g
  · intro e v h hne
    obtain ⟨h, hk⟩ := (rEV e v).mp h
    rw [HV]
    exact ⟨hm.noDangling.edgeVert e v h hne, ((HE e).mp hk).2 v h⟩
  · intro e s h hne
    exact ((rES e s).mp h).2.2
  · intro s e h
    obtain ⟨h, hk⟩ := (rSE s e).mp h
    rw [HE]
    exact ⟨hm.noDangling.surfEdge s e h, fun v hv => ((HS s).mp hk).2 e v h hv⟩
  · intro s c h hne
    rw [rC]
    exact hm.noDangling.surfVolu s c ((rSC s c).mp h).1 hne
  · intro c s h _
    exact ((rCS c s).mp h).2
  · intro v h; exact hm.zeroOutside.vertEdge v ((rVE v 0).mp h).1
  · intro v h; exact hm.zeroOutside.edgeVert v ((rEV v 0).mp h).1
  · intro v h; exact hm.zeroOutside.surfEdge v ((rSE v 0).mp h).1
  · intro v h; exact hm.zeroOutside.voluSurf v ((rCS v 0).mp h).1
  · intro v e h1 h2
    rw [rVE, rEV, hm.sym.vertEdge v e ((HV v).mp h1).1 ((HE e).mp h2).1]
    exact ⟨fun h => ⟨h.1, h2⟩, fun h => ⟨h.1, h1⟩⟩
  · intro v e h1 h2
    rw [rES, rSE, hm.sym.edgeSurf v e ((HE v).mp h1).1 ((HS e).mp h2).1]
    exact ⟨fun h => ⟨h.1, h2⟩, fun h => ⟨h.1, h1, h2⟩⟩
  · intro v e h1 h2
    rw [rSC, rCS, hm.sym.surfVolu v e ((HS v).mp h1).1 ((rC e).mp h2)]

theorem parts_left_flat {m m1 : Mesh} {Gone : Int → Prop} {dv de ks : List Int} (hm : Sound m)
    (hclosed : ∀ e v w, EdgeVert m e v → EdgeVert m e w → Gone v → Gone w)
    (hv : ∀ v, v ∈ dv ↔ HasVert m v ∧ Gone v)
    (hk : ∀ e, e ∈ ks ↔ ∃ v, HasVert m v ∧ Gone v ∧ VertEdge m v e)
    (he : ∀ e, e ∈ de ↔ e ∈ ks) (h1 : EdgesOff m m1 ks) :
    PartsLeftFlat m (cutOut m1 dv de []) Gone ∧ Sound (cutOut m1 dv de []) := by
  have hde : ∀ e, e ∈ de ↔ ∃ v, EdgeVert m e v ∧ Gone v := by
    intro e
    rw [he, hk]
    constructor
    · rintro ⟨v, h, g, hve⟩
      have hne : e ≠ 0 := fun h => hm.zeroOutside.vertEdge v (h ▸ hve)
      exact ⟨v, (hm.sym.vertEdge v e h (hm.noDangling.vertEdge v e hve hne)).mp hve, g⟩
    · rintro ⟨v, hev, g⟩
      have hne : v ≠ 0 := fun h => hm.zeroOutside.edgeVert e (h ▸ hev)
      have h := hm.noDangling.edgeVert e v hev hne
      obtain ⟨x, hx, hxi, _⟩ := hev
      exact ⟨v, h, g, (hm.sym.vertEdge v e h ⟨x, hx, hxi⟩).mpr ⟨x, hx, hxi, by assumption⟩⟩
  have HV : ∀ v, HasVert (cutOut m1 dv de []) v ↔ HasVert m v ∧ ¬ Gone v := by
    intro v
    rw [cut_hasVert, h1.same.verts, hv]
    constructor
    · rintro ⟨a, b⟩; exact ⟨a, fun g => b ⟨a, g⟩⟩
    · rintro ⟨a, b⟩; exact ⟨a, fun g => b g.2⟩
  have HE : ∀ e, HasEdge (cutOut m1 dv de []) e ↔ HasEdge m e ∧ ∀ v, EdgeVert m e v → ¬ Gone v := by
    intro e
    rw [cut_hasEdge, h1.same.edges, hde]
    simp only [not_exists, not_and]
  have eV : ∀ {v e}, VertEdge m v e → HasVert m v := fun ⟨x, hx, hi, _⟩ => ⟨x, hx, hi⟩
  have eE : ∀ {v e}, EdgeVert m v e → HasEdge m v := fun ⟨x, hx, hi, _⟩ => ⟨x, hx, hi⟩
  have eE' : ∀ {v e}, EdgeSurf m v e → HasEdge m v := fun ⟨x, hx, hi, _⟩ => ⟨x, hx, hi⟩
  have kE : ∀ e, HasEdge (cutOut m1 dv de []) e ↔ HasEdge m e ∧ e ∉ de := fun e => by rw [cut_hasEdge, h1.same.edges]
  have kV : ∀ e, HasVert (cutOut m1 dv de []) e ↔ HasVert m e ∧ e ∉ dv := fun e => by rw [cut_hasVert, h1.same.verts]
  have rVE : ∀ v e, VertEdge (cutOut m1 dv de []) v e ↔ VertEdge m v e ∧ HasVert (cutOut m1 dv de []) v := by
    intro v e; rw [cut_vertEdge, h1.vertEdge, kV]
    constructor
    · rintro ⟨⟨a, b⟩, c⟩; exact ⟨a, eV a, c⟩
    · rintro ⟨a, b, c⟩
      exact ⟨⟨a, fun hek => by
        obtain ⟨w, hw, g⟩ := (hde e).mp ((he e).mpr hek)
        refine c ((hv v).mpr ⟨b, hclosed e w v hw ?_ g⟩)
        exact (hm.sym.vertEdge v e b (eE hw)).mp a⟩, c⟩
  have rEV : ∀ v e, EdgeVert (cutOut m1 dv de []) v e ↔ EdgeVert m v e ∧ HasEdge (cutOut m1 dv de []) v := by
    intro v e; rw [cut_edgeVert, h1.edgeVert, kE, he]
    exact ⟨fun ⟨⟨a, b⟩, _⟩ => ⟨a, eE a, b⟩, fun ⟨a, _, b⟩ => ⟨⟨a, b⟩, b⟩⟩
  have rES : ∀ e s, EdgeSurf (cutOut m1 dv de []) e s ↔ EdgeSurf m e s ∧ HasEdge (cutOut m1 dv de []) e := by
    intro v e; rw [cut_edgeSurf, h1.edgeSurf, kE, he]
    exact ⟨fun ⟨⟨a, b⟩, _⟩ => ⟨a, eE' a, b⟩, fun ⟨a, _, b⟩ => ⟨⟨a, b⟩, b⟩⟩
  have rSE : ∀ s e, SurfEdge (cutOut m1 dv de []) s e ↔ SurfEdge m s e ∧ HasEdge (cutOut m1 dv de []) e := by
    intro v e; rw [cut_surfEdge, h1.surfEdge, kE, he]
    exact ⟨fun ⟨⟨a, b⟩, _⟩ => ⟨a, hm.noDangling.surfEdge _ _ a, b⟩, fun ⟨a, _, b⟩ => ⟨⟨a, b⟩, by simp⟩⟩
  have rSC : ∀ v e, SurfVolu (cutOut m1 dv de []) v e ↔ SurfVolu m v e := by
    intro v e; rw [cut_surfVolu, h1.surfVolu]; simp
  have rCS : ∀ c s, VoluSurf (cutOut m1 dv de []) c s ↔ VoluSurf m c s := by
    intro v e; rw [cut_voluSurf, h1.voluSurf]
  have rC : ∀ c, HasVolu (cutOut m1 dv de []) c ↔ HasVolu m c := fun c => by rw [cut_hasVolu, h1.same.volus]
  have rS : ∀ c, HasSurf (cutOut m1 dv de []) c ↔ HasSurf m c := fun c => by rw [cut_hasSurf, h1.same.surfs]; simp
  refine ⟨⟨HV, HE, rS, rC, rVE, rEV, rES, rSE, rSC, rCS, ?_⟩, cut_unique h1.sound.unique, ⟨?_, ?_, ?_, ?_⟩, ⟨?_, ?_, ?_, ?_, ?_, ?_⟩, ⟨?_, ?_, ?_, ?_⟩, ⟨?_, ?_, ?_⟩⟩
  · intro x hx
    simp only [cutOut, List.mem_map, mem_removeIdx] at hx
    obtain ⟨y, ⟨hy, _⟩, rfl⟩ := hx
    obtain ⟨k, hk, rfl⟩ := List.getElem_of_mem hy
    have hlen : m1.verts.length = m.verts.length := by simpa using congrArg List.length h1.verts
    refine ⟨m.verts[k]'(hlen ▸ hk), List.getElem_mem _, ?_, ?_⟩
    · have := congrArg (fun l => l[k]?) h1.verts
      simp only [List.getElem?_map, List.getElem?_eq_getElem hk, List.getElem?_eq_getElem (hlen ▸ hk : k < m.verts.length), Option.map_some, Option.some.injEq] at this
      exact this.symm
    · have := congrArg (fun l => l[k]?) h1.coords
      simp only [List.getElem?_map, List.getElem?_eq_getElem hk, List.getElem?_eq_getElem (hlen ▸ hk : k < m.verts.length), Option.map_some, Option.some.injEq] at this
      exact this.symm
  · intro i h; exact hm.pos.verts i ((HV i).mp h).1
  · intro i h; exact hm.pos.edges i ((HE i).mp h).1
  · intro i h; exact hm.pos.surfs i ((rS i).mp h)
  · intro i h; exact hm.pos.volus i ((rC i).mp h)
  · intro v e h hne
    obtain ⟨h, hk⟩ := (rVE v e).mp h
    have hee := hm.noDangling.vertEdge v e h hne
    rw [HE]
    refine ⟨hee, fun w hw g => ((HV v).mp hk).2 ?_⟩
    exact hclosed e w v hw ((hm.sym.vertEdge v e (eV h) hee).mp h) g
  · intro e v h hne
    obtain ⟨h, hk⟩ := (rEV e v).mp h
    rw [HV]
    exact ⟨hm.noDangling.edgeVert e v h hne, ((HE e).mp hk).2 v h⟩
  · intro e s h hne
    rw [rS]
    exact hm.noDangling.edgeSurf e s ((rES e s).mp h).1 hne
  · intro s e h
    exact ((rSE s e).mp h).2
  · intro s c h hne
    rw [rC]
    exact hm.noDangling.surfVolu s c ((rSC s c).mp h) hne
  · intro c s h hne
    rw [rS]
    exact hm.noDangling.voluSurf c s ((rCS c s).mp h) hne
  · intro v h; exact hm.zeroOutside.vertEdge v ((rVE v 0).mp h).1
  · intro v h; exact hm.zeroOutside.edgeVert v ((rEV v 0).mp h).1
  · intro v h; exact hm.zeroOutside.surfEdge v ((rSE v 0).mp h).1
  · intro v h; exact hm.zeroOutside.voluSurf v ((rCS v 0).mp h)
  · intro v e h1 h2
    rw [rVE, rEV, hm.sym.vertEdge v e ((HV v).mp h1).1 ((HE e).mp h2).1]
    exact ⟨fun h => ⟨h.1, h2⟩, fun h => ⟨h.1, h1⟩⟩
  · intro v e h1 h2
    rw [rES, rSE, hm.sym.edgeSurf v e ((HE v).mp h1).1 ((rS e).mp h2)]
  · intro v e h1 h2
    rw [rSC, rCS, hm.sym.surfVolu v e ((rS v).mp h1) ((rC e).mp h2)]

/-! ### Marks and lists -/

/-- The label of a vertex. -/
def lab (m : Mesh) (labels : List Int) (t : Int) : Int := labels.getD (posOf Vert.index m.verts t).toNat 0

/-- The marks after the vertices `p`. -/
def marks (m : Mesh) (labels : List Int) (N : Nat) (b : Bool) (p : List Int) : List Bool :=
  (List.range N).map fun k : Nat => if p.any (fun t => lab m labels t == (k : Int) + 1) then b else !b

theorem lab_spec {m : Mesh} {labels : List Int} (hlen : labels.length = m.verts.length) {t : Int} (ht : HasVert m t) :
    ∃ k : Nat, ∃ x : Vert, m.verts[k]? = some x ∧ x.index = t ∧ posOf Vert.index m.verts t = k ∧ labels[k]? = some (lab m labels t) := by
  obtain ⟨k, h, hk, hx⟩ := posOf_mem (ix := Vert.index) ht
  refine ⟨k, m.verts[k], List.getElem?_eq_getElem hk, hx, h, ?_⟩
  unfold lab
  rw [h, Int.toNat_natCast, List.getD_eq_getElem?_getD, List.getElem?_eq_getElem (hlen ▸ hk)]
  rfl

theorem ok_bind {α β : Type} (a : α) (f : α → Res β) : Except.bind (Except.ok a) f = f a := rfl

theorem vecGet_of {α : Type} {l : List α} {k : Nat} {a : α} (h : l[k]? = some a) : vecGet l (k : Int) = .ok a := by
  unfold vecGet
  rw [if_neg (by omega), Int.toNat_natCast, h]

theorem elemAt_of {α : Type} {l : List α} {k : Nat} {a : α} (h : l[k]? = some a) : elemAt l (k : Int) = .ok a := by
  unfold elemAt
  rw [if_neg (by omega), Int.toNat_natCast, h]

theorem mark_eq {m : Mesh} {labels : List Int} {n : Int} (b : Bool) (hlen : labels.length = m.verts.length)
    (hr : ∀ l ∈ labels, 1 ≤ l ∧ l ≤ n) {touched : List Int} (ht : ∀ t ∈ touched, HasVert m t) :
    markBlocks m labels b touched (List.replicate n.toNat (!b)) = .ok (marks m labels n.toNat b touched) := by
  unfold markBlocks
  have h0 : List.replicate n.toNat (!b) = marks m labels n.toNat b [] := by
    apply List.ext_getElem
    · simp [marks]
    · intro i h1 h2; simp [marks]
  rw [h0]
  apply RSVS.TetMesh.foldlM_mem _ (fun p => marks m labels n.toNat b p)
  intro p t htt
  obtain ⟨k, x, hx, hxi, hp, hl⟩ := lab_spec hlen (ht t htt)
  rw [hp, vecGet_of hl]
  show vecSet _ _ _ = _
  have hr' := hr _ (List.mem_of_getElem? hl)
  unfold vecSet
  rw [if_neg (by omega), if_pos (by simp only [marks, List.length_map, List.length_range]; omega)]
  congr 1
  apply List.ext_getElem
  · simp [marks]
  · intro i h1 h2
    simp only [marks, List.getElem_set, List.getElem_map, List.getElem_range, List.any_append, List.any_cons, List.any_nil, Bool.or_false]
    by_cases hi : (lab m labels t - 1).toNat = i
    · have : lab m labels t = (i : Int) + 1 := by omega
      rw [if_pos hi, this]
      simp
    · have : (lab m labels t == (i : Int) + 1) = false := by
        rw [beq_eq_false_iff_ne]; omega
      rw [if_neg hi, this, Bool.or_false]

/-- Whether the block of the vertex at a position is deleted. -/
def goneAt (m : Mesh) (labels : List Int) (b : Bool) (touched : List Int) (i : Nat) : Bool :=
  if touched.any (fun t => lab m labels t == labels.getD i 0) then b else !b

def getSurfs (ws : Bool) (m : Mesh) (es : List Int) : List Int :=
  if ws then
    match concatField m.edges Edge.surfind (posList Edge.index m.edges es) with
    | .ok r => r
    | .error _ => []
  else []

def edgesAt (m : Mesh) (i : Nat) : List Int := (m.verts[i]?).elim [] Vert.edgeind

def listsOf (ws : Bool) (s : Snake) (labels : List Int) (b : Bool) (touched : List Int) (p : List Nat) : Lists where
  snax := p.flatMap fun i => if goneAt s.conn labels b touched i then [s.snaxs.getD i 0] else []
  edge := p.flatMap fun i => if goneAt s.conn labels b touched i then edgesAt s.conn i else []
  surf := p.flatMap fun i => if goneAt s.conn labels b touched i then getSurfs ws s.conn (edgesAt s.conn i) else []

theorem edgesAt_has {m : Mesh} (hm : Sound m) {i : Nat} (hi : i < m.verts.length) : ∀ k ∈ edgesAt m i, ∃ a ∈ m.edges, a.index = k := by
  intro k hk
  unfold edgesAt at hk
  rw [List.getElem?_eq_getElem hi] at hk
  have hv : VertEdge m m.verts[i].index k := ⟨_, List.getElem_mem hi, rfl, hk⟩
  exact hm.noDangling.vertEdge _ _ hv (fun h => hm.zeroOutside.vertEdge _ (h ▸ hv))

theorem mem_getSurfs {m : Mesh} (hm : Sound m) {i : Nat} (hi : i < m.verts.length) (x : Int) :
    x ∈ getSurfs true m (edgesAt m i) ↔ ∃ a ∈ m.edges, a.index ∈ edgesAt m i ∧ x ∈ a.surfind := by
  obtain ⟨r, h1, h2⟩ := RSVS.Refine.concatField_ok (field := Edge.surfind) (edgesAt_has hm hi) hm.unique.edges
  unfold getSurfs
  rw [h1, if_pos rfl]
  exact h2 x

theorem collect_eq {s : Snake} (ws : Bool) (hm : Sound s.conn) (hs : s.snaxs = s.conn.verts.map Vert.index)
    {labels : List Int} {n : Int} (hc : s.conn.connectedVertex [] = .ok (labels, n))
    (hlen : labels.length = s.conn.verts.length) (hr : ∀ l ∈ labels, 1 ≤ l ∧ l ≤ n) (border : Int)
    {touched : List Int} (ht : ∀ t ∈ touched, HasVert s.conn t) :
    collect ws s border touched =
      .ok (listsOf ws s labels (decide (border > 0)) touched (List.range s.conn.verts.length)) := by
  unfold collect
  rw [hc]
  show Except.bind (markBlocks s.conn labels (decide (border > 0)) touched (List.replicate n.toNat (!decide (border > 0))))
    (fun isDel => (List.range labels.length).foldlM (collectStep ws s labels isDel) _) = _
  rw [mark_eq _ hlen hr ht]
  show (List.range labels.length).foldlM (collectStep ws s labels _) _ = _
  rw [hlen]
  generalize hb : decide (border > 0) = b
  apply RSVS.TetMesh.foldlM_mem _ (fun p => listsOf ws s labels b touched p)
  intro p i hi
  rw [List.mem_range] at hi
  have hi' : i < labels.length := hlen ▸ hi
  have hl : labels[i]? = some labels[i] := List.getElem?_eq_getElem hi'
  have hr' := hr _ (List.getElem_mem hi')
  have hv : s.conn.verts[i]? = some s.conn.verts[i] := List.getElem?_eq_getElem hi
  have hx : s.snaxs[i]? = some s.conn.verts[i].index := by rw [hs, List.getElem?_map, hv]; rfl
  have hmk : vecGet (marks s.conn labels n.toNat b touched) (labels[i] - 1) = .ok (goneAt s.conn labels b touched i) := by
    have e : labels[i] - 1 = (((labels[i] - 1).toNat : Nat) : Int) := by omega
    rw [e]
    apply vecGet_of
    unfold marks goneAt
    rw [List.getElem?_map, List.getElem?_range (by omega), List.getD_eq_getElem?_getD, hl]
    simp only [Option.map_some, Option.getD_some]
    have : (((labels[i] - 1).toNat : Nat) : Int) + 1 = labels[i] := by omega
    rw [this]
  unfold collectStep
  rw [vecGet_of hl, ok_bind, hmk, ok_bind]
  by_cases hg : goneAt s.conn labels b touched i = true
  · rw [if_pos hg, elemAt_of hx, ok_bind, elemAt_of hv, ok_bind]
    have he : edgesAt s.conn i = s.conn.verts[i].edgeind := by unfold edgesAt; rw [hv]; rfl
    have h3 : (if ws = true then concatField s.conn.edges Edge.surfind (posList Edge.index s.conn.edges s.conn.verts[i].edgeind)
        else .ok []) = .ok (getSurfs ws s.conn (edgesAt s.conn i)) := by
      cases ws with
      | false => rfl
      | true =>
        obtain ⟨r, h1, _⟩ := RSVS.Refine.concatField_ok (field := Edge.surfind) (edgesAt_has hm hi) hm.unique.edges
        unfold getSurfs
        rw [← he, h1, if_pos rfl, if_pos rfl]
    show Except.map _ (if ws = true then concatField s.conn.edges Edge.surfind (posList Edge.index s.conn.edges s.conn.verts[i].edgeind)
        else .ok []) = _
    rw [h3]
    show Except.ok _ = _
    congr 1
    simp only [listsOf, List.flatMap_append, List.flatMap_cons, List.flatMap_nil, List.append_nil, hg, if_true, he,
      List.getD_eq_getElem?_getD, hx, Option.getD_some]
  · rw [if_neg hg]
    congr 1
    simp only [listsOf, List.flatMap_append, List.flatMap_cons, List.flatMap_nil, List.append_nil, hg]
    simp

theorem goneAt_iff {m : Mesh} {labels : List Int} (hlen : labels.length = m.verts.length)
    (hj : ∀ v w l l', VertLabel m labels v l → VertLabel m labels w l' →
        (l = l' ↔ VertJoined m (fun _ => True) (HasVert m) v w)) (border : Int)
    {touched : List Int} (ht : ∀ t ∈ touched, HasVert m t) {i : Nat} (hi : i < m.verts.length) :
    goneAt m labels (decide (border > 0)) touched i = true ↔ ToGo m border (fun t => t ∈ touched) m.verts[i].index := by
  have key : touched.any (fun t => lab m labels t == labels.getD i 0) = true ↔ PartMeets m (fun t => t ∈ touched) m.verts[i].index := by
    have hl : labels[i]? = some labels[i] := List.getElem?_eq_getElem (hlen ▸ hi)
    have hg : labels.getD i 0 = labels[i] := by rw [List.getD_eq_getElem?_getD, hl]; rfl
    rw [List.any_eq_true, hg]
    constructor
    · rintro ⟨t, htt, h⟩
      obtain ⟨k, x, hx, hxi, hp, hlab⟩ := lab_spec hlen (ht t htt)
      exact ⟨t, htt, (hj t _ _ _ ⟨k, x, hx, hxi, hlab⟩ ⟨i, _, List.getElem?_eq_getElem hi, rfl, hl⟩).mp (by simpa using h)⟩
    · rintro ⟨t, htt, h⟩
      obtain ⟨k, x, hx, hxi, hp, hlab⟩ := lab_spec hlen (ht t htt)
      exact ⟨t, htt, by simpa using (hj t _ _ _ ⟨k, x, hx, hxi, hlab⟩ ⟨i, _, List.getElem?_eq_getElem hi, rfl, hl⟩).mpr h⟩
  unfold goneAt ToGo
  rw [← key]
  by_cases hb : border > 0
  · have : ¬ border ≤ 0 := by omega
    simp only [hb, decide_true, this, false_and, or_false, true_and, Bool.not_true]
    cases touched.any (fun t => lab m labels t == labels.getD i 0) <;> simp
  · have h2 : border ≤ 0 := by omega
    simp only [hb, decide_false, false_and, false_or, true_and, Bool.not_false, h2]
    cases touched.any (fun t => lab m labels t == labels.getD i 0) <;> simp

theorem lists_spec {s : Snake} (ws : Bool) (hm : Sound s.conn) (hs : s.snaxs = s.conn.verts.map Vert.index)
    {labels : List Int} (hlen : labels.length = s.conn.verts.length)
    (hj : ∀ v w l l', VertLabel s.conn labels v l → VertLabel s.conn labels w l' →
        (l = l' ↔ VertJoined s.conn (fun _ => True) (HasVert s.conn) v w)) (border : Int)
    {touched : List Int} (ht : ∀ t ∈ touched, HasVert s.conn t) :
    let d := listsOf ws s labels (decide (border > 0)) touched (List.range s.conn.verts.length)
    let G := ToGo s.conn border (fun t => t ∈ touched)
    (∀ v, v ∈ d.snax ↔ HasVert s.conn v ∧ G v) ∧
    (∀ e, e ∈ d.edge ↔ ∃ v, HasVert s.conn v ∧ G v ∧ VertEdge s.conn v e) ∧
    (ws = true → ∀ x, x ∈ d.surf ↔ ∃ v e, HasVert s.conn v ∧ G v ∧ VertEdge s.conn v e ∧ EdgeSurf s.conn e x) := by
  intro d G
  have hga := @goneAt_iff s.conn labels hlen hj border touched ht
  refine ⟨?_, ?_, ?_⟩
  · intro v
    simp only [d, listsOf, List.mem_flatMap, List.mem_range]
    constructor
    · rintro ⟨i, hi, h⟩
      split at h
      · rename_i hg
        rw [List.mem_singleton, hs, List.getD_eq_getElem?_getD, List.getElem?_map, List.getElem?_eq_getElem hi] at h
        subst h
        exact ⟨⟨_, List.getElem_mem hi, rfl⟩, (hga hi).mp hg⟩
      · simp at h
    · rintro ⟨⟨x, hx, rfl⟩, hg⟩
      obtain ⟨i, hi, rfl⟩ := List.getElem_of_mem hx
      refine ⟨i, hi, ?_⟩
      rw [if_pos ((hga hi).mpr hg), List.mem_singleton, hs, List.getD_eq_getElem?_getD, List.getElem?_map, List.getElem?_eq_getElem hi]
      rfl
  · intro e
    simp only [d, listsOf, List.mem_flatMap, List.mem_range]
    constructor
    · rintro ⟨i, hi, h⟩
      split at h
      · rename_i hg
        unfold edgesAt at h
        rw [List.getElem?_eq_getElem hi] at h
        exact ⟨_, ⟨_, List.getElem_mem hi, rfl⟩, (hga hi).mp hg, _, List.getElem_mem hi, rfl, h⟩
      · simp at h
    · rintro ⟨v, _, hg, x, hx, rfl, he⟩
      obtain ⟨i, hi, rfl⟩ := List.getElem_of_mem hx
      refine ⟨i, hi, ?_⟩
      rw [if_pos ((hga hi).mpr hg)]
      unfold edgesAt
      rw [List.getElem?_eq_getElem hi]
      exact he
  · intro hws y
    subst hws
    simp only [d, listsOf, List.mem_flatMap, List.mem_range]
    constructor
    · rintro ⟨i, hi, h⟩
      split at h
      · rename_i hg
        obtain ⟨a, ha, hae, hy⟩ := (mem_getSurfs hm hi y).mp h
        unfold edgesAt at hae
        rw [List.getElem?_eq_getElem hi] at hae
        exact ⟨_, a.index, ⟨_, List.getElem_mem hi, rfl⟩, (hga hi).mp hg, ⟨_, List.getElem_mem hi, rfl, hae⟩, a, ha, rfl, hy⟩
      · simp at h
    · rintro ⟨v, e, _, hg, ⟨x, hx, rfl, he⟩, a, ha, hai, hy⟩
      obtain ⟨i, hi, rfl⟩ := List.getElem_of_mem hx
      refine ⟨i, hi, ?_⟩
      rw [if_pos ((hga hi).mpr hg)]
      refine (mem_getSurfs hm hi y).mpr ⟨a, ha, ?_, hy⟩
      unfold edgesAt
      rw [List.getElem?_eq_getElem hi, hai]
      exact he

/-! ### The vertices in the cells -/

theorem concatField_at {α : Type} (l : List α) (field : α → List Int) : ∀ (ps : List Nat) (acc : List Int), (∀ p ∈ ps, p < l.length) →
    (ps.map fun p : Nat => (p : Int)).foldlM (m := Except Fault) (fun acc p => do
        let a ← elemAt l p
        pure (acc ++ field a)) acc = .ok (acc ++ ps.flatMap fun p => (l[p]?).elim [] field)
  | [], acc, _ => by simp; rfl
  | p :: ps, acc, h => by
    have hp : l[p]? = some (l[p]'(h p (by simp))) := List.getElem?_eq_getElem _
    rw [List.map_cons, List.foldlM_cons, elemAt_of hp]
    show List.foldlM _ (acc ++ field _) _ = _
    rw [concatField_at l field ps _ (fun q hq => h q (by simp [hq])), List.flatMap_cons, hp, List.append_assoc]
    rfl

theorem touch_fold {f : Int → Res (List Int)} {T : Int → Int → Prop} {cells : List Int} (acc : List Int)
    (h : ∀ c ∈ cells, ∃ ts, f c = .ok ts ∧ ∀ w, w ∈ ts ↔ T c w) :
    ∃ r, cells.foldlM (m := Except Fault) (fun acc c => (f c).map fun ts => acc ++ ts) acc = .ok r ∧
      ∀ w, w ∈ r ↔ w ∈ acc ∨ ∃ c ∈ cells, T c w := by
  induction cells generalizing acc with
  | nil => exact ⟨acc, rfl, by simp⟩
  | cons c cells ih =>
    obtain ⟨ts, h1, h2⟩ := h c (by simp)
    obtain ⟨r, h3, h4⟩ := ih (acc ++ ts) (fun c hc => h c (by simp [hc]))
    refine ⟨r, ?_, ?_⟩
    · rw [List.foldlM_cons, h1]
      exact h3
    · intro w
      rw [h4, List.mem_append, h2]
      simp only [List.mem_cons, exists_eq_or_imp]
      tauto

theorem touchVolu_spec {s : Snake} (hm : Sound s.conn) (hs : s.snaxsurfs.map Prod.fst = s.conn.surfs.map Surf.index)
    {sibs : Int → List Nat} (hsib : ∀ c, AllPos Prod.snd s.snaxsurfs c (sibs c)) (cells : List Int) :
    ∃ r, touchVolu s.conn sibs cells = .ok r ∧ ∀ w, w ∈ r ↔ InVolus s.conn s.snaxsurfs cells w := by
  have hlen : s.snaxsurfs.length = s.conn.surfs.length := by simpa using congrArg List.length hs
  have hf : ∀ c ∈ cells, ∃ ts, ((concatField s.conn.surfs Surf.edgeind ((sibs c).map fun p : Nat => (p : Int))).bind fun te =>
      concatField s.conn.edges Edge.vertind (posList Edge.index s.conn.edges te)) = .ok ts ∧
      ∀ w, w ∈ ts ↔ InVolus s.conn s.snaxsurfs [c] w := by
    intro c _
    have hlt : ∀ p ∈ sibs c, p < s.conn.surfs.length := by
      intro p hp
      obtain ⟨e, he, _⟩ := ((hsib c).2 p).mp hp
      rw [← hlen]
      exact (List.getElem?_eq_some_iff.mp he).1
    have h1 := concatField_at s.conn.surfs Surf.edgeind (sibs c) [] hlt
    rw [List.nil_append] at h1
    have hmem : ∀ e, e ∈ ((sibs c).flatMap fun p => (s.conn.surfs[p]?).elim [] Surf.edgeind) ↔
        ∃ q ∈ s.snaxsurfs, q.2 = c ∧ SurfEdge s.conn q.1 e := by
      intro e
      rw [List.mem_flatMap]
      constructor
      · rintro ⟨p, hp, he⟩
        obtain ⟨q, hq, hqc⟩ := ((hsib c).2 p).mp hp
        have hpl := hlt p hp
        rw [List.getElem?_eq_getElem hpl] at he
        have := congrArg (fun l => l[p]?) hs
        simp only [List.getElem?_map, hq, List.getElem?_eq_getElem hpl, Option.map_some, Option.some.injEq] at this
        exact ⟨q, List.mem_of_getElem? hq, hqc, _, List.getElem_mem hpl, this.symm, he⟩
      · rintro ⟨q, hq, hqc, x, hx, hxi, he⟩
        obtain ⟨p, hp, rfl⟩ := List.getElem_of_mem hq
        refine ⟨p, ((hsib c).2 p).mpr ⟨_, List.getElem?_eq_getElem hp, hqc⟩, ?_⟩
        have hpl : p < s.conn.surfs.length := hlen ▸ hp
        have := congrArg (fun l => l[p]?) hs
        simp only [List.getElem?_map, List.getElem?_eq_getElem hp, List.getElem?_eq_getElem hpl, Option.map_some, Option.some.injEq] at this
        rw [List.getElem?_eq_getElem hpl]
        have hxe := inj_of_nodup hm.unique.surfs hx (List.getElem_mem hpl) (by rw [hxi, this])
        rw [hxe] at he
        exact he
    obtain ⟨ts, h2, h3⟩ := RSVS.Refine.concatField_ok (l := s.conn.edges) (ix := Edge.index) (field := Edge.vertind)
      (ks := (sibs c).flatMap fun p => (s.conn.surfs[p]?).elim [] Surf.edgeind) (by
        intro k hk
        obtain ⟨q, _, _, h⟩ := (hmem k).mp hk
        exact hm.noDangling.surfEdge _ _ h) hm.unique.edges
    refine ⟨ts, ?_, ?_⟩
    · unfold concatField at h2 ⊢
      rw [h1]
      exact h2
    · intro w
      rw [h3]
      constructor
      · rintro ⟨a, ha, hk, hw⟩
        obtain ⟨q, hq, hqc, h⟩ := (hmem _).mp hk
        exact ⟨q, hq, by simp [hqc], _, h, a, ha, rfl, hw⟩
      · rintro ⟨q, hq, hqc, e, h, a, ha, hai, hw⟩
        exact ⟨a, ha, (hmem _).mpr ⟨q, hq, by simpa using hqc, hai ▸ h⟩, hw⟩
  obtain ⟨r, h1, h2⟩ := touch_fold (f := fun c => (concatField s.conn.surfs Surf.edgeind ((sibs c).map fun p : Nat => (p : Int))).bind fun te =>
      concatField s.conn.edges Edge.vertind (posList Edge.index s.conn.edges te)) (T := fun c w => InVolus s.conn s.snaxsurfs [c] w) [] hf
  refine ⟨r, ?_, ?_⟩
  · rw [← h1]
    unfold touchVolu
    congr 1
    funext acc c
    cases concatField s.conn.surfs Surf.edgeind ((sibs c).map fun p : Nat => (p : Int)) <;> rfl
  · intro w
    rw [h2]
    unfold InVolus
    simp only [List.not_mem_nil, false_or, List.mem_singleton]
    constructor
    · rintro ⟨c, hc, q, hq, rfl, h⟩; exact ⟨q, hq, hc, h⟩
    · rintro ⟨q, hq, hc, h⟩; exact ⟨_, hc, q, hq, rfl, h⟩

theorem touchSurf_spec {s : Snake} (hm : Sound s.conn) (hs : s.snaxedges.map Prod.fst = s.conn.edges.map Edge.index)
    {sibs : Int → List Nat} (hsib : ∀ c, AllPos Prod.snd s.snaxedges c (sibs c)) (cells : List Int) :
    ∃ r, touchSurf s.conn sibs cells = .ok r ∧ ∀ w, w ∈ r ↔ InSurfs s.conn s.snaxedges cells w := by
  have hlen : s.snaxedges.length = s.conn.edges.length := by simpa using congrArg List.length hs
  have hf : ∀ c ∈ cells, ∃ ts, (concatField s.conn.edges Edge.vertind ((sibs c).map fun p : Nat => (p : Int))) = .ok ts ∧
      ∀ w, w ∈ ts ↔ InSurfs s.conn s.snaxedges [c] w := by
    intro c _
    have hlt : ∀ p ∈ sibs c, p < s.conn.edges.length := by
      intro p hp
      obtain ⟨e, he, _⟩ := ((hsib c).2 p).mp hp
      rw [← hlen]
      exact (List.getElem?_eq_some_iff.mp he).1
    have h1 := concatField_at s.conn.edges Edge.vertind (sibs c) [] hlt
    rw [List.nil_append] at h1
    refine ⟨_, h1, ?_⟩
    intro e
    rw [List.mem_flatMap]
    constructor
    · rintro ⟨p, hp, he⟩
      obtain ⟨q, hq, hqc⟩ := ((hsib c).2 p).mp hp
      have hpl := hlt p hp
      rw [List.getElem?_eq_getElem hpl] at he
      have := congrArg (fun l => l[p]?) hs
      simp only [List.getElem?_map, hq, List.getElem?_eq_getElem hpl, Option.map_some, Option.some.injEq] at this
      exact ⟨q, List.mem_of_getElem? hq, by simp [hqc], _, List.getElem_mem hpl, this.symm, he⟩
    · rintro ⟨q, hq, hqc, x, hx, hxi, he⟩
      obtain ⟨p, hp, rfl⟩ := List.getElem_of_mem hq
      refine ⟨p, ((hsib c).2 p).mpr ⟨_, List.getElem?_eq_getElem hp, by simpa using hqc⟩, ?_⟩
      have hpl : p < s.conn.edges.length := hlen ▸ hp
      have := congrArg (fun l => l[p]?) hs
      simp only [List.getElem?_map, List.getElem?_eq_getElem hp, List.getElem?_eq_getElem hpl, Option.map_some, Option.some.injEq] at this
      rw [List.getElem?_eq_getElem hpl]
      have hxe := inj_of_nodup hm.unique.edges hx (List.getElem_mem hpl) (by rw [hxi, this])
      rw [hxe] at he
      exact he
  obtain ⟨r, h1, h2⟩ := touch_fold (T := fun c w => InSurfs s.conn s.snaxedges [c] w) [] hf
  refine ⟨r, h1, ?_⟩
  · intro w
    rw [h2]
    unfold InSurfs
    simp only [List.not_mem_nil, false_or, List.mem_singleton]
    constructor
    · rintro ⟨c, hc, q, hq, rfl, h⟩; exact ⟨q, hq, hc, h⟩
    · rintro ⟨q, hq, hc, h⟩; exact ⟨_, hc, q, hq, rfl, h⟩

theorem toGo_closed {m : Mesh} (hm : Sound m) {border : Int} {T : Int → Prop} (e v w : Int)
    (hv : EdgeVert m e v) (hw : EdgeVert m e w) (h : ToGo m border T v) : ToGo m border T w := by
  have has : ∀ {v}, EdgeVert m e v → HasVert m v := fun {v} h => hm.noDangling.edgeVert e v h (fun h0 => hm.zeroOutside.edgeVert e (h0 ▸ h))
  rcases h with ⟨hb, t, ht, hj⟩ | ⟨hb, hn⟩
  · exact Or.inl ⟨hb, t, ht, hj.tail ⟨has hv, has hw, e, trivial, hv, hw⟩⟩
  · refine Or.inr ⟨hb, fun ⟨t, ht, hj⟩ => hn ⟨t, ht, hj.tail ⟨has hw, has hv, e, trivial, hw, hv⟩⟩⟩

theorem toGo_congr {m : Mesh} {border : Int} {T U : Int → Prop} (h : ∀ w, T w ↔ U w) : ToGo m border T = ToGo m border U := by
  have : T = U := funext fun w => propext (h w)
  rw [this]

end RSVS.SpawnRemove
