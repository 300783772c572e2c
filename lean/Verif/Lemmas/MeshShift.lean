import Mathlib.Tactic.Linarith
import Verif.Lemmas.Mesh
import Verif.Spec.Mesh

/-!
# Helper lemmas on renumbering and concatenation
-/

namespace RSVS.Mesh

open RSVS.Spec

theorem mem_map_add {l : List Int} {n x : Int} : x ∈ l.map (· + n) ↔ x - n ∈ l := by
  rw [List.mem_map]
  constructor
  · rintro ⟨y, hy, rfl⟩; simpa using hy
  · intro h; exact ⟨x - n, h, by omega⟩

theorem mem_map_shiftPos {l : List Int} {n x : Int} (_hn : 0 ≤ n) :
    x ∈ l.map (shiftPos n) ↔ (x ≤ 0 ∧ x ∈ l) ∨ (n < x ∧ x - n ∈ l) := by
  rw [List.mem_map]
  constructor
  · rintro ⟨y, hy, rfl⟩
    unfold shiftPos
    split
    · exact Or.inr ⟨by omega, by simpa using hy⟩
    · exact Or.inl ⟨by omega, hy⟩
  · rintro (⟨h, hx⟩ | ⟨h, hx⟩)
    · exact ⟨x, hx, by unfold shiftPos; rw [if_neg (by omega)]⟩
    · exact ⟨x - n, hx, by unfold shiftPos; rw [if_pos (by omega)]; omega⟩

section
variable {nV nE nS nC : Int} {m : Mesh}

theorem shift_hasVert (i : Int) :
    HasVert (m.changeIndices nV nE nS nC) i ↔ HasVert m (i - nV) := by
  simp only [HasVert, changeIndices, List.mem_map]
  constructor
  · rintro ⟨_, ⟨x, hx, rfl⟩, rfl⟩; exact ⟨x, hx, by simp [Vert.shift]⟩
  · rintro ⟨x, hx, h⟩; exact ⟨_, ⟨x, hx, rfl⟩, by simp [Vert.shift]; omega⟩

theorem shift_hasEdge (i : Int) :
    HasEdge (m.changeIndices nV nE nS nC) i ↔ HasEdge m (i - nE) := by
  simp only [HasEdge, changeIndices, List.mem_map]
  constructor
  · rintro ⟨_, ⟨x, hx, rfl⟩, rfl⟩; exact ⟨x, hx, by simp [Edge.shift]⟩
  · rintro ⟨x, hx, h⟩; exact ⟨_, ⟨x, hx, rfl⟩, by simp [Edge.shift]; omega⟩

theorem shift_hasSurf (i : Int) :
    HasSurf (m.changeIndices nV nE nS nC) i ↔ HasSurf m (i - nS) := by
  simp only [HasSurf, changeIndices, List.mem_map]
  constructor
  · rintro ⟨_, ⟨x, hx, rfl⟩, rfl⟩; exact ⟨x, hx, by simp [Surf.shift]⟩
  · rintro ⟨x, hx, h⟩; exact ⟨_, ⟨x, hx, rfl⟩, by simp [Surf.shift]; omega⟩

theorem shift_hasVolu (i : Int) :
    HasVolu (m.changeIndices nV nE nS nC) i ↔ HasVolu m (i - nC) := by
  simp only [HasVolu, changeIndices, List.mem_map]
  constructor
  · rintro ⟨_, ⟨x, hx, rfl⟩, rfl⟩; exact ⟨x, hx, by simp [Volu.shift]⟩
  · rintro ⟨x, hx, h⟩; exact ⟨_, ⟨x, hx, rfl⟩, by simp [Volu.shift]; omega⟩

theorem shift_vertEdge (a b : Int) :
    VertEdge (m.changeIndices nV nE nS nC) a b ↔ VertEdge m (a - nV) (b - nE) := by
  simp only [VertEdge, changeIndices, List.mem_map]
  constructor
  · rintro ⟨_, ⟨x, hx, rfl⟩, rfl, h⟩
    exact ⟨x, hx, by simp [Vert.shift], mem_map_add.mp h⟩
  · rintro ⟨x, hx, h, h'⟩
    exact ⟨_, ⟨x, hx, rfl⟩, by simp [Vert.shift]; omega, mem_map_add.mpr h'⟩

theorem shift_edgeVert (a b : Int) :
    EdgeVert (m.changeIndices nV nE nS nC) a b ↔ EdgeVert m (a - nE) (b - nV) := by
  simp only [EdgeVert, changeIndices, List.mem_map]
  constructor
  · rintro ⟨_, ⟨x, hx, rfl⟩, rfl, h⟩
    exact ⟨x, hx, by simp [Edge.shift], mem_map_add.mp h⟩
  · rintro ⟨x, hx, h, h'⟩
    exact ⟨_, ⟨x, hx, rfl⟩, by simp [Edge.shift]; omega, mem_map_add.mpr h'⟩

theorem shift_surfEdge (a b : Int) :
    SurfEdge (m.changeIndices nV nE nS nC) a b ↔ SurfEdge m (a - nS) (b - nE) := by
  simp only [SurfEdge, changeIndices, List.mem_map]
  constructor
  · rintro ⟨_, ⟨x, hx, rfl⟩, rfl, h⟩
    exact ⟨x, hx, by simp [Surf.shift], mem_map_add.mp h⟩
  · rintro ⟨x, hx, h, h'⟩
    exact ⟨_, ⟨x, hx, rfl⟩, by simp [Surf.shift]; omega, mem_map_add.mpr h'⟩

theorem shift_edgeSurf (h0 : 0 ≤ nS) (a b : Int) :
    EdgeSurf (m.changeIndices nV nE nS nC) a b ↔
      (b ≤ 0 ∧ EdgeSurf m (a - nE) b) ∨ (nS < b ∧ EdgeSurf m (a - nE) (b - nS)) := by
  simp only [EdgeSurf, changeIndices, List.mem_map]
  constructor
  · rintro ⟨_, ⟨x, hx, rfl⟩, rfl, h⟩
    rcases (mem_map_shiftPos h0).mp h with ⟨h1, h2⟩ | ⟨h1, h2⟩
    · exact Or.inl ⟨h1, x, hx, by simp [Edge.shift], h2⟩
    · exact Or.inr ⟨h1, x, hx, by simp [Edge.shift], h2⟩
  · rintro (⟨h1, x, hx, h2, h3⟩ | ⟨h1, x, hx, h2, h3⟩)
    · exact ⟨_, ⟨x, hx, rfl⟩, by simp [Edge.shift]; omega,
        (mem_map_shiftPos h0).mpr (Or.inl ⟨h1, h3⟩)⟩
    · exact ⟨_, ⟨x, hx, rfl⟩, by simp [Edge.shift]; omega,
        (mem_map_shiftPos h0).mpr (Or.inr ⟨h1, h3⟩)⟩

theorem shift_surfVolu (h0 : 0 ≤ nC) (a b : Int) :
    SurfVolu (m.changeIndices nV nE nS nC) a b ↔
      (b ≤ 0 ∧ SurfVolu m (a - nS) b) ∨ (nC < b ∧ SurfVolu m (a - nS) (b - nC)) := by
  simp only [SurfVolu, changeIndices, List.mem_map]
  constructor
  · rintro ⟨_, ⟨x, hx, rfl⟩, rfl, h⟩
    rcases (mem_map_shiftPos h0).mp h with ⟨h1, h2⟩ | ⟨h1, h2⟩
    · exact Or.inl ⟨h1, x, hx, by simp [Surf.shift], h2⟩
    · exact Or.inr ⟨h1, x, hx, by simp [Surf.shift], h2⟩
  · rintro (⟨h1, x, hx, h2, h3⟩ | ⟨h1, x, hx, h2, h3⟩)
    · exact ⟨_, ⟨x, hx, rfl⟩, by simp [Surf.shift]; omega,
        (mem_map_shiftPos h0).mpr (Or.inl ⟨h1, h3⟩)⟩
    · exact ⟨_, ⟨x, hx, rfl⟩, by simp [Surf.shift]; omega,
        (mem_map_shiftPos h0).mpr (Or.inr ⟨h1, h3⟩)⟩

theorem shift_voluSurf (h0 : 0 ≤ nS) (a b : Int) :
    VoluSurf (m.changeIndices nV nE nS nC) a b ↔
      (b ≤ 0 ∧ VoluSurf m (a - nC) b) ∨ (nS < b ∧ VoluSurf m (a - nC) (b - nS)) := by
  simp only [VoluSurf, changeIndices, List.mem_map]
  constructor
  · rintro ⟨_, ⟨x, hx, rfl⟩, rfl, h⟩
    rcases (mem_map_shiftPos h0).mp h with ⟨h1, h2⟩ | ⟨h1, h2⟩
    · exact Or.inl ⟨h1, x, hx, by simp [Volu.shift], h2⟩
    · exact Or.inr ⟨h1, x, hx, by simp [Volu.shift], h2⟩
  · rintro (⟨h1, x, hx, h2, h3⟩ | ⟨h1, x, hx, h2, h3⟩)
    · exact ⟨_, ⟨x, hx, rfl⟩, by simp [Volu.shift]; omega,
        (mem_map_shiftPos h0).mpr (Or.inl ⟨h1, h3⟩)⟩
    · exact ⟨_, ⟨x, hx, rfl⟩, by simp [Volu.shift]; omega,
        (mem_map_shiftPos h0).mpr (Or.inr ⟨h1, h3⟩)⟩

theorem changeIndices_shifted (hS : 0 ≤ nS) (hC : 0 ≤ nC) :
    Shifted nV nE nS nC m (m.changeIndices nV nE nS nC) where
  verts := shift_hasVert
  edges := shift_hasEdge
  surfs := shift_hasSurf
  volus := shift_hasVolu
  vertEdge := shift_vertEdge
  edgeVert := shift_edgeVert
  surfEdge := shift_surfEdge
  edgeSurf e s hs := by
    rw [shift_edgeSurf hS, Int.add_sub_cancel, Int.add_sub_cancel]
    constructor
    · rintro (h | h)
      · omega
      · exact h.2
    · intro h; exact Or.inr ⟨by omega, h⟩
  surfVolu e s hs := by
    rw [shift_surfVolu hC, Int.add_sub_cancel, Int.add_sub_cancel]
    constructor
    · rintro (h | h)
      · omega
      · exact h.2
    · intro h; exact Or.inr ⟨by omega, h⟩
  voluSurf e s hs := by
    rw [shift_voluSurf hS, Int.add_sub_cancel, Int.add_sub_cancel]
    constructor
    · rintro (h | h)
      · omega
      · exact h.2
    · intro h; exact Or.inr ⟨by omega, h⟩
  edgeSurf0 e := by
    rw [shift_edgeSurf hS, Int.add_sub_cancel]
    constructor
    · rintro (h | h)
      · exact h.2
      · omega
    · intro h; exact Or.inl ⟨by omega, h⟩
  surfVolu0 e := by
    rw [shift_surfVolu hC, Int.add_sub_cancel]
    constructor
    · rintro (h | h)
      · exact h.2
      · omega
    · intro h; exact Or.inl ⟨by omega, h⟩
  voluSurf0 e := by
    rw [shift_voluSurf hS, Int.add_sub_cancel]
    constructor
    · rintro (h | h)
      · exact h.2
      · omega
    · intro h; exact Or.inl ⟨by omega, h⟩
  edgeSurfFrom e s h := by
    rw [shift_edgeSurf hS] at h
    rcases h with h | h
    · exact Or.inl h.1
    · exact Or.inr h.1
  surfVoluFrom e s h := by
    rw [shift_surfVolu hC] at h
    rcases h with h | h
    · exact Or.inl h.1
    · exact Or.inr h.1
  voluSurfFrom e s h := by
    rw [shift_voluSurf hS] at h
    rcases h with h | h
    · exact Or.inl h.1
    · exact Or.inr h.1
  coords := by simp [changeIndices, Vert.shift, Function.comp_def]
  surfVals := by simp [changeIndices, Surf.shift, Function.comp_def]
  voluVals := by simp [changeIndices, Volu.shift, Function.comp_def]

theorem nodup_shift {α : Type} {ix : α → Int} {l : List α} {f : α → α} {n : Int}
    (hf : ∀ a, ix (f a) = ix a + n) (h : (l.map ix).Nodup) : ((l.map f).map ix).Nodup := by
  have : (l.map f).map ix = (l.map ix).map (· + n) := by
    simp [Function.comp_def, hf]
  rw [this]
  exact h.map (fun a b hab => by simpa using hab)

theorem changeIndices_unique (h : UniqueIndices m) :
    UniqueIndices (m.changeIndices nV nE nS nC) :=
  ⟨nodup_shift (fun _ => rfl) h.verts, nodup_shift (fun _ => rfl) h.edges,
   nodup_shift (fun _ => rfl) h.surfs, nodup_shift (fun _ => rfl) h.volus⟩

end

theorem maxIdx_spec {α : Type} (ix : α → Int) (l : List α) :
    0 ≤ maxIdx ix l ∧ ∀ a ∈ l, ix a ≤ maxIdx ix l := by
  induction l with
  | nil => simp [maxIdx]
  | cons b l ih =>
    have : maxIdx ix (b :: l) = if maxIdx ix l < ix b then ix b else maxIdx ix l := rfl
    rw [this]
    obtain ⟨h1, h2⟩ := ih
    split
    · refine ⟨by omega, ?_⟩
      intro a ha
      rcases List.mem_cons.mp ha with rfl | ha
      · omega
      · have := h2 a ha; omega
    · refine ⟨h1, ?_⟩
      intro a ha
      rcases List.mem_cons.mp ha with rfl | ha
      · omega
      · exact h2 a ha

theorem exists_mem_append {α : Type} {l l' : List α} {p : α → Prop} :
    (∃ x ∈ l ++ l', p x) ↔ (∃ x ∈ l, p x) ∨ (∃ x ∈ l', p x) := by
  simp only [List.mem_append]
  constructor
  · rintro ⟨x, h | h, hp⟩
    · exact Or.inl ⟨x, h, hp⟩
    · exact Or.inr ⟨x, h, hp⟩
  · rintro (⟨x, h, hp⟩ | ⟨x, h, hp⟩)
    · exact ⟨x, Or.inl h, hp⟩
    · exact ⟨x, Or.inr h, hp⟩

theorem concat_disjoint {a b : Mesh} (hb : PosIndices b) (hr : NonNegRefs b) :
    DisjointUnion (maxIdx Vert.index a.verts) (maxIdx Edge.index a.edges)
      (maxIdx Surf.index a.surfs) (maxIdx Volu.index a.volus) a b
      (a.concatenate (a.makeCompatible b)) := by
  obtain ⟨hV0, hV⟩ := maxIdx_spec Vert.index a.verts
  obtain ⟨hE0, hE⟩ := maxIdx_spec Edge.index a.edges
  obtain ⟨hS0, hS⟩ := maxIdx_spec Surf.index a.surfs
  obtain ⟨hC0, hC⟩ := maxIdx_spec Volu.index a.volus
  unfold makeCompatible
  generalize maxIdx Vert.index a.verts = nV at *
  generalize maxIdx Edge.index a.edges = nE at *
  generalize maxIdx Surf.index a.surfs = nS at *
  generalize maxIdx Volu.index a.volus = nC at *
  constructor
  · intro i; rw [← shift_hasVert]; exact exists_mem_append
  · intro i; rw [← shift_hasEdge]; exact exists_mem_append
  · intro i; rw [← shift_hasSurf]; exact exists_mem_append
  · intro i; rw [← shift_hasVolu]; exact exists_mem_append
  · rintro i ⟨⟨x, hx, rfl⟩, h⟩; have := hb.verts _ h; have := hV x hx; omega
  · rintro i ⟨⟨x, hx, rfl⟩, h⟩; have := hb.edges _ h; have := hE x hx; omega
  · rintro i ⟨⟨x, hx, rfl⟩, h⟩; have := hb.surfs _ h; have := hS x hx; omega
  · rintro i ⟨⟨x, hx, rfl⟩, h⟩; have := hb.volus _ h; have := hC x hx; omega
  · intro v e; rw [← shift_vertEdge]; exact exists_mem_append
  · intro v e; rw [← shift_edgeVert]; exact exists_mem_append
  · intro v e; rw [← shift_surfEdge]; exact exists_mem_append
  · intro e s hs
    refine Iff.trans (b := EdgeSurf a e s ∨ EdgeSurf (b.changeIndices nV nE nS nC) e s)
      exists_mem_append (or_congr_right ?_)
    rw [shift_edgeSurf hS0]
    constructor
    · rintro (⟨h1, h2⟩ | ⟨h1, h2⟩)
      · have := hr.edgeSurf _ _ h2; omega
      · exact ⟨by omega, h2⟩
    · rintro ⟨h1, h2⟩
      have := hr.edgeSurf _ _ h2
      exact Or.inr ⟨by omega, h2⟩
  · intro e s hs
    refine Iff.trans (b := SurfVolu a e s ∨ SurfVolu (b.changeIndices nV nE nS nC) e s)
      exists_mem_append (or_congr_right ?_)
    rw [shift_surfVolu hC0]
    constructor
    · rintro (⟨h1, h2⟩ | ⟨h1, h2⟩)
      · have := hr.surfVolu _ _ h2; omega
      · exact ⟨by omega, h2⟩
    · rintro ⟨h1, h2⟩
      have := hr.surfVolu _ _ h2
      exact Or.inr ⟨by omega, h2⟩
  · intro e s hs
    refine Iff.trans (b := VoluSurf a e s ∨ VoluSurf (b.changeIndices nV nE nS nC) e s)
      exists_mem_append (or_congr_right ?_)
    rw [shift_voluSurf hS0]
    constructor
    · rintro (⟨h1, h2⟩ | ⟨h1, h2⟩)
      · have := hr.voluSurf _ _ h2; omega
      · exact ⟨by omega, h2⟩
    · rintro ⟨h1, h2⟩
      have := hr.voluSurf _ _ h2
      exact Or.inr ⟨by omega, h2⟩
  · intro e
    refine Iff.trans (b := EdgeSurf a e 0 ∨ EdgeSurf (b.changeIndices nV nE nS nC) e 0)
      exists_mem_append (or_congr_right ?_)
    rw [shift_edgeSurf hS0]
    constructor
    · rintro (h | h)
      · exact h.2
      · omega
    · intro h; exact Or.inl ⟨by omega, h⟩
  · intro e
    refine Iff.trans (b := SurfVolu a e 0 ∨ SurfVolu (b.changeIndices nV nE nS nC) e 0)
      exists_mem_append (or_congr_right ?_)
    rw [shift_surfVolu hC0]
    constructor
    · rintro (h | h)
      · exact h.2
      · omega
    · intro h; exact Or.inl ⟨by omega, h⟩
  · intro e
    refine Iff.trans (b := VoluSurf a e 0 ∨ VoluSurf (b.changeIndices nV nE nS nC) e 0)
      exists_mem_append (or_congr_right ?_)
    rw [shift_voluSurf hS0]
    constructor
    · rintro (h | h)
      · exact h.2
      · omega
    · intro h; exact Or.inl ⟨by omega, h⟩

theorem nodup_append_max {α : Type} {ix : α → Int} {f : α → α} {l l' : List α}
    (hf : ∀ a, ix (f a) = ix a + maxIdx ix l) (h : (l.map ix).Nodup) (h' : (l'.map ix).Nodup)
    (hp : ∀ a ∈ l', 0 < ix a) : ((l ++ l'.map f).map ix).Nodup := by
  rw [List.map_append, List.nodup_append]
  refine ⟨h, nodup_shift hf h', ?_⟩
  intro x hx y hy hxy
  obtain ⟨a, ha, rfl⟩ := List.mem_map.mp hx
  obtain ⟨b, hb, rfl⟩ := List.mem_map.mp hy
  obtain ⟨c, hc, rfl⟩ := List.mem_map.mp hb
  have := (maxIdx_spec ix l).2 a ha
  have := hp c hc
  have := hf c
  omega

theorem concat_unique {a b : Mesh} (ha : UniqueIndices a) (hb : UniqueIndices b)
    (hp : PosIndices b) : UniqueIndices (a.concatenate (a.makeCompatible b)) :=
  ⟨nodup_append_max (fun _ => rfl) ha.verts hb.verts (fun x hx => hp.verts _ ⟨x, hx, rfl⟩),
   nodup_append_max (fun _ => rfl) ha.edges hb.edges (fun x hx => hp.edges _ ⟨x, hx, rfl⟩),
   nodup_append_max (fun _ => rfl) ha.surfs hb.surfs (fun x hx => hp.surfs _ ⟨x, hx, rfl⟩),
   nodup_append_max (fun _ => rfl) ha.volus hb.volus (fun x hx => hp.volus _ ⟨x, hx, rfl⟩)⟩

theorem hasVert_of_vertEdge {m : Mesh} {v e : Int} (h : VertEdge m v e) : HasVert m v :=
  let ⟨x, hx, hi, _⟩ := h; ⟨x, hx, hi⟩
theorem hasEdge_of_edgeVert {m : Mesh} {v e : Int} (h : EdgeVert m e v) : HasEdge m e :=
  let ⟨x, hx, hi, _⟩ := h; ⟨x, hx, hi⟩
theorem hasEdge_of_edgeSurf {m : Mesh} {v e : Int} (h : EdgeSurf m e v) : HasEdge m e :=
  let ⟨x, hx, hi, _⟩ := h; ⟨x, hx, hi⟩
theorem hasSurf_of_surfEdge {m : Mesh} {v e : Int} (h : SurfEdge m e v) : HasSurf m e :=
  let ⟨x, hx, hi, _⟩ := h; ⟨x, hx, hi⟩
theorem hasSurf_of_surfVolu {m : Mesh} {v e : Int} (h : SurfVolu m e v) : HasSurf m e :=
  let ⟨x, hx, hi, _⟩ := h; ⟨x, hx, hi⟩
theorem hasVolu_of_voluSurf {m : Mesh} {v e : Int} (h : VoluSurf m e v) : HasVolu m e :=
  let ⟨x, hx, hi, _⟩ := h; ⟨x, hx, hi⟩

/-- Nothing crosses when 0 only stands for the outside. -/
theorem union_noCross {nV nE nS nC : Int} {a b r : Mesh} (hd : DisjointUnion nV nE nS nC a b r)
    (ha : NoDangling a) (hb : NoDangling b) (hz : ZeroOutside b) : NoCross a r := by
  constructor
  · intro v e h he
    rcases (hd.vertEdge v e).mp h with h | h
    · exact iff_of_true (hasVert_of_vertEdge h) (ha.vertEdge _ _ h he)
    · refine iff_of_false (fun h' => hd.vertsApart v ⟨h', hasVert_of_vertEdge h⟩)
        (fun h' => hd.edgesApart e ⟨h', hb.vertEdge _ _ h ?_⟩)
      intro h0; rw [h0] at h; exact hz.vertEdge _ h
  · intro e v h he
    rcases (hd.edgeVert e v).mp h with h | h
    · exact iff_of_true (hasEdge_of_edgeVert h) (ha.edgeVert _ _ h he)
    · refine iff_of_false (fun h' => hd.edgesApart e ⟨h', hasEdge_of_edgeVert h⟩)
        (fun h' => hd.vertsApart v ⟨h', hb.edgeVert _ _ h ?_⟩)
      intro h0; rw [h0] at h; exact hz.edgeVert _ h
  · intro e s h hs
    rcases (hd.edgeSurf e s hs).mp h with h | ⟨hn, h⟩
    · exact iff_of_true (hasEdge_of_edgeSurf h) (ha.edgeSurf _ _ h hs)
    · exact iff_of_false (fun h' => hd.edgesApart e ⟨h', hasEdge_of_edgeSurf h⟩)
        (fun h' => hd.surfsApart s ⟨h', hb.edgeSurf _ _ h (by omega)⟩)
  · intro s e h he
    rcases (hd.surfEdge s e).mp h with h | h
    · exact iff_of_true (hasSurf_of_surfEdge h) (ha.surfEdge _ _ h)
    · exact iff_of_false (fun h' => hd.surfsApart s ⟨h', hasSurf_of_surfEdge h⟩)
        (fun h' => hd.edgesApart e ⟨h', hb.surfEdge _ _ h⟩)
  · intro s c h hs
    rcases (hd.surfVolu s c hs).mp h with h | ⟨hn, h⟩
    · exact iff_of_true (hasSurf_of_surfVolu h) (ha.surfVolu _ _ h hs)
    · exact iff_of_false (fun h' => hd.surfsApart s ⟨h', hasSurf_of_surfVolu h⟩)
        (fun h' => hd.volusApart c ⟨h', hb.surfVolu _ _ h (by omega)⟩)
  · intro c s h hs
    rcases (hd.voluSurf c s hs).mp h with h | ⟨hn, h⟩
    · exact iff_of_true (hasVolu_of_voluSurf h) (ha.voluSurf _ _ h hs)
    · exact iff_of_false (fun h' => hd.volusApart c ⟨h', hasVolu_of_voluSurf h⟩)
        (fun h' => hd.surfsApart s ⟨h', hb.voluSurf _ _ h (by omega)⟩)

theorem union_noDangling {nV nE nS nC : Int} {a b r : Mesh}
    (hd : DisjointUnion nV nE nS nC a b r)
    (ha : NoDangling a) (hb : NoDangling b) (hz : ZeroOutside b) : NoDangling r := by
  constructor
  · intro v e h he
    rw [hd.edges]
    rcases (hd.vertEdge v e).mp h with h | h
    · exact Or.inl (ha.vertEdge _ _ h he)
    · refine Or.inr (hb.vertEdge _ _ h ?_)
      intro h0; rw [h0] at h; exact hz.vertEdge _ h
  · intro e v h he
    rw [hd.verts]
    rcases (hd.edgeVert e v).mp h with h | h
    · exact Or.inl (ha.edgeVert _ _ h he)
    · refine Or.inr (hb.edgeVert _ _ h ?_)
      intro h0; rw [h0] at h; exact hz.edgeVert _ h
  · intro e s h hs
    rw [hd.surfs]
    rcases (hd.edgeSurf e s hs).mp h with h | ⟨hn, h⟩
    · exact Or.inl (ha.edgeSurf _ _ h hs)
    · exact Or.inr (hb.edgeSurf _ _ h (by omega))
  · intro s e h
    rw [hd.edges]
    rcases (hd.surfEdge s e).mp h with h | h
    · exact Or.inl (ha.surfEdge _ _ h)
    · exact Or.inr (hb.surfEdge _ _ h)
  · intro s c h hs
    rw [hd.volus]
    rcases (hd.surfVolu s c hs).mp h with h | ⟨hn, h⟩
    · exact Or.inl (ha.surfVolu _ _ h hs)
    · exact Or.inr (hb.surfVolu _ _ h (by omega))
  · intro c s h hs
    rw [hd.surfs]
    rcases (hd.voluSurf c s hs).mp h with h | ⟨hn, h⟩
    · exact Or.inl (ha.voluSurf _ _ h hs)
    · exact Or.inr (hb.voluSurf _ _ h (by omega))

theorem union_sound {nV nE nS nC : Int} {a b r : Mesh} (hd : DisjointUnion nV nE nS nC a b r)
    (h0 : 0 ≤ nV ∧ 0 ≤ nE ∧ 0 ≤ nS ∧ 0 ≤ nC) (hu : UniqueIndices r) (ha : Sound a)
    (hb : Sound b) : Sound r := by
  refine ⟨hu, ?_, union_noDangling hd ha.noDangling hb.noDangling hb.zeroOutside, ?_, ?_⟩
  · constructor
    · intro i h
      rcases (hd.verts i).mp h with h | h
      · exact ha.pos.verts i h
      · have := hb.pos.verts _ h; omega
    · intro i h
      rcases (hd.edges i).mp h with h | h
      · exact ha.pos.edges i h
      · have := hb.pos.edges _ h; omega
    · intro i h
      rcases (hd.surfs i).mp h with h | h
      · exact ha.pos.surfs i h
      · have := hb.pos.surfs _ h; omega
    · intro i h
      rcases (hd.volus i).mp h with h | h
      · exact ha.pos.volus i h
      · have := hb.pos.volus _ h; omega
  · constructor
    · intro v h
      rcases (hd.vertEdge v 0).mp h with h | h
      · exact ha.zeroOutside.vertEdge v h
      · have h1 : (0 : Int) - nE ≠ 0 := fun h' => by rw [h'] at h; exact hb.zeroOutside.vertEdge _ h
        have := hb.pos.edges _ (hb.noDangling.vertEdge _ _ h h1); omega
    · intro v h
      rcases (hd.edgeVert v 0).mp h with h | h
      · exact ha.zeroOutside.edgeVert v h
      · have h1 : (0 : Int) - nV ≠ 0 := fun h' => by rw [h'] at h; exact hb.zeroOutside.edgeVert _ h
        have := hb.pos.verts _ (hb.noDangling.edgeVert _ _ h h1); omega
    · intro v h
      rcases (hd.surfEdge v 0).mp h with h | h
      · exact ha.zeroOutside.surfEdge v h
      · have := hb.pos.edges _ (hb.noDangling.surfEdge _ _ h); omega
    · intro c h
      rcases (hd.voluSurf0 c).mp h with h | h
      · exact ha.zeroOutside.voluSurf c h
      · exact hb.zeroOutside.voluSurf _ h
  · have pV : ∀ {v e}, VertEdge b v e → HasEdge b e := fun {v e} h =>
      hb.noDangling.vertEdge _ _ h (fun h' => by rw [h'] at h; exact hb.zeroOutside.vertEdge _ h)
    have pV' : ∀ {v e}, VertEdge a v e → HasEdge a e := fun {v e} h =>
      ha.noDangling.vertEdge _ _ h (fun h' => by rw [h'] at h; exact ha.zeroOutside.vertEdge _ h)
    have pE : ∀ {v e}, EdgeVert b e v → HasVert b v := fun {v e} h =>
      hb.noDangling.edgeVert _ _ h (fun h' => by rw [h'] at h; exact hb.zeroOutside.edgeVert _ h)
    have pE' : ∀ {v e}, EdgeVert a e v → HasVert a v := fun {v e} h =>
      ha.noDangling.edgeVert _ _ h (fun h' => by rw [h'] at h; exact ha.zeroOutside.edgeVert _ h)
    have pC : ∀ {c s}, VoluSurf b c s → HasSurf b s := fun {v e} h =>
      hb.noDangling.voluSurf _ _ h (fun h' => by rw [h'] at h; exact hb.zeroOutside.voluSurf _ h)
    have pC' : ∀ {c s}, VoluSurf a c s → HasSurf a s := fun {v e} h =>
      ha.noDangling.voluSurf _ _ h (fun h' => by rw [h'] at h; exact ha.zeroOutside.voluSurf _ h)
    constructor
    · intro v e _ _
      rw [hd.vertEdge, hd.edgeVert]
      constructor
      · rintro (h | h)
        · exact Or.inl ((ha.sym.vertEdge _ _ (hasVert_of_vertEdge h) (pV' h)).mp h)
        · exact Or.inr ((hb.sym.vertEdge _ _ (hasVert_of_vertEdge h) (pV h)).mp h)
      · rintro (h | h)
        · exact Or.inl ((ha.sym.vertEdge _ _ (pE' h) (hasEdge_of_edgeVert h)).mpr h)
        · exact Or.inr ((hb.sym.vertEdge _ _ (pE h) (hasEdge_of_edgeVert h)).mpr h)
    · intro e s _ hs
      have hs0 : s ≠ 0 := by
        rcases (hd.surfs s).mp hs with h | h
        · have := ha.pos.surfs _ h; omega
        · have := hb.pos.surfs _ h; omega
      rw [hd.edgeSurf e s hs0, hd.surfEdge]
      constructor
      · rintro (h | ⟨h1, h⟩)
        · exact Or.inl ((ha.sym.edgeSurf _ _ (hasEdge_of_edgeSurf h)
            (ha.noDangling.edgeSurf _ _ h hs0)).mp h)
        · exact Or.inr ((hb.sym.edgeSurf _ _ (hasEdge_of_edgeSurf h)
            (hb.noDangling.edgeSurf _ _ h (by omega))).mp h)
      · rintro (h | h)
        · exact Or.inl ((ha.sym.edgeSurf _ _ (ha.noDangling.surfEdge _ _ h)
            (hasSurf_of_surfEdge h)).mpr h)
        · have := hb.pos.surfs _ (hasSurf_of_surfEdge h)
          exact Or.inr ⟨by omega, (hb.sym.edgeSurf _ _ (hb.noDangling.surfEdge _ _ h)
            (hasSurf_of_surfEdge h)).mpr h⟩
    · intro s c hs hc
      have hs0 : s ≠ 0 := by
        rcases (hd.surfs s).mp hs with h | h
        · have := ha.pos.surfs _ h; omega
        · have := hb.pos.surfs _ h; omega
      have hc0 : c ≠ 0 := by
        rcases (hd.volus c).mp hc with h | h
        · have := ha.pos.volus _ h; omega
        · have := hb.pos.volus _ h; omega
      rw [hd.surfVolu s c hc0, hd.voluSurf c s hs0]
      constructor
      · rintro (h | ⟨h1, h⟩)
        · exact Or.inl ((ha.sym.surfVolu _ _ (hasSurf_of_surfVolu h)
            (ha.noDangling.surfVolu _ _ h hc0)).mp h)
        · have := hb.pos.surfs _ (hasSurf_of_surfVolu h)
          exact Or.inr ⟨by omega, (hb.sym.surfVolu _ _ (hasSurf_of_surfVolu h)
            (hb.noDangling.surfVolu _ _ h (by omega))).mp h⟩
      · rintro (h | ⟨h1, h⟩)
        · exact Or.inl ((ha.sym.surfVolu _ _ (pC' h) (hasVolu_of_voluSurf h)).mpr h)
        · have := hb.pos.volus _ (hasVolu_of_voluSurf h)
          exact Or.inr ⟨by omega, (hb.sym.surfVolu _ _ (pC h) (hasVolu_of_voluSurf h)).mpr h⟩

theorem nonNegRefs_of_noDangling {m : Mesh} (h : NoDangling m) (hp : PosIndices m) :
    NonNegRefs m := by
  constructor
  · intro e s h'
    by_cases hs : s = 0
    · omega
    · have := hp.surfs _ (h.edgeSurf _ _ h' hs); omega
  · intro e s h'
    by_cases hs : s = 0
    · omega
    · have := hp.volus _ (h.surfVolu _ _ h' hs); omega
  · intro e s h'
    by_cases hs : s = 0
    · omega
    · have := hp.surfs _ (h.voluSurf _ _ h' hs); omega

end RSVS.Mesh
