import Verif.Lemmas.VoxelGrid
import Verif.Spec.Voxel
import Verif.Spec.Order
import Mathlib.Tactic.FieldSimp

/-!
# Lemmas on block grids: soundness and geometry
-/

namespace RSVS.Voxel

open RSVS.Spec

section
variable {d : Dims} (h : Small d)
include h

theorem hasVert_iff {v : Int} : HasVert (blockGrid d) v ↔ ∃ q, Box (vDims d) q ∧ v = vertNum d q := by
  constructor
  · rintro ⟨x, hx, rfl⟩
    obtain ⟨q, hq, rfl⟩ := (mem_verts h).1 hx
    exact ⟨q, hq, rfl⟩
  · rintro ⟨q, hq, rfl⟩
    exact ⟨_, (mem_verts h).2 ⟨q, hq, rfl⟩, rfl⟩

theorem hasEdge_iff {e : Int} :
    HasEdge (blockGrid d) e ↔ ∃ k r, Box (matEdge d k) r ∧ e = edgeNum d k r := by
  constructor
  · rintro ⟨x, hx, rfl⟩
    obtain ⟨k, r, hr, rfl⟩ := (mem_edges h).1 hx
    exact ⟨k, r, hr, rfl⟩
  · rintro ⟨k, r, hr, rfl⟩
    exact ⟨_, (mem_edges h).2 ⟨k, r, hr, rfl⟩, rfl⟩

theorem hasSurf_iff {s : Int} :
    HasSurf (blockGrid d) s ↔ ∃ i p, Box (matSurf d i) p ∧ s = surfNum d i p := by
  constructor
  · rintro ⟨x, hx, rfl⟩
    obtain ⟨k, r, hr, rfl⟩ := (mem_surfs h).1 hx
    exact ⟨k, r, hr, rfl⟩
  · rintro ⟨k, r, hr, rfl⟩
    exact ⟨_, (mem_surfs h).2 ⟨k, r, hr, rfl⟩, rfl⟩

theorem hasVolu_iff {c : Int} : HasVolu (blockGrid d) c ↔ ∃ q, Box d q ∧ c = voluNum d q := by
  constructor
  · rintro ⟨x, hx, rfl⟩
    obtain ⟨q, hq, rfl⟩ := (mem_volus h).1 hx
    exact ⟨q, hq, rfl⟩
  · rintro ⟨q, hq, rfl⟩
    exact ⟨_, (mem_volus h).2 ⟨q, hq, rfl⟩, rfl⟩

theorem vertEdge_iff {q : Pos} (hq : Box (vDims d) q) {e : Int} :
    VertEdge (blockGrid d) (vertNum d q) e ↔ e ∈ vertEdges d q := by
  constructor
  · rintro ⟨x, hx, he, hm⟩
    obtain ⟨q', hq', rfl⟩ := (mem_verts h).1 hx
    rw [(vertNum_iff hq' hq).1 he] at hm
    exact hm
  · intro hm
    exact ⟨_, (mem_verts h).2 ⟨q, hq, rfl⟩, rfl, hm⟩

theorem voluSurf_iff {q : Pos} (hq : Box d q) {s : Int} :
    VoluSurf (blockGrid d) (voluNum d q) s ↔ s ∈ voluSurfs d q := by
  constructor
  · rintro ⟨x, hx, he, hm⟩
    obtain ⟨q', hq', rfl⟩ := (mem_volus h).1 hx
    rw [(voluNum_iff hq' hq).1 he] at hm
    exact hm
  · intro hm
    exact ⟨_, (mem_volus h).2 ⟨q, hq, rfl⟩, rfl, hm⟩

theorem edge_iff {k : Fin 3} {r : Pos} (hr : Box (matEdge d k) r) {P : Edge → Prop} :
    (∃ x ∈ (blockGrid d).edges, x.index = edgeNum d k r ∧ P x) ↔ P (edgeOf d k r) := by
  constructor
  · rintro ⟨x, hx, he, hm⟩
    obtain ⟨k', r', hr', rfl⟩ := (mem_edges h).1 hx
    obtain ⟨rfl, rfl⟩ := num_inj (mat := matEdge d) hr' hr he
    exact hm
  · intro hm
    exact ⟨_, (mem_edges h).2 ⟨k, r, hr, rfl⟩, rfl, hm⟩

theorem surf_iff {k : Fin 3} {r : Pos} (hr : Box (matSurf d k) r) {P : Surf → Prop} :
    (∃ x ∈ (blockGrid d).surfs, x.index = surfNum d k r ∧ P x) ↔ P (surfOf d k r) := by
  constructor
  · rintro ⟨x, hx, he, hm⟩
    obtain ⟨k', r', hr', rfl⟩ := (mem_surfs h).1 hx
    obtain ⟨rfl, rfl⟩ := num_inj (mat := matSurf d) hr' hr he
    exact hm
  · intro hm
    exact ⟨_, (mem_surfs h).2 ⟨k, r, hr, rfl⟩, rfl, hm⟩

theorem edgeVert_iff {k : Fin 3} {r : Pos} (hr : Box (matEdge d k) r) {v : Int} :
    EdgeVert (blockGrid d) (edgeNum d k r) v ↔ v ∈ edgeVerts d k r :=
  edge_iff h hr (P := fun x => v ∈ x.vertind)

theorem edgeSurf_iff {k : Fin 3} {r : Pos} (hr : Box (matEdge d k) r) {s : Int} :
    EdgeSurf (blockGrid d) (edgeNum d k r) s ↔ s ∈ edgeSurfs d k r :=
  edge_iff h hr (P := fun x => s ∈ x.surfind)

theorem surfEdge_iff {k : Fin 3} {r : Pos} (hr : Box (matSurf d k) r) {e : Int} :
    SurfEdge (blockGrid d) (surfNum d k r) e ↔ e ∈ surfEdges d k r :=
  surf_iff h hr (P := fun x => e ∈ x.edgeind)

theorem surfVolu_iff {k : Fin 3} {r : Pos} (hr : Box (matSurf d k) r) {c : Int} :
    SurfVolu (blockGrid d) (surfNum d k r) c ↔ c ∈ surfVolus d k r :=
  surf_iff h hr (P := fun x => c ∈ x.voluind)

end

theorem edgeVerts_from {d : Dims} {k : Fin 3} {r : Pos} (hr : Box (matEdge d k) r) {v : Int}
    (hv : v ∈ edgeVerts d k r) : ∃ q, Box (vDims d) q ∧ v = vertNum d q := by
  obtain ⟨h1, h2⟩ := box_edge_vert hr
  simp only [edgeVerts, List.mem_cons, List.not_mem_nil, or_false] at hv
  rcases hv with rfl | rfl
  · exact ⟨_, h1, rfl⟩
  · exact ⟨_, h2, rfl⟩

theorem surfEdges_from {d : Dims} {i : Fin 3} {p : Pos} (hp : Box (matSurf d i) p) {e : Int}
    (he : e ∈ surfEdges d i p) : ∃ k r, Box (matEdge d k) r ∧ e = edgeNum d k r := by
  obtain ⟨h1, h2, h3, h4⟩ := box_surf_edge hp
  simp only [surfEdges, List.mem_cons, List.not_mem_nil, or_false] at he
  rcases he with rfl | rfl | rfl | rfl
  · exact ⟨_, _, h1, rfl⟩
  · exact ⟨_, _, h2, rfl⟩
  · exact ⟨_, _, h3, rfl⟩
  · exact ⟨_, _, h4, rfl⟩

theorem voluSurfs_from {d : Dims} {q : Pos} (hq : Box d q) {s : Int}
    (hs : s ∈ voluSurfs d q) : ∃ i p, Box (matSurf d i) p ∧ s = surfNum d i p := by
  simp only [voluSurfs, List.mem_cons, List.not_mem_nil, or_false] at hs
  rcases hs with rfl | rfl | rfl | rfl | rfl | rfl
  · exact ⟨_, _, (box_volu_surf hq 0).1, rfl⟩
  · exact ⟨_, _, (box_volu_surf hq 1).1, rfl⟩
  · exact ⟨_, _, (box_volu_surf hq 2).1, rfl⟩
  · exact ⟨_, _, (box_volu_surf hq 0).2, rfl⟩
  · exact ⟨_, _, (box_volu_surf hq 1).2, rfl⟩
  · exact ⟨_, _, (box_volu_surf hq 2).2, rfl⟩

theorem surfVolus_from {d : Dims} {i : Fin 3} {p : Pos} (hp : Box (matSurf d i) p) {c : Int}
    (hc : c ∈ surfVolus d i p) : c = 0 ∨ ∃ q, Box d q ∧ c = voluNum d q := by
  rcases (mem_surfVolus hp).1 hc with ⟨hb, rfl⟩ | ⟨hb, rfl⟩ | ⟨rfl, -⟩
  · exact Or.inr ⟨_, hb, rfl⟩
  · exact Or.inr ⟨_, hb, rfl⟩
  · exact Or.inl rfl

/-! ### Counts and soundness -/

theorem range_index_nodup (n : Nat) :
    ((List.range n).map (fun i : Nat => (i : Int) + 1)).Nodup := by
  refine List.Nodup.map (fun a b hab => ?_) List.nodup_range
  omega

theorem indices_verts (d : Dims) : OneTo ((blockGrid d).verts.map Vert.index) (nVert d) := by
  show ((List.range (nVert d)).map (blockVert d)).map Vert.index = _
  rw [List.map_map]
  rfl

theorem indices_edges (d : Dims) : OneTo ((blockGrid d).edges.map Edge.index) (nEdge d) := by
  show ((List.range (nEdge d)).map (blockEdge d)).map Edge.index = _
  rw [List.map_map]
  rfl

theorem indices_surfs (d : Dims) : OneTo ((blockGrid d).surfs.map Surf.index) (nSurf d) := by
  show ((List.range (nSurf d)).map (blockSurf d)).map Surf.index = _
  rw [List.map_map]
  rfl

theorem indices_volus (d : Dims) : OneTo ((blockGrid d).volus.map Volu.index) (nVolu d) := by
  show ((List.range (nVolu d)).map (blockVolu d)).map Volu.index = _
  rw [List.map_map]
  rfl

theorem grid_unique (d : Dims) : UniqueIndices (blockGrid d) where
  verts := by rw [indices_verts]; exact range_index_nodup _
  edges := by rw [indices_edges]; exact range_index_nodup _
  surfs := by rw [indices_surfs]; exact range_index_nodup _
  volus := by rw [indices_volus]; exact range_index_nodup _

theorem grid_sound {d : Dims} (h : Small d) : Sound (blockGrid d) where
  unique := grid_unique d
  pos :=
    { verts := fun i hi => by
        obtain ⟨q, hq, rfl⟩ := (hasVert_iff h).1 hi; exact vertNum_pos hq
      edges := fun i hi => by
        obtain ⟨k, q, hq, rfl⟩ := (hasEdge_iff h).1 hi; exact num_pos (mat := matEdge d) hq
      surfs := fun i hi => by
        obtain ⟨k, q, hq, rfl⟩ := (hasSurf_iff h).1 hi; exact num_pos (mat := matSurf d) hq
      volus := fun i hi => by
        obtain ⟨q, hq, rfl⟩ := (hasVolu_iff h).1 hi; exact voluNum_pos hq }
  noDangling :=
    { vertEdge := fun v e hve _ => by
        obtain ⟨x, hx, -, he⟩ := hve
        obtain ⟨q, hq, rfl⟩ := (mem_verts h).1 hx
        exact (hasEdge_iff h).2 (mem_vertEdges_from he)
      edgeVert := fun e v hev _ => by
        obtain ⟨x, hx, -, he⟩ := hev
        obtain ⟨k, r, hr, rfl⟩ := (mem_edges h).1 hx
        exact (hasVert_iff h).2 (edgeVerts_from hr he)
      edgeSurf := fun e s hes h0 => by
        obtain ⟨x, hx, -, he⟩ := hes
        obtain ⟨k, r, hr, rfl⟩ := (mem_edges h).1 hx
        exact (hasSurf_iff h).2 ((mem_edgeSurfs_from he).resolve_left h0)
      surfEdge := fun s e hse => by
        obtain ⟨x, hx, -, he⟩ := hse
        obtain ⟨k, r, hr, rfl⟩ := (mem_surfs h).1 hx
        exact (hasEdge_iff h).2 (surfEdges_from hr he)
      surfVolu := fun s c hsc h0 => by
        obtain ⟨x, hx, -, he⟩ := hsc
        obtain ⟨k, r, hr, rfl⟩ := (mem_surfs h).1 hx
        exact (hasVolu_iff h).2 ((surfVolus_from hr he).resolve_left h0)
      voluSurf := fun c s hcs _ => by
        obtain ⟨x, hx, -, he⟩ := hcs
        obtain ⟨q, hq, rfl⟩ := (mem_volus h).1 hx
        exact (hasSurf_iff h).2 (voluSurfs_from hq he) }
  zeroOutside :=
    { vertEdge := fun v hve => by
        obtain ⟨x, hx, -, he⟩ := hve
        obtain ⟨q, hq, rfl⟩ := (mem_verts h).1 hx
        obtain ⟨k, r, hr, h0⟩ := mem_vertEdges_from he
        have : 0 < edgeNum d k r := num_pos hr
        omega
      edgeVert := fun e hev => by
        obtain ⟨x, hx, -, he⟩ := hev
        obtain ⟨k, r, hr, rfl⟩ := (mem_edges h).1 hx
        obtain ⟨q, hq, h0⟩ := edgeVerts_from hr he
        have := vertNum_pos hq
        omega
      surfEdge := fun s hse => by
        obtain ⟨x, hx, -, he⟩ := hse
        obtain ⟨k, r, hr, rfl⟩ := (mem_surfs h).1 hx
        obtain ⟨k', r', hr', h0⟩ := surfEdges_from hr he
        have : 0 < edgeNum d k' r' := num_pos hr'
        omega
      voluSurf := fun c hcs => by
        obtain ⟨x, hx, -, he⟩ := hcs
        obtain ⟨q, hq, rfl⟩ := (mem_volus h).1 hx
        obtain ⟨k', r', hr', h0⟩ := voluSurfs_from hq he
        have : 0 < surfNum d k' r' := num_pos hr'
        omega }
  sym :=
    { vertEdge := fun v e hv he => by
        obtain ⟨q, hq, rfl⟩ := (hasVert_iff h).1 hv
        obtain ⟨k, r, hr, rfl⟩ := (hasEdge_iff h).1 he
        rw [vertEdge_iff h hq, edgeVert_iff h hr, mem_vertEdges hr, mem_edgeVerts hr hq]
      edgeSurf := fun e s he hs => by
        obtain ⟨k, r, hr, rfl⟩ := (hasEdge_iff h).1 he
        obtain ⟨i, p, hp, rfl⟩ := (hasSurf_iff h).1 hs
        rw [edgeSurf_iff h hr, surfEdge_iff h hp, mem_edgeSurfs hp, mem_surfEdges hp hr]
      surfVolu := fun s c hs hc => by
        obtain ⟨i, p, hp, rfl⟩ := (hasSurf_iff h).1 hs
        obtain ⟨q, hq, rfl⟩ := (hasVolu_iff h).1 hc
        rw [surfVolu_iff h hp, voluSurf_iff h hq, surfVolu_pos hp hq, mem_voluSurfs hq hp] }

theorem unit_ne {p : Pos} {k : Fin 3} : ¬ (p = fun j => p j + unit k j) := by
  intro h
  have := congrFun h k
  simp only [unit_self] at this
  omega

theorem grid_counts {d : Dims} (h : Small d) : HexCounts (blockGrid d) where
  volus := fun x hx => by
    obtain ⟨q, hq, rfl⟩ := (mem_volus h).1 hx
    refine ⟨rfl, ?_⟩
    have b := box_volu_surf hq
    show (voluSurfs d q).Nodup
    have n0 : ¬ q = addProp q 0 := fun e => by have := congrFun e 2; simp [addProp, surfProp] at this
    have n1 : ¬ q = addProp q 1 := fun e => by have := congrFun e 1; simp [addProp, surfProp] at this
    have n2 : ¬ q = addProp q 2 := fun e => by have := congrFun e 0; simp [addProp, surfProp] at this
    unfold voluSurfs
    simp only [surfNum_eq, List.nodup_cons, List.mem_cons, List.not_mem_nil, or_false, not_or,
      not_false_eq_true, List.nodup_nil, and_true]
    rw [num_iff (b 0).1 (b 1).1, num_iff (b 0).1 (b 2).1, num_iff (b 0).1 (b 0).2,
      num_iff (b 0).1 (b 1).2, num_iff (b 0).1 (b 2).2, num_iff (b 1).1 (b 2).1,
      num_iff (b 1).1 (b 0).2, num_iff (b 1).1 (b 1).2, num_iff (b 1).1 (b 2).2,
      num_iff (b 2).1 (b 0).2, num_iff (b 2).1 (b 1).2, num_iff (b 2).1 (b 2).2,
      num_iff (b 0).2 (b 1).2, num_iff (b 0).2 (b 2).2, num_iff (b 1).2 (b 2).2]
    simp [n0, n1, n2]
  surfs := fun x hx => by
    obtain ⟨i, p, hp, rfl⟩ := (mem_surfs h).1 hx
    refine ⟨rfl, ?_⟩
    obtain ⟨h1, h2, h3, h4⟩ := box_surf_edge hp
    show (surfEdges d i p).Nodup
    have hc : (currDim i).1 ≠ (currDim i).2 := by fin_cases i <;> decide
    unfold surfEdges
    simp only [edgeNum_eq, List.nodup_cons, List.mem_cons, List.not_mem_nil, or_false, not_or,
      not_false_eq_true, List.nodup_nil, and_true]
    rw [num_iff h1 h2, num_iff h1 h3, num_iff h1 h4, num_iff h2 h3, num_iff h2 h4, num_iff h3 h4]
    refine ⟨⟨fun e => hc e.1, fun e => unit_ne e.2, fun e => hc e.1⟩,
      ⟨fun e => hc e.1.symm, fun e => unit_ne e.2.symm⟩, fun e => hc e.1⟩
  edges := fun x hx => by
    obtain ⟨k, r, hr, rfl⟩ := (mem_edges h).1 hx
    refine ⟨rfl, ?_⟩
    obtain ⟨h1, h2⟩ := box_edge_vert hr
    show (edgeVerts d k r).Nodup
    unfold edgeVerts
    simp only [List.nodup_cons, List.mem_cons, List.not_mem_nil, or_false,
      not_false_eq_true, List.nodup_nil, and_true]
    rw [vertNum_iff h1 h2]
    intro e
    have := congrFun e k
    simp [edgeProp] at this

/-! ### Vertices of faces and cells -/

theorem surfVert_iff {d : Dims} (h : Small d) {i : Fin 3} {p : Pos} (hp : Box (matSurf d i) p)
    {q : Pos} (hq : Box (vDims d) q) : SurfVert (blockGrid d) (surfNum d i p) (vertNum d q) ↔
      ∀ j, (j = normal i → q j = p j) ∧ (j ≠ normal i → q j = p j ∨ q j = p j + 1) := by
  have hall : ∀ {P : Fin 3 → Prop}, (∀ j, P j) ↔ P 0 ∧ P 1 ∧ P 2 := by
    intro P
    exact ⟨fun hP => ⟨hP 0, hP 1, hP 2⟩, fun hP j => by
      fin_cases j
      · exact hP.1
      · exact hP.2.1
      · exact hP.2.2⟩
  constructor
  · rintro ⟨e, he, hv⟩
    rw [surfEdge_iff h hp] at he
    obtain ⟨k, r, hr, rfl⟩ := surfEdges_from hp he
    rw [mem_surfEdges hp hr] at he
    rw [edgeVert_iff h hr, mem_edgeVerts hr hq] at hv
    unfold EdgeAtSurf at he
    unfold VertAtEdge at hv
    rw [hall]
    simp only [pos_ext] at he hv
    fin_cases i <;> fin_cases k <;> simp [normal, third, unit] at * <;> omega
  · intro hj
    rw [hall] at hj
    obtain ⟨h1, h2, h3, h4⟩ := box_surf_edge hp
    have hc : VertAtEdge q (currDim i).1 p ∨
        VertAtEdge q (currDim i).1 (fun j => p j + unit (currDim i).2 j) := by
      unfold VertAtEdge
      simp only [pos_ext]
      fin_cases i <;> simp [normal, currDim, List.finRange, unit] at * <;> omega
    rcases hc with hc | hc
    · refine ⟨edgeNum d (currDim i).1 p, ?_, ?_⟩
      · rw [surfEdge_iff h hp]; simp [surfEdges]
      · rw [edgeVert_iff h h1, mem_edgeVerts h1 hq]; exact hc
    · refine ⟨edgeNum d (currDim i).1 (fun j => p j + unit (currDim i).2 j), ?_, ?_⟩
      · rw [surfEdge_iff h hp]; simp [surfEdges]
      · rw [edgeVert_iff h h3, mem_edgeVerts h3 hq]; exact hc

theorem voluVert_surf {m : Mesh} {c v : Int} :
    VoluVert m c v ↔ ∃ s, VoluSurf m c s ∧ SurfVert m s v := by
  constructor
  · rintro ⟨s, e, h1, h2, h3⟩; exact ⟨s, h1, e, h2, h3⟩
  · rintro ⟨s, h1, e, h2, h3⟩; exact ⟨s, e, h1, h2, h3⟩

theorem voluVert_iff {d : Dims} (h : Small d) {c : Pos} (hc : Box d c)
    {q : Pos} (hq : Box (vDims d) q) : VoluVert (blockGrid d) (voluNum d c) (vertNum d q) ↔
      ∀ j, q j = c j ∨ q j = c j + 1 := by
  rw [voluVert_surf]
  constructor
  · rintro ⟨s, hs, hv⟩
    rw [voluSurf_iff h hc] at hs
    obtain ⟨i, p, hp, rfl⟩ := voluSurfs_from hc hs
    rw [mem_voluSurfs hc hp] at hs
    rw [surfVert_iff h hp hq] at hv
    intro j
    have hj := hv j
    rcases hs with rfl | rfl
    · by_cases hn : j = normal i
      · exact Or.inl (hj.1 hn)
      · exact hj.2 hn
    · by_cases hn : j = normal i
      · have := hj.1 hn
        right
        rw [this]
        subst hn
        fin_cases i <;> simp [addProp, surfProp, normal]
      · have := hj.2 hn
        have e : addProp c i j = c j := by
          fin_cases i <;> fin_cases j <;> simp [addProp, surfProp, normal] at * 
        rw [e] at this
        exact this
  · intro hj
    obtain ⟨b1, b2⟩ := box_volu_surf hc 0
    have h2 : normal 0 = 2 := rfl
    rcases hj 2 with e2 | e2
    · refine ⟨surfNum d 0 c, ?_, ?_⟩
      · rw [voluSurf_iff h hc]; simp [voluSurfs]
      · rw [surfVert_iff h b1 hq]
        intro j
        refine ⟨fun hn => ?_, fun _ => hj j⟩
        rw [hn, h2]; exact e2
    · refine ⟨surfNum d 0 (addProp c 0), ?_, ?_⟩
      · rw [voluSurf_iff h hc]; simp [voluSurfs]
      · rw [surfVert_iff h b2 hq]
        intro j
        have := hj j
        fin_cases j <;> simp [addProp, surfProp, normal] at * <;> omega

/-! ### Coordinates -/

theorem coord_get {d : Dims} (q : Pos) (j : Fin 3) :
    (vertOf d q).coord[j.val]? = some ((q j : ℚ) / ((max (d j) 1 : Nat) : ℚ)) := by
  fin_cases j <;> rfl

/-- A statement on the coordinates of some vertices by position. -/
theorem allCoord {d : Dims} (h : Small d) {sel : Int → Prop} {j : Fin 3} {ok : ℚ → Prop}
    (h1 : ∃ q, Box (vDims d) q ∧ sel (vertNum d q))
    (h2 : ∀ q, Box (vDims d) q → sel (vertNum d q) → ok ((q j : ℚ) / ((max (d j) 1 : Nat) : ℚ))) :
    AllCoord (blockGrid d) sel j.val ok := by
  constructor
  · obtain ⟨q, hq, hs⟩ := h1
    exact ⟨_, (hasVert_iff h).2 ⟨q, hq, rfl⟩, hs⟩
  · intro x hx hs
    obtain ⟨q, hq, rfl⟩ := (mem_verts h).1 hx
    exact ⟨_, coord_get q j, h2 q hq hs⟩

theorem of_allCoord {d : Dims} (h : Small d) {sel : Int → Prop} {j : Fin 3} {ok : ℚ → Prop}
    (ha : AllCoord (blockGrid d) sel j.val ok) {q : Pos} (hq : Box (vDims d) q)
    (hs : sel (vertNum d q)) : ok ((q j : ℚ) / ((max (d j) 1 : Nat) : ℚ)) := by
  obtain ⟨c, hc, hok⟩ := ha.2 _ ((mem_verts h).2 ⟨q, hq, rfl⟩) hs
  rw [coord_get] at hc
  rw [Option.some.inj hc]
  exact hok

theorem max_pos (n : Nat) : (0 : ℚ) < ((max n 1 : Nat) : ℚ) := by
  have : 0 < max n 1 := by omega
  exact_mod_cast this

theorem coord_inj {n : Nat} {x y : Int}
    (h : (x : ℚ) / ((max n 1 : Nat) : ℚ) = (y : ℚ) / ((max n 1 : Nat) : ℚ)) : x = y := by
  have h0 := max_pos n
  rw [div_left_inj' (ne_of_gt h0)] at h
  exact_mod_cast h

theorem coord_unit {d : Dims} {j : Fin 3} {x : Int} (h : 0 ≤ x ∧ x < (vDims d j : Nat)) :
    0 ≤ (x : ℚ) / ((max (d j) 1 : Nat) : ℚ) ∧ (x : ℚ) / ((max (d j) 1 : Nat) : ℚ) ≤ 1 := by
  have h0 := max_pos (d j)
  constructor
  · exact div_nonneg (by exact_mod_cast h.1) (le_of_lt h0)
  · rw [div_le_one h0]
    have : x ≤ (max (d j) 1 : Nat) := by simp only [vDims] at h; omega
    exact_mod_cast this

theorem coord_mono {n : Nat} {x y : Int} (h : x ≤ y) :
    (x : ℚ) / ((max n 1 : Nat) : ℚ) ≤ (y : ℚ) / ((max n 1 : Nat) : ℚ) := by
  have h0 := max_pos n
  apply div_le_div_of_nonneg_right _ (le_of_lt h0)
  exact_mod_cast h

/-! ### The loop of edges around a face -/

theorem face_loop {d : Dims} (h : Small d) {i : Fin 3} {p : Pos} (hp : Box (matSurf d i) p) :
    IsLoop (EdgeJoins (blockGrid d)) (surfOf d i p).edgeind := by
  obtain ⟨h1, h2, h3, h4⟩ := box_surf_edge hp
  have hc : (currDim i).1 ≠ (currDim i).2 := by fin_cases i <;> decide
  show IsLoop _ (surfEdges d i p)
  unfold surfEdges
  generalize (currDim i).1 = k1 at *
  generalize (currDim i).2 = k2 at *
  have ej : ∀ {k : Fin 3} {r : Pos}, Box (matEdge d k) r →
      EdgeJoins (blockGrid d) (edgeNum d k r) (vertNum d r) (vertNum d (fun j => r j + unit k j)) := by
    intro k r hr
    refine ⟨_, (mem_edges h).2 ⟨k, r, hr, rfl⟩, rfl, Or.inl ?_⟩
    have : (fun j => r j + 1 - (edgeProp k j : Int)) = fun j => r j + unit k j := by
      funext j
      unfold edgeProp unit
      by_cases hk : k = j
      · simp [hk]
      · simp [hk, Ne.symm hk]
    show [vertNum d r, vertNum d (fun j => r j + 1 - (edgeProp k j : Int))] = _
    rw [this]
  have ejs : ∀ {e a b : Int}, EdgeJoins (blockGrid d) e a b → EdgeJoins (blockGrid d) e b a := by
    rintro e a b ⟨x, hx, he, hv⟩
    exact ⟨x, hx, he, hv.symm⟩
  have b2 : ∀ {k : Fin 3} {r : Pos}, Box (matEdge d k) r → Box (vDims d) (fun j => r j + unit k j) := by
    intro k r hr j
    have := hr j
    unfold matEdge edgeProp at this
    unfold unit vDims
    by_cases hk : j = k
    · simp [hk] at *; omega
    · simp [hk, Ne.symm hk] at *; omega
  let P : Nat → Pos := fun n =>
    match n with
    | 0 => p
    | 1 => fun j => p j + unit k1 j
    | 2 => fun j => p j + unit k1 j + unit k2 j
    | 3 => fun j => p j + unit k2 j
    | _ => p
  have e12 : (fun j => p j + unit k2 j + unit k1 j) = P 2 := by
    funext j; show _ = p j + unit k1 j + unit k2 j; omega
  refine ⟨fun n => vertNum d (P n), ?_, rfl, ?_⟩
  · intro k e he
    match k with
    | 0 => rw [← Option.some.inj he]; exact ej h1
    | 1 => rw [← Option.some.inj he]; exact ej h2
    | 2 =>
      rw [← Option.some.inj he]
      have := ejs (ej h3)
      rw [e12] at this
      exact this
    | 3 => rw [← Option.some.inj he]; exact ejs (ej h4)
    | k + 4 => simp at he
  · have hB : ∀ n, n < 4 → Box (vDims d) (P n) := by
      intro n hn
      match n with
      | 0 => exact (box_edge_vert h1).1
      | 1 => exact b2 h1
      | 2 => exact b2 h2
      | 3 => exact b2 h4
      | n + 4 => omega
    intro m n hm hn he
    have hm : m < 4 := hm
    have hn : n < 4 := hn
    have hP := (vertNum_iff (hB m hm) (hB n hn)).1 he
    have c1 := congrFun hP k1
    have c2 := congrFun hP k2
    have u1 : unit k1 k2 = 0 := by simp [unit, Ne.symm hc]
    have u2 : unit k2 k1 = 0 := by simp [unit, hc]
    interval_cases m <;> interval_cases n <;> simp [P, u1, u2, unit_self] at c1 c2 ⊢

/-! ### The boundary -/

theorem zero_iff {d : Dims} (hd : ∀ j, 0 < d j) {i : Fin 3} {p : Pos} (hp : Box (matSurf d i) p) :
    0 ∈ (surfOf d i p).voluind ↔ p (normal i) = 0 ∨ p (normal i) = d (normal i) := by
  show 0 ∈ surfVolus d i p ↔ _
  rw [mem_surfVolus hp]
  have e1 : ¬ (Box d p ∧ 0 = voluNum d p) := fun e => by have := voluNum_pos e.1; omega
  have e2 : ¬ (Box d (subProp p i) ∧ 0 = voluNum d (subProp p i)) :=
    fun e => by have := voluNum_pos e.1; omega
  simp only [e1, e2, false_or, true_and]
  have d0 := hd 0; have d1 := hd 1; have d2 := hd 2
  simp only [box_iff] at *
  fin_cases i <;> simp [matSurf, surfProp, subProp, normal] at * <;> omega

theorem face_corner {d : Dims} {i : Fin 3} {p : Pos} (hp : Box (matSurf d i) p) :
    Box (vDims d) p ∧ ∀ j, j ≠ normal i → Box (vDims d) (fun l => p l + unit j l) := by
  simp only [box_iff] at *
  constructor
  · fin_cases i <;> simp [matSurf, surfProp, vDims] at * <;> omega
  · intro j hj
    fin_cases i <;> fin_cases j <;> simp [matSurf, surfProp, vDims, normal, unit] at * <;> omega

theorem face_plane {d : Dims} (h : Small d) {i : Fin 3} {p : Pos} (hp : Box (matSurf d i) p) :
    AllCoord (blockGrid d) (SurfVert (blockGrid d) (surfOf d i p).index) (normal i).val
      (fun x => x = (p (normal i) : ℚ) / ((max (d (normal i)) 1 : Nat) : ℚ)) := by
  have hc := (face_corner hp).1
  apply allCoord h
  · exact ⟨p, hc, (surfVert_iff h hp hc).2 (fun j => ⟨fun _ => rfl, fun _ => Or.inl rfl⟩)⟩
  · intro q hq hs
    rw [((surfVert_iff h hp hq).1 hs (normal i)).1 rfl]

theorem boundary_iff {d : Dims} (h : Small d) (hd : ∀ j, 0 < d j) {i : Fin 3} {p : Pos}
    (hp : Box (matSurf d i) p) :
    (∃ j < 3, AllCoord (blockGrid d) (SurfVert (blockGrid d) (surfOf d i p).index) j (fun t => t = 0) ∨
      AllCoord (blockGrid d) (SurfVert (blockGrid d) (surfOf d i p).index) j (fun t => t = 1)) ↔
      p (normal i) = 0 ∨ p (normal i) = d (normal i) := by
  have hc := face_corner hp
  have hm0 := max_pos (d (normal i))
  constructor
  · rintro ⟨j, hj, hall⟩
    have hall' : ∃ t : ℚ, (t = 0 ∨ t = 1) ∧
        AllCoord (blockGrid d) (SurfVert (blockGrid d) (surfOf d i p).index) j (fun x => x = t) := by
      rcases hall with ha | ha
      · exact ⟨0, Or.inl rfl, ha⟩
      · exact ⟨1, Or.inr rfl, ha⟩
    obtain ⟨t, ht, ha⟩ := hall'
    have ha : AllCoord (blockGrid d) (SurfVert (blockGrid d) (surfNum d i p)) (⟨j, hj⟩ : Fin 3).val
      (fun x => x = t) := ha
    generalize hJ : (⟨j, hj⟩ : Fin 3) = J at ha
    have sp : SurfVert (blockGrid d) (surfNum d i p) (vertNum d p) :=
      (surfVert_iff h hp hc.1).2 (fun j => ⟨fun _ => rfl, fun _ => Or.inl rfl⟩)
    have v1 := of_allCoord h ha hc.1 sp
    by_cases hn : J = normal i
    · rw [← hn]
      rw [← hn] at hm0
      rcases ht with rfl | rfl
      · left
        rcases div_eq_zero_iff.1 v1 with e | e
        · exact_mod_cast e
        · exact absurd e (ne_of_gt hm0)
      · right
        rw [div_eq_one_iff_eq (ne_of_gt hm0), Nat.max_eq_left (hd J)] at v1
        exact_mod_cast v1
    · exfalso
      have hb2 := hc.2 J hn
      have v2 := of_allCoord h ha hb2 ((surfVert_iff h hp hb2).2 (fun l => by
        refine ⟨fun hl => ?_, fun hl => ?_⟩
        · subst hl; simp [unit, Ne.symm hn]
        · by_cases hlJ : l = J
          · subst hlJ; right; simp [unit]
          · left; simp [unit, hlJ]))
      have := coord_inj (v1.trans v2.symm)
      simp only [unit_self] at this
      omega
  · intro hcase
    refine ⟨(normal i).val, (normal i).isLt, ?_⟩
    have hpl := face_plane h hp
    rcases hcase with e | e
    · left
      rw [e] at hpl
      simpa using hpl
    · right
      rw [e, Nat.max_eq_left (hd _)] at hpl
      have h1 : ((d (normal i) : Int) : ℚ) / ((d (normal i) : Nat) : ℚ) = 1 := by
        rw [Int.cast_natCast]
        apply div_self
        have := hd (normal i)
        exact_mod_cast (by omega : d (normal i) ≠ 0)
      rw [h1] at hpl
      exact hpl

theorem two_cells {d : Dims} {i : Fin 3} {p : Pos} (hp : Box (matSurf d i) p)
    (h0 : 0 ∉ (surfOf d i p).voluind) : Box d p ∧ Box d (subProp p i) := by
  have h0 : ¬ 0 ∈ surfVolus d i p := h0
  rw [mem_surfVolus hp] at h0
  by_contra hc
  apply h0
  right; right
  refine ⟨rfl, ?_⟩
  tauto

theorem two_list {d : Dims} {i : Fin 3} {p : Pos} (hp : Box (matSurf d i) p) (h1 : Box d p)
    (h2 : Box d (subProp p i)) :
    (surfOf d i p).voluind = [voluNum d p, voluNum d (subProp p i)] := by
  show surfVolus d i p = _
  unfold surfVolus
  rw [if_neg ((front hp).2 h1), if_neg ((behind hp).2 h2)]

theorem cell_corner {d : Dims} {c : Pos} (hc : Box d c) : Box (vDims d) c := by
  intro j
  have := hc j
  unfold vDims
  omega

theorem cell_front {d : Dims} (h : Small d) {i : Fin 3} {p : Pos} (h1 : Box d p) :
    AllCoord (blockGrid d) (VoluVert (blockGrid d) (voluNum d p)) (normal i).val
      (fun x => (p (normal i) : ℚ) / ((max (d (normal i)) 1 : Nat) : ℚ) ≤ x) := by
  apply allCoord h
  · exact ⟨p, cell_corner h1, (voluVert_iff h h1 (cell_corner h1)).2 (fun j => Or.inl rfl)⟩
  · intro q hq hs
    apply coord_mono
    have := (voluVert_iff h h1 hq).1 hs (normal i)
    omega

theorem cell_behind {d : Dims} (h : Small d) {i : Fin 3} {p : Pos} (h1 : Box d (subProp p i)) :
    AllCoord (blockGrid d) (VoluVert (blockGrid d) (voluNum d (subProp p i))) (normal i).val
      (fun x => x ≤ (p (normal i) : ℚ) / ((max (d (normal i)) 1 : Nat) : ℚ)) := by
  apply allCoord h
  · exact ⟨_, cell_corner h1, (voluVert_iff h h1 (cell_corner h1)).2 (fun j => Or.inl rfl)⟩
  · intro q hq hs
    apply coord_mono
    have := (voluVert_iff h h1 hq).1 hs (normal i)
    have e : subProp p i (normal i) = p (normal i) - 1 := by
      fin_cases i <;> simp [subProp, surfProp, normal]
    omega

theorem vert_has_edge {d : Dims} (h : Small d) {q : Pos} (hq : Box (vDims d) q) :
    ∃ k r, Box (matEdge d k) r ∧ VertAtEdge q k r := by
  have hx := h.x
  rw [box_iff] at hq
  by_cases h0 : q 0 = 0
  · refine ⟨0, q, ?_, Or.inl rfl⟩
    rw [box_iff]
    simp [matEdge, edgeProp, vDims] at *
    omega
  · refine ⟨0, fun j => q j - unit 0 j, ?_, Or.inr ?_⟩
    · rw [box_iff]
      simp [matEdge, edgeProp, vDims, unit] at *
      omega
    · funext j; simp only; omega

end RSVS.Voxel
