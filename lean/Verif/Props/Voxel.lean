import Mathlib.Tactic.FieldSimp
import Verif.Lemmas.VoxelSound
import Verif.Lemmas.MeshTest
import Verif.Lemmas.OrderMesh
import Verif.Props.Order

/-!
# Properties of block grids: C30 to C32 and C69
-/

namespace RSVS.Props

open RSVS.Spec RSVS.Voxel RSVS.Mesh RSVS.Order

/-! ### C30: sizes -/

/-- C30: the numbers of cells and vertices, the Euler relation, and the indices, for every size
(with `c = 0` for a two-dimensional grid). -/
theorem C30_sizes (a b c : Nat) :
    (blockGrid ![a, b, c]).volus.length = a * b * c ∧
    (blockGrid ![a, b, c]).verts.length = (a + 1) * (b + 1) * (c + 1) ∧
    ((blockGrid ![a, b, c]).verts.length : Int) - (blockGrid ![a, b, c]).edges.length
      + (blockGrid ![a, b, c]).surfs.length - (blockGrid ![a, b, c]).volus.length = 1 ∧
    OneTo ((blockGrid ![a, b, c]).verts.map Vert.index) (blockGrid ![a, b, c]).verts.length ∧
    OneTo ((blockGrid ![a, b, c]).edges.map Edge.index) (blockGrid ![a, b, c]).edges.length ∧
    OneTo ((blockGrid ![a, b, c]).surfs.map Surf.index) (blockGrid ![a, b, c]).surfs.length ∧
    OneTo ((blockGrid ![a, b, c]).volus.map Volu.index) (blockGrid ![a, b, c]).volus.length := by
  have hv : (blockGrid ![a, b, c]).verts.length = nVert ![a, b, c] := by simp [blockGrid]
  have he : (blockGrid ![a, b, c]).edges.length = nEdge ![a, b, c] := by simp [blockGrid]
  have hs : (blockGrid ![a, b, c]).surfs.length = nSurf ![a, b, c] := by simp [blockGrid]
  have hc : (blockGrid ![a, b, c]).volus.length = nVolu ![a, b, c] := by simp [blockGrid]
  rw [hv, he, hs, hc]
  refine ⟨rfl, rfl, ?_, indices_verts _, indices_edges _, indices_surfs _, indices_volus _⟩
  have e0 : nEdge ![a, b, c] = a * (b + 1) * (c + 1) + (a + 1) * b * (c + 1) + (a + 1) * (b + 1) * c := rfl
  have s0 : nSurf ![a, b, c] = a * b * (c + 1) + a * (b + 1) * c + (a + 1) * b * c := rfl
  have v0 : nVert ![a, b, c] = (a + 1) * (b + 1) * (c + 1) := rfl
  have c0 : nVolu ![a, b, c] = a * b * c := rfl
  rw [e0, s0, v0, c0]
  push_cast
  ring

example : (blockGrid ![2, 3, 4]).edges.length = 133 ∧ (blockGrid ![2, 3, 0]).surfs.length = 6 := by
  decide +kernel

/-! ### C31: incidence -/

theorem small_mk {a b c : Nat} (ha : 0 < a) (hb : 0 < b) (h : (a + 1) * (b + 1) * (c + 1) ≤ 2 ^ 24) :
    Small ![a, b, c] := ⟨ha, hb, h⟩

/-- C31 for grids with at most 2^24 vertices (also in two dimensions): the counts, no dangling
reference, and symmetric incidence.  Missing: larger grids, for which it is violated
(`C31_large_violated`). -/
theorem C31_incidence_partial (a b c : Nat) (ha : 0 < a) (hb : 0 < b)
    (h : (a + 1) * (b + 1) * (c + 1) ≤ 2 ^ 24) :
    HexCounts (blockGrid ![a, b, c]) ∧ Sound (blockGrid ![a, b, c]) :=
  ⟨grid_counts (small_mk ha hb h), grid_sound (small_mk ha hb h)⟩

example : Sound (blockGrid ![20, 30, 40]) := (C31_incidence_partial 20 30 40 (by decide) (by decide) (by decide)).2

/-- C31 in the terms of `TestConnectivityBiDir`: nothing dangling, nothing one-way, nothing short
of neighbours. -/
theorem C31_passes_test_partial (a b c : Nat) (ha : 0 < a) (hb : 0 < b)
    (h : (a + 1) * (b + 1) * (c + 1) ≤ 2 ^ 24) :
    (blockGrid ![a, b, c]).biDirCounts true = .ok (0, 0) := by
  have hsm := small_mk (c := c) ha hb h
  have hc := grid_counts hsm
  refine biDirCounts_sound (grid_sound hsm) {
    surfs := fun x hx he => by
      have := (hc.surfs x hx).1
      rw [he] at this
      exact absurd this (by decide)
    verts := fun _ x hx he => by
      obtain ⟨q, hq, rfl⟩ := (mem_verts hsm).1 hx
      obtain ⟨k, r, hr, hv⟩ := vert_has_edge hsm hq
      have := (mem_vertEdges hr).2 hv
      have he' : vertEdges ![a, b, c] q = [] := he
      rw [he'] at this
      exact absurd this List.not_mem_nil
    edges := fun _ x hx => (hc.edges x hx).1
    volus := fun _ _ x hx => by
      obtain ⟨i, p, hp, rfl⟩ := (mem_surfs hsm).1 hx
      rfl }

example : (blockGrid ![2, 1, 3]).biDirCounts true = .ok (0, 0) := by decide +kernel

/-- The edges of every face go around it, so `OrderEdges`, which follows in `BuildBlockGrid`, succeeds
on every face. -/
theorem C31_faces_ordered_partial (a b c : Nat) (ha : 0 < a) (hb : 0 < b)
    (h : (a + 1) * (b + 1) * (c + 1) ≤ 2 ^ 24) (tab : List Int → Table)
    (ht : ∀ l, IsTable l (tab l)) (s : Surf) (hs : s ∈ (blockGrid ![a, b, c]).surfs) :
    IsLoop (EdgeJoins (blockGrid ![a, b, c])) s.edgeind ∧
    ∃ r, surfOrderEdges tab (blockGrid ![a, b, c]) s = .ok (r, 0) ∧
      IsLoop (EdgeJoins (blockGrid ![a, b, c])) r ∧ r.Perm s.edgeind := by
  have hsm := small_mk (c := c) ha hb h
  have hS := grid_sound hsm
  have hc := grid_counts hsm
  have hl : IsLoop (EdgeJoins (blockGrid ![a, b, c])) s.edgeind := by
    obtain ⟨i, p, hp, rfl⟩ := (mem_surfs hsm).1 hs
    exact face_loop hsm hp
  refine ⟨hl, ?_⟩
  have hn := (hc.surfs s hs).2
  have hpm : s.edgeind.Perm (sortUnique s.edgeind) :=
    (List.perm_ext_iff_of_nodup hn (nodup_sortUnique _)).2 (fun e => by rw [mem_sortUnique])
  obtain ⟨r, h1, h2, h3, h4⟩ := C23_surface tab ht _ hS (fun x hx => (hc.edges x hx).1) s hs
    ⟨s.edgeind, hpm, hl⟩
  exact ⟨r, h1, h2, (List.perm_ext_iff_of_nodup h3 hn).2 h4⟩

theorem vert_mem {d : Dims} {n : Nat} (h : n < nVert d) : blockVert d n ∈ (blockGrid d).verts :=
  List.mem_map.mpr ⟨n, List.mem_range.mpr h, rfl⟩

theorem edge_mem {d : Dims} {n : Nat} (h : n < nEdge d) : blockEdge d n ∈ (blockGrid d).edges :=
  List.mem_map.mpr ⟨n, List.mem_range.mpr h, rfl⟩

theorem surf_mem {d : Dims} {n : Nat} (h : n < nSurf d) : blockSurf d n ∈ (blockGrid d).surfs :=
  List.mem_map.mpr ⟨n, List.mem_range.mpr h, rfl⟩

theorem edge_of_mem {d : Dims} {n : Nat} {x : Edge} (h : x ∈ (blockGrid d).edges)
    (hi : x.index = (n : Int) + 1) : x = blockEdge d n := by
  obtain ⟨ii, -, rfl⟩ := List.mem_map.mp h
  have : (ii : Int) + 1 = (n : Int) + 1 := hi
  have : ii = n := by omega
  rw [this]

/-- C31 is violated by a grid of 256 × 256 × 256 cells: `float(16777217)` is 16777216, and the vertex
with index 16777218 is given the edges of another one. -/
theorem C31_large_violated : ¬ Symmetric (blockGrid ![256, 256, 256]) := by
  intro hs
  have mv : blockVert ![256, 256, 256] 16777217 ∈ (blockGrid ![256, 256, 256]).verts :=
    vert_mem (by decide +kernel)
  have me : blockEdge ![256, 256, 256] 16711680 ∈ (blockGrid ![256, 256, 256]).edges :=
    edge_mem (by decide +kernel)
  have iv : (blockVert ![256, 256, 256] 16777217).index = 16777218 := by decide +kernel
  have ie : (blockEdge ![256, 256, 256] 16711680).index = 16711681 := by decide +kernel
  have hl : VertEdge (blockGrid ![256, 256, 256]) 16777218 16711681 :=
    ⟨_, mv, iv, by decide +kernel⟩
  have hv : HasVert (blockGrid ![256, 256, 256]) 16777218 := ⟨_, mv, iv⟩
  have he : HasEdge (blockGrid ![256, 256, 256]) 16711681 := ⟨_, me, ie⟩
  obtain ⟨x, hx, hi, hm⟩ := (hs.vertEdge _ _ hv he).1 hl
  rw [edge_of_mem hx (n := 16711680) (by rw [hi]; decide)] at hm
  exact absurd hm (by decide +kernel)

/-! ### C32: boundary -/

/-- The face lies on the boundary of the unit cube: all its vertices are in one of the six planes. -/
def OnBoundary (m : Mesh) (s : Int) : Prop :=
  ∃ j < 3, AllCoord m (SurfVert m s) j (fun t => t = 0) ∨ AllCoord m (SurfVert m s) j (fun t => t = 1)

/-- C32 for grids with at most 2^24 vertices: a face lists 0 exactly if it is on the boundary;
otherwise it lists two different cells which list it, one on each side of the plane in which it
lies.  Missing: larger grids, where the vertices and cells are numbered wrongly (C31). -/
theorem C32_boundary_partial (a b c : Nat) (ha : 0 < a) (hb : 0 < b) (hc : 0 < c)
    (h : (a + 1) * (b + 1) * (c + 1) ≤ 2 ^ 24) (s : Surf) (hs : s ∈ (blockGrid ![a, b, c]).surfs) :
    s.voluind.length = 2 ∧
    (0 ∈ s.voluind ↔ OnBoundary (blockGrid ![a, b, c]) s.index) ∧
    ∃ j < 3, ∃ t : ℚ, AllCoord (blockGrid ![a, b, c]) (SurfVert (blockGrid ![a, b, c]) s.index) j (fun x => x = t) ∧
      (0 ∉ s.voluind → ∃ c1 c2, s.voluind = [c1, c2] ∧ c1 ≠ c2 ∧
        VoluSurf (blockGrid ![a, b, c]) c1 s.index ∧ VoluSurf (blockGrid ![a, b, c]) c2 s.index ∧
        AllCoord (blockGrid ![a, b, c]) (VoluVert (blockGrid ![a, b, c]) c1) j (fun x => t ≤ x) ∧
        AllCoord (blockGrid ![a, b, c]) (VoluVert (blockGrid ![a, b, c]) c2) j (fun x => x ≤ t)) := by
  have hsm := small_mk (c := c) ha hb h
  have hd : ∀ j, 0 < (![a, b, c] : Dims) j := by
    intro j; fin_cases j
    · exact ha
    · exact hb
    · exact hc
  generalize (![a, b, c] : Dims) = d at *
  obtain ⟨i, p, hp, rfl⟩ := (mem_surfs hsm).1 hs
  refine ⟨rfl, ?_, (normal i).val, (normal i).isLt,
    (p (normal i) : ℚ) / ((max (d (normal i)) 1 : Nat) : ℚ), ?_, ?_⟩
  · exact (zero_iff hd hp).trans (boundary_iff hsm hd hp).symm
  · exact face_plane hsm hp
  · intro h0
    obtain ⟨b1, b2⟩ := two_cells hp h0
    refine ⟨voluNum d p, voluNum d (subProp p i), two_list hp b1 b2, ?_, ?_, ?_, ?_, ?_⟩
    · intro he
      have := congrFun ((voluNum_iff b1 b2).1 he) (normal i)
      fin_cases i <;> simp [subProp, surfProp, normal] at this <;> omega
    · exact (voluSurf_iff hsm b1).2 ((mem_voluSurfs b1 hp).2 (Or.inl rfl))
    · refine (voluSurf_iff hsm b2).2 ((mem_voluSurfs b2 hp).2 (Or.inr ?_))
      funext j
      simp only [addProp, subProp]
      omega
    · exact cell_front hsm b1
    · exact cell_behind hsm b2

/-- C32 is violated by a grid of 256 × 672 × 97 cells: a face of the plane y = 0 lists the outside, but one of
its vertices, with index 16777218, is given y = 1. -/
theorem C32_large_violated : ∃ s ∈ (blockGrid ![256, 672, 97]).surfs, 0 ∈ s.voluind ∧ ¬ OnBoundary (blockGrid ![256, 672, 97]) s.index := by
  have hm : blockSurf ![256, 672, 97] 33398784 ∈ (blockGrid ![256, 672, 97]).surfs :=
    surf_mem (by decide +kernel)
  refine ⟨_, hm, by decide +kernel, ?_⟩
  have hs : ∀ e, e ∈ (blockSurf ![256, 672, 97] 33398784).edgeind → SurfEdge (blockGrid ![256, 672, 97]) (blockSurf ![256, 672, 97] 33398784).index e :=
    fun e he => ⟨_, hm, rfl, he⟩
  have hv : ∀ v ∈ ([16604256, 16777217, 16777218] : List Nat), SurfVert (blockGrid ![256, 672, 97]) (blockSurf ![256, 672, 97] 33398784).index (blockVert ![256, 672, 97] v).index := by
    intro v hv
    fin_cases hv
    · exact ⟨16539649, hs _ (by decide +kernel), _, edge_mem (n := 16539648) (by decide +kernel), by decide +kernel, by decide +kernel⟩
    · exact ⟨16711937, hs _ (by decide +kernel), _, edge_mem (n := 16711936) (by decide +kernel), by decide +kernel, by decide +kernel⟩
    · exact ⟨16711937, hs _ (by decide +kernel), _, edge_mem (n := 16711936) (by decide +kernel), by decide +kernel, by decide +kernel⟩
  have hc : ∀ v ∈ ([16604256, 16777217, 16777218] : List Nat), ∀ j ok, AllCoord (blockGrid ![256, 672, 97]) (SurfVert (blockGrid ![256, 672, 97]) (blockSurf ![256, 672, 97] 33398784).index) j ok →
      ∃ c, (blockVert ![256, 672, 97] v).coord[j]? = some c ∧ ok c := by
    intro v hvm j ok h
    refine h.2 _ (vert_mem ?_) (hv v hvm)
    fin_cases hvm <;> decide +kernel
  have ha : (blockVert ![256, 672, 97] 16604256).coord = [0, 0, 96 / 97] := by decide +kernel
  have hb : (blockVert ![256, 672, 97] 16777217).coord = [0, 1, 1] := by decide +kernel
  have hd : (blockVert ![256, 672, 97] 16777218).coord = [1 / 256, 0, 1] := by decide +kernel
  rintro ⟨j, hj, h | h⟩
  · obtain ⟨x, h1, h2⟩ := hc 16604256 (by simp) j _ h
    obtain ⟨y, h3, h4⟩ := hc 16777217 (by simp) j _ h
    obtain ⟨z, h5, h6⟩ := hc 16777218 (by simp) j _ h
    rw [ha] at h1; rw [hb] at h3; rw [hd] at h5
    subst h2 h4 h6
    interval_cases j <;> simp at h1 h3 h5
  · obtain ⟨x, h1, h2⟩ := hc 16604256 (by simp) j _ h
    rw [ha] at h1
    subst h2
    interval_cases j <;> simp at h1
    norm_num at h1

/-! ### C69: geometry -/

/-- C69: vertices have coordinates in the unit cube, no two the same. -/
theorem C69_vertices_partial (a b c : Nat) (ha : 0 < a) (hb : 0 < b)
    (h : (a + 1) * (b + 1) * (c + 1) ≤ 2 ^ 24) (x y : Vert) (hx : x ∈ (blockGrid ![a, b, c]).verts)
    (hy : y ∈ (blockGrid ![a, b, c]).verts) :
    (x.coord.length = 3 ∧ ∀ t ∈ x.coord, 0 ≤ t ∧ t ≤ 1) ∧ (x.coord = y.coord → x = y) := by
  have hsm := small_mk (c := c) ha hb h
  generalize (![a, b, c] : Dims) = d at *
  obtain ⟨p, hp, rfl⟩ := (mem_verts hsm).1 hx
  obtain ⟨q, hq, rfl⟩ := (mem_verts hsm).1 hy
  refine ⟨⟨rfl, ?_⟩, ?_⟩
  · intro t ht
    have hj : ∃ j : Fin 3, t = (p j : ℚ) / ((max (d j) 1 : Nat) : ℚ) := by
      simp only [vertOf, vertCoord, List.mem_cons, List.not_mem_nil, or_false] at ht
      rcases ht with ht | ht | ht
      · exact ⟨0, ht⟩
      · exact ⟨1, ht⟩
      · exact ⟨2, ht⟩
    obtain ⟨j, rfl⟩ := hj
    exact coord_unit (hp j)
  · intro he
    have hpq : p = q := by
      funext j
      have h1 := coord_get (d := d) p j
      have h2 := coord_get (d := d) q j
      rw [he, h2] at h1
      exact (coord_inj (Option.some.inj h1)).symm
    rw [hpq]

/-- C69 is violated by a grid of 256 × 256 × 256 cells: the vertices with indices 16776961 and 16777218 have the
same coordinates. -/
theorem C69_large_violated : ∃ x ∈ (blockGrid ![256, 256, 256]).verts, ∃ y ∈ (blockGrid ![256, 256, 256]).verts,
    x.coord = y.coord ∧ x.index ≠ y.index :=
  ⟨_, vert_mem (n := 16776960) (by decide +kernel), _, vert_mem (n := 16777217) (by decide +kernel), by decide +kernel, by decide +kernel⟩

/-- C69: every edge is parallel to an axis, from a vertex to one at the spacing of the grid in this
direction. -/
theorem C69_edges_partial (a b c : Nat) (ha : 0 < a) (hb : 0 < b)
    (h : (a + 1) * (b + 1) * (c + 1) ≤ 2 ^ 24) (e : Edge) (he : e ∈ (blockGrid ![a, b, c]).edges) :
    ∃ (v w : Vert) (k : Fin 3), v ∈ (blockGrid ![a, b, c]).verts ∧ w ∈ (blockGrid ![a, b, c]).verts ∧
      e.vertind = [v.index, w.index] ∧ ∀ j : Fin 3, ∃ t : ℚ, v.coord[j.val]? = some t ∧
        w.coord[j.val]? = some (if j = k then t + 1 / ((![a, b, c] : Dims) j : ℚ) else t) := by
  have hsm := small_mk (c := c) ha hb h
  generalize (![a, b, c] : Dims) = d at *
  obtain ⟨k, r, hr, rfl⟩ := (mem_edges hsm).1 he
  obtain ⟨h1, h2⟩ := box_edge_vert hr
  refine ⟨_, _, k, (mem_verts hsm).2 ⟨_, h1, rfl⟩, (mem_verts hsm).2 ⟨_, h2, rfl⟩, rfl, fun j => ?_⟩
  refine ⟨_, coord_get r j, ?_⟩
  rw [coord_get]
  congr 1
  split
  · rename_i hjk
    subst hjk
    have hpos : 0 < d j := by
      have := (hr j)
      simp only [matEdge, edgeProp, if_true, Nat.add_zero] at this
      omega
    rw [Nat.max_eq_left hpos]
    simp only [edgeProp, if_true]
    push_cast
    ring
  · rename_i hjk
    have : edgeProp k j = 1 := by simp [edgeProp, Ne.symm hjk]
    rw [this]
    push_cast
    ring

/-- C69: the vertices of a cell are the eight corners of a box of the spacing of the grid. -/
theorem C69_cells_partial (a b c : Nat) (ha : 0 < a) (hb : 0 < b)
    (h : (a + 1) * (b + 1) * (c + 1) ≤ 2 ^ 24) (x : Volu) (hx : x ∈ (blockGrid ![a, b, c]).volus) :
    ∃ lo : Fin 3 → ℚ,
      (∀ v ∈ (blockGrid ![a, b, c]).verts, VoluVert (blockGrid ![a, b, c]) x.index v.index ↔
        ∀ j : Fin 3, v.coord[j.val]? = some (lo j) ∨
          v.coord[j.val]? = some (lo j + 1 / ((![a, b, c] : Dims) j : ℚ))) ∧
      ∀ up : Fin 3 → Bool, ∃ v ∈ (blockGrid ![a, b, c]).verts, ∀ j : Fin 3,
        v.coord[j.val]? = some (if up j then lo j + 1 / ((![a, b, c] : Dims) j : ℚ) else lo j) := by
  have hsm := small_mk (c := c) ha hb h
  generalize (![a, b, c] : Dims) = d at *
  obtain ⟨q, hq, rfl⟩ := (mem_volus hsm).1 hx
  have hpos : ∀ j, 0 < d j := fun j => by have := hq j; omega
  have hmax : ∀ j, max (d j) 1 = d j := fun j => Nat.max_eq_left (hpos j)
  have hstep : ∀ j : Fin 3, (q j : ℚ) / ((max (d j) 1 : Nat) : ℚ) + 1 / (d j : ℚ) =
      ((q j + 1 : Int) : ℚ) / ((max (d j) 1 : Nat) : ℚ) := by
    intro j
    rw [hmax]; push_cast; ring
  refine ⟨fun j => (q j : ℚ) / ((max (d j) 1 : Nat) : ℚ), ?_, ?_⟩
  · intro v hv
    obtain ⟨r, hr, rfl⟩ := (mem_verts hsm).1 hv
    have := voluVert_iff hsm hq hr
    refine this.trans (forall_congr' fun j => ?_)
    rw [coord_get, hstep]
    constructor
    · rintro (e | e)
      · left; rw [e]
      · right; rw [e]
    · rintro (e | e)
      · exact Or.inl (coord_inj (Option.some.inj e))
      · exact Or.inr (coord_inj (Option.some.inj e))
  · intro up
    refine ⟨vertOf d (fun j => q j + if up j then 1 else 0), (mem_verts hsm).2 ⟨_, ?_, rfl⟩, ?_⟩
    · intro j
      have := hq j
      simp only [vDims]
      split <;> omega
    · intro j
      rw [coord_get]
      congr 1
      split
      · rw [hstep]
      · simp

example : ∃ x ∈ (blockGrid ![2, 3, 1]).volus, x.surfind = [4, 16, 25, 10, 18, 26] := by decide +kernel

end RSVS.Props
