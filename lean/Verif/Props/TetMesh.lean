import Verif.Lemmas.MeshCheck
import Verif.Lemmas.OrderMesh
import Verif.Lemmas.TetMesh

/-!
# C103: the mesh of a tetrahedral mesher is translated faithfully
-/

namespace RSVS.Props

open RSVS.TetMesh RSVS.Spec RSVS.Mesh

theorem tets_result {t : TetOut} {l : List Int} (h : TetValid t l) (rand : Nat → ℚ) : ∃ m, tet2Mesh rand t = .ok m ∧
    m.verts = (List.range t.numberofpoints).map (fun k => tightenVert (vertAt t (slots t.numberofpoints 3) ((List.range t.numberofedges).flatMap fun i => [(i, 0), (i, 1)]) k)) ∧
    m.edges = (List.range t.numberofedges).map (fun k => { edgeAt t (List.range t.numberofedges) (slots t.numberoftrifaces 3) k with
      surfind := sortUnique (edgeAt t (List.range t.numberofedges) (slots t.numberoftrifaces 3) k).surfind }) ∧
    m.surfs = (List.range t.numberoftrifaces).map (fun k => tightenSurf (surfAt t l (slots t.numberoftetrahedra 4) (slots t.numberoftrifaces 3) k)) ∧
    ∃ f : Nat → Volu, m.volus = (List.range t.numberoftetrahedra).map f ∧ ∀ k, (f k).index = k + 1 ∧
      (f k).surfind = sortUnique (voluAt t l (slots t.numberoftetrahedra 4) k).surfind := by
  unfold tet2Mesh
  rw [h.faces]
  simp only
  rw [loops_ok h]
  simp only [Except.bind]
  refine ⟨_, RSVS.Refine.tighten_eq ?_, ?_, ?_, ?_, fun k => tightenVolu { voluAt t l (slots t.numberoftetrahedra 4) k with target := rand k, fill := rand k, error := rand k }, ?_,
    fun k => ⟨rfl, rfl⟩⟩
  · intro e he
    have he : e ∈ (List.range t.numberofedges).map (edgeAt t (List.range t.numberofedges) (slots t.numberoftrifaces 3)) := he
    obtain ⟨k, hk, rfl⟩ := List.mem_map.mp he
    simp only [edgeAt]
    split_ifs
    all_goals simp
  · show List.map _ (List.map _ _) = _
    rw [List.map_map]; rfl
  · show List.map _ (List.map _ _) = _
    rw [List.map_map]; rfl
  · show List.map _ (List.map _ _) = _
    rw [List.map_map]; rfl
  · show List.map _ (List.mapIdx _ (List.map _ _)) = _
    apply List.ext_getElem
    · simp
    · intro i h1 h2
      simp

theorem exists_slot {f : Nat × Nat → Prop} {n c : Nat} : (∃ s ∈ slots n c, f s) ↔ ∃ i < n, ∃ j < c, f (i, j) := by
  constructor
  · rintro ⟨s, hs, h⟩
    obtain ⟨h1, h2⟩ := mem_slots.mp hs
    exact ⟨s.1, h1, s.2, h2, h⟩
  · rintro ⟨i, hi, j, hj, h⟩
    exact ⟨(i, j), mem_slots.mpr ⟨hi, hj⟩, h⟩

theorem slots_range (n c : Nat) : (slots n c).map (fun s => s.1 * c + s.2) = List.range (n * c) := by
  induction n with
  | zero => simp [slots]
  | succ n ih =>
    unfold slots at ih ⊢
    rw [List.range_succ, List.flatMap_append, List.map_append, ih, Nat.succ_mul, List.range_add]
    congr 1
    simp [Function.comp_def]

/-- C103: for every complete output of the mesher with numbers in range, counted from 0 or from 1, the mesh has its points, edges, faces and
tetrahedra with their connections, numbered from 1; all connections go both ways, nothing is listed twice, and the outside is listed exactly
by the faces of a single tetrahedron. -/
theorem C103_mesh {t : TetOut} {l : List Int} (h : TetValid t l) (rand : Nat → ℚ) :
    ∃ m, tet2Mesh rand t = .ok m ∧ FromTets t l m ∧ Sound m := by
  obtain ⟨m, hm, hv, he, hs, f, hc, hf⟩ := tets_result h rand
  have hasV : ∀ i, HasVert m i ↔ ∃ k < t.numberofpoints, i = k + 1 := by
    intro i
    simp only [HasVert, hv, List.mem_map, List.mem_range, exists_exists_and_eq_and, tightenVert, vertAt]
    constructor <;> rintro ⟨k, hk, e⟩ <;> exact ⟨k, hk, e.symm⟩
  have hasE : ∀ i, HasEdge m i ↔ ∃ k < t.numberofedges, i = k + 1 := by
    intro i
    simp only [HasEdge, he, List.mem_map, List.mem_range, exists_exists_and_eq_and, edgeAt]
    constructor <;> rintro ⟨k, hk, e⟩ <;> exact ⟨k, hk, e.symm⟩
  have hasS : ∀ i, HasSurf m i ↔ ∃ k < t.numberoftrifaces, i = k + 1 := by
    intro i
    simp only [HasSurf, hs, List.mem_map, List.mem_range, exists_exists_and_eq_and, tightenSurf, surfAt]
    constructor <;> rintro ⟨k, hk, e⟩ <;> exact ⟨k, hk, e.symm⟩
  have hasC : ∀ i, HasVolu m i ↔ ∃ k < t.numberoftetrahedra, i = k + 1 := by
    intro i
    simp only [HasVolu, hc, List.mem_map, List.mem_range, exists_exists_and_eq_and, (hf _).1]
    constructor <;> rintro ⟨k, hk, e⟩ <;> exact ⟨k, hk, e.symm⟩
  have hdi := fun x => deincr_eq h x
  have hin := fun x => incr_eq h x
  have vertEdge : ∀ v e, VertEdge m v e ↔ ∃ k < t.numberofpoints, v = k + 1 ∧ ∃ i < t.numberofedges, e = i + 1 ∧ ∃ j < 2, ev t (i, j) - t.firstnumber = k := by
    intro v e
    simp only [VertEdge, hv, List.mem_map, List.mem_range, exists_exists_and_eq_and, tightenVert, vertAt, mem_sortUnique, List.mem_filter, List.mem_flatMap,
      names, hdi, decide_eq_true_eq, List.mem_cons, List.not_mem_nil, or_false]
    constructor
    · rintro ⟨k, hk, rfl, s, ⟨⟨i, hi, hs⟩, hsk⟩, rfl⟩
      rcases hs with rfl | rfl
      · exact ⟨k, hk, rfl, i, hi, rfl, 0, by decide, hsk⟩
      · exact ⟨k, hk, rfl, i, hi, rfl, 1, by decide, hsk⟩
    · rintro ⟨k, hk, rfl, i, hi, rfl, j, hj, hsk⟩
      refine ⟨k, hk, rfl, (i, j), ⟨⟨i, hi, ?_⟩, hsk⟩, rfl⟩
      interval_cases j <;> simp
  have edgeVert : ∀ e v, EdgeVert m e v ↔ ∃ i < t.numberofedges, e = i + 1 ∧ ∃ j < 2, v = ev t (i, j) - t.firstnumber + 1 := by
    intro e v
    simp only [EdgeVert, he, List.mem_map, List.mem_range, exists_exists_and_eq_and, edgeAt, hin]
    constructor
    · rintro ⟨k, hk, rfl, hx⟩
      rw [if_pos hk] at hx
      simp only [List.mem_cons, List.not_mem_nil, or_false] at hx
      rcases hx with rfl | rfl
      · exact ⟨k, hk, rfl, 0, by decide, rfl⟩
      · exact ⟨k, hk, rfl, 1, by decide, rfl⟩
    · rintro ⟨k, hk, rfl, j, hj, rfl⟩
      refine ⟨k, hk, rfl, ?_⟩
      rw [if_pos hk]
      interval_cases j <;> simp
  have edgeSurf : ∀ e s, EdgeSurf m e s ↔ ∃ k < t.numberofedges, e = k + 1 ∧ ∃ i < t.numberoftrifaces, s = i + 1 ∧ ∃ j < 3, fe t (i, j) - t.firstnumber = k := by
    intro e s
    simp only [EdgeSurf, he, List.mem_map, List.mem_range, exists_exists_and_eq_and, edgeAt, mem_sortUnique, List.mem_filter, names, hdi, decide_eq_true_eq]
    constructor
    · rintro ⟨k, hk, rfl, x, ⟨hx, hxk⟩, rfl⟩
      obtain ⟨h1, h2⟩ := mem_slots.mp hx
      exact ⟨k, hk, rfl, x.1, h1, rfl, x.2, h2, hxk⟩
    · rintro ⟨k, hk, rfl, i, hi, rfl, j, hj, hx⟩
      exact ⟨k, hk, rfl, (i, j), ⟨mem_slots.mpr ⟨hi, hj⟩, hx⟩, rfl⟩
  have surfEdge : ∀ s e, SurfEdge m s e ↔ ∃ i < t.numberoftrifaces, s = i + 1 ∧ ∃ j < 3, e = fe t (i, j) - t.firstnumber + 1 := by
    intro s e
    simp only [SurfEdge, hs, List.mem_map, List.mem_range, exists_exists_and_eq_and, tightenSurf, surfAt, mem_sortUnique, List.mem_filter, hin, decide_eq_true_eq]
    constructor
    · rintro ⟨k, hk, rfl, x, ⟨hx, rfl⟩, rfl⟩
      exact ⟨x.1, hk, rfl, x.2, (mem_slots.mp hx).2, rfl⟩
    · rintro ⟨i, hi, rfl, j, hj, rfl⟩
      exact ⟨i, hi, rfl, (i, j), ⟨mem_slots.mpr ⟨hi, hj⟩, rfl⟩, rfl⟩
  have voluSurf : ∀ c s, VoluSurf m c s ↔ ∃ i < t.numberoftetrahedra, c = i + 1 ∧ ∃ j < 4, s = tf l (i, j) - t.firstnumber + 1 := by
    intro c s
    simp only [VoluSurf, hc, List.mem_map, List.mem_range, exists_exists_and_eq_and, (hf _).1, (hf _).2, voluAt, mem_sortUnique, List.mem_filter, hin, decide_eq_true_eq]
    constructor
    · rintro ⟨k, hk, rfl, x, ⟨hx, rfl⟩, rfl⟩
      exact ⟨x.1, hk, rfl, x.2, (mem_slots.mp hx).2, rfl⟩
    · rintro ⟨i, hi, rfl, j, hj, rfl⟩
      exact ⟨i, hi, rfl, (i, j), ⟨mem_slots.mpr ⟨hi, hj⟩, rfl⟩, rfl⟩
  have surfVolu : ∀ s c, SurfVolu m s c ↔ (∃ k < t.numberoftrifaces, s = k + 1 ∧ ∃ i < t.numberoftetrahedra, c = i + 1 ∧ ∃ j < 4, tf l (i, j) - t.firstnumber = k) ∨
      c = 0 ∧ ∃ k < t.numberoftrifaces, s = k + 1 ∧ ((slots t.numberoftetrahedra 4).filter (names t (tf l) k)).length = 1 := by
    intro s c
    simp only [SurfVolu, hs, List.mem_map, List.mem_range, exists_exists_and_eq_and, tightenSurf, surfAt, mem_sortUnique, List.mem_append]
    constructor
    · rintro ⟨k, hk, rfl, hx | hx⟩
      · obtain ⟨x, hx, rfl⟩ := hx
        rw [List.mem_filter] at hx
        obtain ⟨h1, h2⟩ := mem_slots.mp hx.1
        have h3 := hx.2
        simp only [names, decide_eq_true_eq] at h3
        rw [hdi] at h3
        exact Or.inl ⟨k, hk, rfl, x.1, h1, rfl, x.2, h2, h3⟩
      · split_ifs at hx with h1
        · simp only [List.mem_singleton] at hx
          exact Or.inr ⟨hx, k, hk, rfl, h1⟩
        · simp at hx
    · rintro (⟨k, hk, rfl, i, hi, rfl, j, hj, hx⟩ | ⟨rfl, k, hk, rfl, hx⟩)
      · refine ⟨k, hk, rfl, Or.inl ⟨(i, j), ?_, rfl⟩⟩
        rw [List.mem_filter]
        refine ⟨mem_slots.mpr ⟨hi, hj⟩, ?_⟩
        simp only [names, decide_eq_true_eq]
        rw [hdi]; exact hx
      · refine ⟨k, hk, rfl, Or.inr ?_⟩
        rw [if_pos hx]; simp
  have evR : ∀ i j, i < t.numberofedges → j < 2 → 0 ≤ ev t (i, j) - t.firstnumber ∧ ev t (i, j) - t.firstnumber < t.numberofpoints := by
    intro i j hi hj
    have := h.edges.2 (i * 2 + j) (by omega)
    unfold ev
    simp only
    omega
  have feR : ∀ i j, i < t.numberoftrifaces → j < 3 → 0 ≤ fe t (i, j) - t.firstnumber ∧ fe t (i, j) - t.firstnumber < t.numberofedges := by
    intro i j hi hj
    have := h.tris.2 (i * 3 + j) (by omega)
    unfold fe
    simp only
    omega
  have tfR : ∀ i j, i < t.numberoftetrahedra → j < 4 → 0 ≤ tf l (i, j) - t.firstnumber ∧ tf l (i, j) - t.firstnumber < t.numberoftrifaces := by
    intro i j hi hj
    have := h.tets.2 (i * 4 + j) (by omega)
    unfold tf
    simp only
    omega
  have huses : ∀ k : Nat, ((slots t.numberoftetrahedra 4).filter (names t (tf l) k)).length = timesUsed t l (k + 1) := by
    intro k
    unfold timesUsed
    rw [← slots_range, List.countP_map, ← List.countP_eq_length_filter]
    apply List.countP_congr
    intro s _
    simp only [names, hdi, decide_eq_true_eq, Function.comp, tf]
    omega
  refine ⟨m, hm, ⟨?_, ?_, hasS, hasC, ?_, ?_, ?_, ?_⟩, ⟨?_, ?_, ?_, ?_, ?_⟩⟩
  · intro i c
    simp only [hv, List.mem_map, List.mem_range, exists_exists_and_eq_and, tightenVert, vertAt]
    constructor
    · rintro ⟨k, hk, rfl, rfl⟩
      refine ⟨k, hk, rfl, ?_⟩
      have : ∀ j < 3, (k, j) ∈ slots t.numberofpoints 3 := fun j hj => mem_slots.mpr ⟨hk, hj⟩
      simp [List.range_succ, this, mul_comm]
    · rintro ⟨k, hk, rfl, rfl⟩
      refine ⟨k, hk, rfl, ?_⟩
      have : ∀ j < 3, (k, j) ∈ slots t.numberofpoints 3 := fun j hj => mem_slots.mpr ⟨hk, hj⟩
      simp [List.range_succ, this, mul_comm]
  · intro i c
    simp only [he, List.mem_map, List.mem_range, exists_exists_and_eq_and, edgeAt]
    constructor
    · rintro ⟨k, hk, rfl, rfl⟩
      refine ⟨k, hk, rfl, ?_⟩
      rw [if_pos hk, hin, hin]
      simp [ev, mul_comm]
    · rintro ⟨k, hk, rfl, rfl⟩
      refine ⟨k, hk, rfl, ?_⟩
      rw [if_pos hk, hin, hin]
      simp [ev, mul_comm]
  · intro s e
    rw [surfEdge]
    simp only [fe, mul_comm 3]
  · intro c s
    rw [voluSurf]
    simp only [tf, mul_comm 4]
  · intro s
    rw [surfVolu, hasS]
    constructor
    · rintro (⟨k, hk, rfl, i, hi, h0, -⟩ | ⟨-, k, hk, rfl, h1⟩)
      · omega
      · exact ⟨⟨k, hk, rfl⟩, by rw [← huses]; exact h1⟩
    · rintro ⟨⟨k, hk, rfl⟩, h1⟩
      exact Or.inr ⟨rfl, k, hk, rfl, by rw [huses]; exact h1⟩
  · refine ⟨?_, ?_, ?_, ?_⟩
    · rw [hv]; intro v hx
      obtain ⟨k, -, rfl⟩ := List.mem_map.mp hx
      exact RSVS.Order.nodup_sortUnique _
    · rw [he]; intro v hx
      obtain ⟨k, -, rfl⟩ := List.mem_map.mp hx
      exact RSVS.Order.nodup_sortUnique _
    · rw [hs]; intro v hx
      obtain ⟨k, -, rfl⟩ := List.mem_map.mp hx
      exact ⟨RSVS.Order.nodup_sortUnique _, RSVS.Order.nodup_sortUnique _⟩
    · rw [hc]; intro v hx
      obtain ⟨k, -, rfl⟩ := List.mem_map.mp hx
      rw [(hf k).2]
      exact RSVS.Order.nodup_sortUnique _
  · have key : ∀ n : Nat, ((List.range n).map fun k : Nat => (k : Int) + 1).Nodup := fun n =>
      List.nodup_range.map fun a b e => by simpa using e
    refine ⟨?_, ?_, ?_, ?_⟩
    · rw [hv, List.map_map]; exact key _
    · rw [he, List.map_map]; exact key _
    · rw [hs, List.map_map]; exact key _
    · rw [hc, List.map_map]
      have : (Volu.index ∘ f) = fun k : Nat => (k : Int) + 1 := funext fun k => (hf k).1
      rw [this]; exact key _
  · refine ⟨?_, ?_, ?_, ?_⟩
    · intro i hi; obtain ⟨k, -, rfl⟩ := (hasV i).mp hi; omega
    · intro i hi; obtain ⟨k, -, rfl⟩ := (hasE i).mp hi; omega
    · intro i hi; obtain ⟨k, -, rfl⟩ := (hasS i).mp hi; omega
    · intro i hi; obtain ⟨k, -, rfl⟩ := (hasC i).mp hi; omega
  · refine ⟨?_, ?_, ?_, ?_, ?_, ?_⟩
    · intro v e hve _
      obtain ⟨k, hk, rfl, i, hi, rfl, -⟩ := (vertEdge v e).mp hve
      exact (hasE _).mpr ⟨i, hi, rfl⟩
    · intro e v hev _
      obtain ⟨i, hi, rfl, j, hj, rfl⟩ := (edgeVert e v).mp hev
      have := evR i j hi hj
      exact (hasV _).mpr ⟨(ev t (i, j) - t.firstnumber).toNat, by omega, by omega⟩
    · intro e s hes _
      obtain ⟨k, hk, rfl, i, hi, rfl, -⟩ := (edgeSurf e s).mp hes
      exact (hasS _).mpr ⟨i, hi, rfl⟩
    · intro s e hse
      obtain ⟨i, hi, rfl, j, hj, rfl⟩ := (surfEdge s e).mp hse
      have := feR i j hi hj
      exact (hasE _).mpr ⟨(fe t (i, j) - t.firstnumber).toNat, by omega, by omega⟩
    · intro s c hsc hc0
      rcases (surfVolu s c).mp hsc with ⟨k, hk, rfl, i, hi, rfl, -⟩ | ⟨e, -⟩
      · exact (hasC _).mpr ⟨i, hi, rfl⟩
      · exact absurd e hc0
    · intro c s hcs _
      obtain ⟨i, hi, rfl, j, hj, rfl⟩ := (voluSurf c s).mp hcs
      have := tfR i j hi hj
      exact (hasS _).mpr ⟨(tf l (i, j) - t.firstnumber).toNat, by omega, by omega⟩
  · refine ⟨?_, ?_, ?_, ?_⟩
    · intro v hve
      obtain ⟨k, hk, rfl, i, hi, h0, -⟩ := (vertEdge v 0).mp hve
      omega
    · intro e hev
      obtain ⟨i, hi, rfl, j, hj, h0⟩ := (edgeVert e 0).mp hev
      have := evR i j hi hj
      omega
    · intro s hse
      obtain ⟨i, hi, rfl, j, hj, h0⟩ := (surfEdge s 0).mp hse
      have := feR i j hi hj
      omega
    · intro c hcs
      obtain ⟨i, hi, rfl, j, hj, h0⟩ := (voluSurf c 0).mp hcs
      have := tfR i j hi hj
      omega
  · refine ⟨?_, ?_, ?_⟩
    · intro v e _ _
      rw [vertEdge, edgeVert]
      constructor
      · rintro ⟨k, hk, rfl, i, hi, rfl, j, hj, hx⟩
        exact ⟨i, hi, rfl, j, hj, by omega⟩
      · rintro ⟨i, hi, rfl, j, hj, rfl⟩
        have := evR i j hi hj
        exact ⟨(ev t (i, j) - t.firstnumber).toNat, by omega, by omega, i, hi, rfl, j, hj, by omega⟩
    · intro e s _ _
      rw [edgeSurf, surfEdge]
      constructor
      · rintro ⟨k, hk, rfl, i, hi, rfl, j, hj, hx⟩
        exact ⟨i, hi, rfl, j, hj, by omega⟩
      · rintro ⟨i, hi, rfl, j, hj, rfl⟩
        have := feR i j hi hj
        exact ⟨(fe t (i, j) - t.firstnumber).toNat, by omega, by omega, i, hi, rfl, j, hj, by omega⟩
    · intro s c _ hcv
      rw [surfVolu, voluSurf]
      constructor
      · rintro (⟨k, hk, rfl, i, hi, rfl, j, hj, hx⟩ | ⟨rfl, -⟩)
        · exact ⟨i, hi, rfl, j, hj, by omega⟩
        · obtain ⟨k, -, h0⟩ := (hasC 0).mp hcv
          omega
      · rintro ⟨i, hi, rfl, j, hj, rfl⟩
        have := tfR i j hi hj
        exact Or.inl ⟨(tf l (i, j) - t.firstnumber).toNat, by omega, by omega, i, hi, rfl, j, hj, by omega⟩

/-- Without the list of faces the translation throws. -/
theorem C103_throws (t : TetOut) (h : t.tet2facelist = none) (rand : Nat → ℚ) : tet2Mesh rand t = .error .throws := by
  unfold tet2Mesh
  rw [h]

/-- Two tetrahedra with a common face, counted from 1. -/
def twoTets : TetOut where
  firstnumber := 1
  numberofpoints := 5
  pointlist := [0, 0, 0, 1, 0, 0, 0, 1, 0, 0, 0, 1, 1, 1, 1]
  numberofedges := 9
  edgelist := [1, 2, 1, 3, 1, 4, 2, 3, 2, 4, 3, 4, 2, 5, 3, 5, 4, 5]
  numberoftrifaces := 7
  face2edgelist := [4, 5, 6, 1, 2, 4, 1, 3, 5, 2, 3, 6, 4, 7, 8, 5, 7, 9, 6, 8, 9]
  numberoftetrahedra := 2
  tet2facelist := some [1, 2, 3, 4, 1, 5, 6, 7]

/-- The hypotheses of `C103_mesh` hold for two tetrahedra, and the outside is not listed by the common face alone. -/
example : TetValid twoTets [1, 2, 3, 4, 1, 5, 6, 7] ∧ (tet2Mesh (fun _ => 0) twoTets).toOption.map (fun m => m.surfs.map Surf.voluind) =
    some [[1, 2], [0, 1], [0, 1], [0, 1], [0, 2], [0, 2], [0, 2]] := by
  refine ⟨⟨Or.inr rfl, rfl, by decide, ⟨by decide, by decide⟩, ⟨by decide, by decide⟩, ⟨by decide, by decide⟩⟩, by decide +kernel⟩

end RSVS.Props
