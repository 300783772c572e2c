import Verif.Lemmas.LaplacianMesh
import Verif.Props.Mesh
import Verif.Props.VertNormal

/-!
# C127: the Laplacian at a vertex
-/

namespace RSVS.Props

open RSVS RSVS.Mesh RSVS.Geo RSVS.Spec RSVS.VertNormal RSVS.Laplacian

variable {K : Type} [Field K] [LinearOrder K] [IsStrictOrderedRing K]

/-- C127: in a sound mesh where each edge has two ends, at a vertex whose edges make a ring with triangles which have an area,
`VertexLaplacianVector` succeeds.  Its vector is the sum of the directions in which the areas of the triangles shrink over the sum of
their weights, or zero if this is shorter than the tolerance. -/
theorem C127_vertex_partial {m : Mesh} (hm : Sound m) (h2 : TwoEnds m) {tab : List Int → Table} (ht : ∀ l, IsTable l (tab l)) {v : Vert}
    (hv : v ∈ m.verts) {co : Int → P3 K} (ho : OpenVert m co v) {len : P3 K → K} (hl : IsLen len) {ang : P3 K → P3 K → K}
    {cot : K → Option K} (hc : IsCot len ang cot) (eps : K) :
    ∃ r pts, RingAround m co v r pts ∧
      ∀ old, vertexLaplacian len ang cot eps tab m co v false old = .ok (cutShort len eps (cotLaplacian len (co v.index) pts), true) :=
  vertex_lap hm h2 ht hv ho hl hc eps

/-- C127: the Laplacian does not depend on the point at which the ring starts, nor on its direction. -/
theorem C127_ring {len : P3 K → K} (hl : IsLen len) (c : P3 K) (pts : List (P3 K)) (n : Nat) :
    cotLaplacian len c (pts.rotate n) = cotLaplacian len c pts ∧ cotLaplacian len c pts.reverse = cotLaplacian len c pts := by
  refine ⟨lap_perm ?_, ?_⟩
  · rw [fanPairs_rotate]
    exact List.rotate_perm _ _
  · funext i
    unfold cotLaplacian
    rw [((fan_reverse pts).map _).sum_eq, ((fan_reverse pts).map (sideWeight len c)).sum_eq, List.map_map, List.map_map]
    simp only [Function.comp_def, pull_swap hl, side_swap hl]

/-- C127: where the triangles around a vertex are in one plane and go round it in one direction, the Laplacian is zero. -/
theorem C127_flat {len : P3 K → K} (hl : IsLen len) {c n : P3 K} {pts : List (P3 K)} (hn : n ≠ 0) (h : FlatAround c n pts) :
    cotLaplacian len c pts = 0 := flat_zero hl hn h

/-- A ring in a plane, with `c` away from the mean of its points. -/
example {len : P3 K → K} (hl : IsLen len) : cotLaplacian len 0 [![2, 0, 5], ![0, 1, 0], ![-1, -1, -3 + 1 / 2]] = 0 := by
  refine C127_flat hl (n := ![5, 0, -2]) (fun h => by simpa using congrFun h 0) fun q hq => ?_
  simp only [fanPairs, List.rotate_cons_succ, List.rotate_zero, List.cons_append, List.nil_append, List.zip_cons_cons,
    List.zip_nil_right, List.mem_cons, List.not_mem_nil, or_false] at hq
  rcases hq with rfl | rfl | rfl
  · exact ⟨1, one_pos, fun i => by fin_cases i <;> simp [cornerNormal]⟩
  · exact ⟨1 / 2, by norm_num, fun i => by fin_cases i <;> simp [cornerNormal] <;> norm_num⟩
  · exact ⟨1, one_pos, fun i => by fin_cases i <;> simp [cornerNormal] <;> norm_num⟩

/-- C127: if all points of the ring are at the same distance along a direction from the vertex, so is the Laplacian. -/
theorem C127_height {len : P3 K → K} (hl : IsLen len) {c d : P3 K} {pts : List (P3 K)} (hne : pts ≠ [])
    (h : ∀ q ∈ fanPairs pts, cornerNormal c q.1 q.2 ≠ 0) {t : K} (ht : ∀ p ∈ pts, Spec.inner d (fun i => p i - c i) = t) :
    Spec.inner d (cotLaplacian len c pts) = t := lap_height hl hne h ht

/-- The angle of the code is `arccos`, its cotangent `tan (π / 2 - x)`. -/
theorem realCot_isCot : IsCot (fun v : P3 ℝ => Real.sqrt (Spec.inner v v)) realAngle fun x => some (Real.tan (Real.pi / 2 - x)) := by
  intro a b h
  have la := realLen_isLen a
  have lb := realLen_isLen b
  have lN := realLen_isLen (cornerNormal 0 b a)
  simp only at la lb lN
  have lag : Spec.inner a b * Spec.inner a b + Spec.inner (cornerNormal 0 b a) (cornerNormal 0 b a) = Spec.inner a a * Spec.inner b b := by
    simp only [Spec.inner, Fin.sum_univ_three, cornerNormal, Pi.zero_apply, sub_zero, Matrix.cons_val_zero, Matrix.cons_val_one,
      Matrix.cons_val]
    ring
  have hN : Real.sqrt (Spec.inner (cornerNormal 0 b a) (cornerNormal 0 b a)) ≠ 0 := fun h0 => h (len_zero realLen_isLen h0)
  unfold realAngle
  simp only
  rw [Real.arccos_eq_pi_div_two_sub_arcsin, sub_sub_cancel, Real.tan_arcsin]
  generalize Real.sqrt (Spec.inner a a) = x at la ⊢
  generalize Real.sqrt (Spec.inner b b) = y at lb ⊢
  generalize Real.sqrt (Spec.inner (cornerNormal 0 b a) (cornerNormal 0 b a)) = z at lN hN ⊢
  have hz : 0 < z := lt_of_le_of_ne lN.1 hN.symm
  have hxy : 0 < x * y := by
    refine lt_of_le_of_ne (mul_nonneg la.1 lb.1) fun h0 => ?_
    have : Spec.inner a a * Spec.inner b b = 0 := by
      rw [← la.2, ← lb.2, mul_mul_mul_comm, ← h0, mul_zero]
    rw [this, ← lN.2] at lag
    nlinarith [mul_self_nonneg (Spec.inner a b), mul_pos hz hz]
  have e : 1 - (Spec.inner a b / (x * y)) ^ 2 = (z / (x * y)) ^ 2 := by
    rw [div_pow, div_pow, eq_div_iff (by positivity), sub_mul, div_mul_cancel₀ _ (by positivity)]
    have : (x * y) ^ 2 = Spec.inner a a * Spec.inner b b := by rw [← la.2, ← lb.2]; ring
    rw [one_mul, this, ← lag, ← lN.2]
    ring
  rw [e, Real.sqrt_sq (by positivity)]
  rw [div_div_div_cancel_right₀ hxy.ne']

/-- A tetrahedron and a vertex without edges. -/
def loneTet : Mesh := { tetra with verts := tetra.verts ++ [⟨5, [], [9, 9, 9], false⟩] }

/-- The coordinates of the tetrahedron. -/
def loneCo (K : Type) [Field K] (i : Int) : P3 K :=
  if i = 1 then ![0, 0, 0] else if i = 2 then ![1, 0, 0] else if i = 3 then ![0, 1, 0] else if i = 4 then ![0, 0, 1] else ![9, 9, 9]

theorem loneCo_corner {v a b : Int} (hv : v ∈ [(1 : Int), 2, 3, 4]) (ha : a ∈ [(1 : Int), 2, 3, 4]) (hb : b ∈ [(1 : Int), 2, 3, 4])
    (h1 : v ≠ a) (h2 : v ≠ b) (h3 : a ≠ b) : cornerNormal (loneCo K v) (loneCo K a) (loneCo K b) ≠ 0 := by
  simp only [List.mem_cons, List.not_mem_nil, or_false] at hv ha hb
  rcases hv with rfl | rfl | rfl | rfl <;> rcases ha with rfl | rfl | rfl | rfl <;>
    first
      | exact absurd rfl h1
      | (rcases hb with rfl | rfl | rfl | rfl <;>
          first
            | exact absurd rfl h2
            | exact absurd rfl h3
            | (intro h
               have g0 := congrFun h 0
               have g1 := congrFun h 1
               have g2 := congrFun h 2
               simp [loneCo, cornerNormal] at g0 g1 g2))

theorem loneTet_ring {r ws : List Int} (h3 : 3 ≤ r.length) (hn : r.Nodup)
    (hc : ∀ k < r.length, ∃ x ∈ tetra.edges, x.index = r.getD k 0 ∧
      (x.surfind = [ws.getD k 0, ws.getD (k + 1) 0] ∨ x.surfind = [ws.getD (k + 1) 0, ws.getD k 0]))
    (he : ws.getD r.length 0 = ws.getD 0 0) (hi : ∀ i < r.length, ∀ j < r.length, ws.getD i 0 = ws.getD j 0 → i = j) :
    3 ≤ r.length ∧ r.Nodup ∧ (∀ e, e ∈ r ↔ e ∈ r) ∧ IsLoop (EdgeParts loneTet) r := by
  refine ⟨h3, hn, fun e => Iff.rfl, fun k => ws.getD k 0, fun k e hk => ?_, he, fun i j hi' hj => hi i hi' j hj⟩
  obtain ⟨hk', rfl⟩ := List.getElem?_eq_some_iff.1 hk
  obtain ⟨x, hx, hxi, hxs⟩ := hc k hk'
  exact ⟨x, hx, by simpa [hk'] using hxi, hxs⟩

theorem loneTet_open : ∀ v ∈ tetra.verts, OpenVert loneTet (loneCo K) v := by
  intro v hv
  refine ⟨?_, ?_⟩
  · simp only [tetra, List.mem_cons, List.not_mem_nil, or_false] at hv
    rcases hv with rfl | rfl | rfl | rfl
    · exact ⟨[1, 2, 3], loneTet_ring (ws := [2, 1, 3, 2]) (by decide) (by decide) (by decide +kernel) rfl (by decide)⟩
    · exact ⟨[1, 4, 5], loneTet_ring (ws := [2, 1, 4, 2]) (by decide) (by decide) (by decide +kernel) rfl (by decide)⟩
    · exact ⟨[2, 4, 6], loneTet_ring (ws := [3, 1, 4, 3]) (by decide) (by decide) (by decide +kernel) rfl (by decide)⟩
    · exact ⟨[3, 5, 6], loneTet_ring (ws := [3, 2, 4, 3]) (by decide) (by decide) (by decide +kernel) rfl (by decide)⟩
  · rintro e e' a b s hne ⟨x, hx, rfl, hxv⟩ ⟨y, hy, rfl, hyv⟩ - -
    have hvi : v.index ∈ [(1 : Int), 2, 3, 4] := (show ∀ v ∈ tetra.verts, v.index ∈ [(1 : Int), 2, 3, 4] by decide) v hv
    have hin : ∀ x ∈ loneTet.edges, ∀ c ∈ x.vertind, c ∈ [(1 : Int), 2, 3, 4] := by decide
    have ha : a ∈ [(1 : Int), 2, 3, 4] := hin x hx a (by rcases hxv with h | h <;> rw [h] <;> simp)
    have hb : b ∈ [(1 : Int), 2, 3, 4] := hin y hy b (by rcases hyv with h | h <;> rw [h] <;> simp)
    have hd : ∀ x ∈ loneTet.edges, ∀ y ∈ loneTet.edges, x.index ≠ y.index → ∀ v ∈ [(1 : Int), 2, 3, 4], ∀ a ∈ [(1 : Int), 2, 3, 4],
        (x.vertind = [v, a] ∨ x.vertind = [a, v]) → ∀ b ∈ [(1 : Int), 2, 3, 4], (y.vertind = [v, b] ∨ y.vertind = [b, v]) →
        v ≠ a ∧ v ≠ b ∧ a ≠ b := by decide +kernel
    obtain ⟨d1, d2, d3⟩ := hd x hx y hy hne _ hvi a ha hxv b hb hyv
    exact loneCo_corner hvi ha hb d1 d2 d3

theorem loneTet_sound : Sound loneTet := sound_of_checked (by decide +kernel)

theorem loneTet_ends : TwoEnds loneTet := by
  intro x hx
  simp only [loneTet, tetra, List.mem_cons, List.not_mem_nil, or_false] at hx
  rcases hx with rfl | rfl | rfl | rfl | rfl | rfl <;> exact ⟨_, _, rfl, by decide⟩

/-- The hypotheses hold for a vertex of the tetrahedron, with the real functions. -/
example (tab : List Int → Table) (ht : ∀ l, IsTable l (tab l)) :
    ∃ x, vertexLaplacian (fun v : P3 ℝ => Real.sqrt (Spec.inner v v)) realAngle (fun x => some (Real.tan (Real.pi / 2 - x))) (1 / 10) tab
      loneTet (loneCo ℝ) ⟨4, [3, 5, 6], [0, 0, 1], false⟩ false (fun _ => 7) = .ok (x, true) := by
  obtain ⟨r, pts, -, h⟩ := C127_vertex_partial loneTet_sound loneTet_ends ht (v := ⟨4, [3, 5, 6], [0, 0, 1], false⟩) (by decide)
    (loneTet_open (K := ℝ) _ (by decide)) realLen_isLen realCot_isCot (1 / 10)
  exact ⟨_, h _⟩

/-- C127: if this holds for all vertices, `MeshLaplacians` gives the Laplacian of each vertex in its place. -/
theorem C127_mesh_partial {m : Mesh} (hm : Sound m) (h2 : TwoEnds m) {tab : List Int → Table} (ht : ∀ l, IsTable l (tab l))
    {co : Int → P3 K} (ho : ∀ v ∈ m.verts, OpenVert m co v) {len : P3 K → K} (hl : IsLen len) {ang : P3 K → P3 K → K}
    {cot : K → Option K} (hc : IsCot len ang cot) (eps : K) :
    ∃ ls, meshLaplacians len ang cot eps tab m co = .ok ls ∧ List.Forall₂ (fun v x => ∃ r pts, RingAround m co v r pts ∧
      x = cutShort len eps (cotLaplacian len (co v.index) pts)) m.verts ls := by
  have h : ∀ v, ∃ x, v ∈ m.verts → (∃ r pts, RingAround m co v r pts ∧ x = cutShort len eps (cotLaplacian len (co v.index) pts)) ∧
      ∀ old, vertexLaplacian len ang cot eps tab m co v false old = .ok (x, true) := by
    intro v
    by_cases hv : v ∈ m.verts
    · obtain ⟨r, pts, h1, h3⟩ := vertex_lap hm h2 ht hv (ho v hv) hl hc eps
      exact ⟨_, fun _ => ⟨⟨r, pts, h1, rfl⟩, h3⟩⟩
    · exact ⟨0, fun h => absurd h hv⟩
  choose f hf using h
  have := lapAll_ok (len := len) (ang := ang) (cot := cot) (eps := eps) (tab := tab) (m := m) (co := co) (f := f) (k := [])
    (l := m.verts) (old := fun _ => 0) fun v hv => (hf v hv).2
  rw [List.append_nil] at this
  refine ⟨m.verts.map f, ?_, ?_⟩
  · unfold meshLaplacians
    rw [this]
    simp [lapAll, Except.map]
  · rw [List.forall₂_map_right_iff, List.forall₂_same]
    exact fun v hv => (hf v hv).1

/-- C127 is violated: a vertex whose edges cannot be ordered gets the Laplacian of the vertex before it. -/
theorem C127_stale_violated {tab : List Int → Table} (ht : ∀ l, IsTable l (tab l)) {len : P3 K → K} (hl : IsLen len)
    {ang : P3 K → P3 K → K} {cot : K → Option K} (hc : IsCot len ang cot) {eps : K} (he : eps ≤ 1) :
    Sound loneTet ∧ ∃ a b c x, meshLaplacians len ang cot eps tab loneTet (loneCo K) = .ok [a, b, c, x, x] ∧ x 2 = -1 := by
  refine ⟨loneTet_sound, ?_⟩
  have hmem : ∀ v ∈ tetra.verts, v ∈ loneTet.verts := fun v hv => List.mem_append_left _ hv
  have h : ∀ v, ∃ x, v ∈ tetra.verts → (∃ r pts, RingAround loneTet (loneCo K) v r pts ∧
      x = cutShort len eps (cotLaplacian len (loneCo K v.index) pts)) ∧
      ∀ old, vertexLaplacian len ang cot eps tab loneTet (loneCo K) v false old = .ok (x, true) := by
    intro v
    by_cases hv : v ∈ tetra.verts
    · obtain ⟨r, pts, h1, h3⟩ := vertex_lap loneTet_sound loneTet_ends ht (hmem v hv) (loneTet_open v hv) hl hc eps
      exact ⟨_, fun _ => ⟨⟨r, pts, h1, rfl⟩, h3⟩⟩
    · exact ⟨0, fun h => absurd h hv⟩
  choose f hf using h
  have key := lapAll_ok (len := len) (ang := ang) (cot := cot) (eps := eps) (tab := tab) (m := loneTet) (co := loneCo K) (f := f)
    (k := [⟨5, [], [9, 9, 9], false⟩]) (l := tetra.verts) (old := fun _ => 0) fun v hv => (hf v hv).2
  refine ⟨_, _, _, f ⟨4, [3, 5, 6], [0, 0, 1], false⟩, key, ?_⟩
  obtain ⟨⟨r, pts, hr, hx⟩, -⟩ := hf ⟨4, [3, 5, 6], [0, 0, 1], false⟩ (by decide)
  have hh := ring_open hr (loneTet_open (K := K) ⟨4, [3, 5, 6], [0, 0, 1], false⟩ (by decide))
  have hz : Spec.inner ![0, 0, 1] (cotLaplacian len (loneCo K 4) pts) = -1 := by
    refine C127_height hl hh.1 hh.2 fun p hp => ?_
    obtain ⟨e, he, a, hj, hne, rfl⟩ := ring_point hr hp
    obtain ⟨y, hy, -, hyv⟩ := hj
    have ha : a ∈ [(1 : Int), 2, 3] := by
      have hin : ∀ x ∈ loneTet.edges, ∀ c ∈ x.vertind, c ≠ 4 → c ∈ [(1 : Int), 2, 3] := by decide
      exact hin y hy a (by rcases hyv with h | h <;> rw [h] <;> simp) hne
    simp only [List.mem_cons, List.not_mem_nil, or_false] at ha
    rcases ha with rfl | rfl | rfl <;> simp [Spec.inner, Fin.sum_univ_three, loneCo]
  have hz2 : cotLaplacian len (loneCo K 4) pts 2 = -1 := by simpa [Spec.inner, Fin.sum_univ_three] using hz
  rw [hx]
  unfold cutShort
  rw [if_neg]
  · exact hz2
  · rw [not_lt]
    refine he.trans ?_
    have hi := (hl (cotLaplacian len (loneCo K 4) pts)).2
    have h0 := (hl (cotLaplacian len (loneCo K 4) pts)).1
    rw [abs_of_nonneg h0]
    refine (mul_self_le_mul_self_iff zero_le_one h0).2 ?_
    rw [hi]
    simp only [Spec.inner, Fin.sum_univ_three, hz2]
    nlinarith [mul_self_nonneg (cotLaplacian len (loneCo K 4) pts 0), mul_self_nonneg (cotLaplacian len (loneCo K 4) pts 1)]

/-- C127 is violated: `MeshUnitNormals` gives a vector which is not finite for a vertex whose edges cannot be ordered. -/
theorem C127_normals_violated {tab : List Int → Table} {len : P3 K → K} (hl : IsLen len) {ang : P3 K → P3 K → K} {eps : K}
    {m : Mesh} {co : Int → P3 K} {ns : List (Option (P3 K))} (h : meshUnitNormals len ang eps tab m co = .ok ns) {i : Nat} {v : Vert}
    (hv : m.verts[i]? = some v) (h1 : v.edgeind.length ≤ 1) : ns[i]? = some none := by
  have hlen0 : len (fun _ => 0) = 0 := by
    refine (mul_self_inj_of_nonneg (hl _).1 le_rfl).1 ?_
    rw [(hl _).2]
    simp [Spec.inner]
  have hz : vertNormal len ang eps tab m co v false = .ok (fun _ => 0, false) := by
    have : (sortUnique v.edgeind).length < 2 := by
      rcases v with ⟨i, _ | ⟨e, _ | ⟨f, l⟩⟩, x, y⟩
      · rw [show sortUnique ([] : List Int) = [] from rfl]
        decide
      · rw [show sortUnique [e] = [e] from rfl]
        simp
      · simp at h1
    unfold vertNormal surrounding Order.vertOrderEdges
    rw [if_pos this]
    rfl
  obtain ⟨h2, h3⟩ := PointCell.mapM_get h
  have hi : i < ns.length := by
    rw [h2]
    exact (List.getElem?_eq_some_iff.1 hv).1
  obtain ⟨w, hw, hn⟩ := h3 i ns[i] (List.getElem?_eq_getElem hi)
  rw [hv] at hw
  cases hw
  rw [hz] at hn
  simp only [Except.map, hlen0, if_true] at hn
  rw [List.getElem?_eq_getElem hi, ← Except.ok.inj hn]

example (tab : List Int → Table) : meshUnitNormals (fun v : P3 ℝ => Real.sqrt (Spec.inner v v)) realAngle (1 / 10) tab
    { verts := [⟨1, [], [0, 0, 0], false⟩], edges := [], surfs := [], volus := [] } (fun _ => ![0, 0, 0]) = .ok [none] := by
  have h : ∃ ns, meshUnitNormals (fun v : P3 ℝ => Real.sqrt (Spec.inner v v)) realAngle (1 / 10) tab
      { verts := [⟨1, [], [0, 0, 0], false⟩], edges := [], surfs := [], volus := [] } (fun _ => ![0, 0, 0]) = .ok [ns] := ⟨_, rfl⟩
  obtain ⟨n, hn⟩ := h
  have := C127_normals_violated realLen_isLen hn (i := 0) (v := ⟨1, [], [0, 0, 0], false⟩) rfl (by decide)
  rw [hn]
  simp at this
  rw [this]

end RSVS.Props
