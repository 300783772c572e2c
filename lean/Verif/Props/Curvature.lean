import Verif.Lemmas.Curvature
import Verif.Props.Geometry
import Verif.Props.Mesh

/-!
# Properties of curvature: C96
-/

namespace RSVS.Props

open RSVS.Spec RSVS.Mesh RSVS.Geo RSVS.Curv

variable {K : Type} [Field K] [LinearOrder K] [IsStrictOrderedRing K]

/-- C96 (partial): without smoothing the curvature of a vertex is the sum of those of its edges; smoothing keeps the sum over all
vertices, which is twice that of the edges, and keeps curvatures from being negative. -/
theorem C96_smoothing_partial (m : Mesh) (ec : List K) (n : Int) (hm : Sound m) (h2 : TwoVerts m) (hn : NoLoops m) (ho : ListedOnce m)
    (hl : ec.length = m.edges.length) :
    ∃ vc, vertexCurvature m ec n = .ok vc ∧ vc.length = m.verts.length ∧ vc.sum = 2 * ec.sum ∧
      ((∀ x ∈ ec, 0 ≤ x) → ∀ x ∈ vc, 0 ≤ x) ∧
      (n ≤ 1 → ∀ p : Nat, ∀ v : Vert, m.verts[p]? = some v → ∃ cs : List K,
        List.Forall₂ (fun i c => ∃ (q : Nat) (e : Edge), m.edges[q]? = some e ∧ e.index = i ∧ ec[q]? = some c) v.edgeind cs ∧
        vc[p]? = some cs.sum) := by
  have hc : CurvMesh m := ⟨hm, h2, hn, ho⟩
  have : Inhabited K := ⟨0⟩
  obtain ⟨F, hF⟩ := exists_fun (ix := Edge.index) hm.unique.edges hl
  obtain ⟨deg, hd⟩ := exists_fun' hm.unique.verts (fun v : Vert => v.edgeind.length)
  obtain ⟨C, hC⟩ := exists_fun' hm.unique.verts (fun v : Vert => (v.edgeind.map F).sum)
  have hfirst : vertStep m false (List.replicate m.verts.length 0) ec = .ok (m.verts.map fun v => C v.index) := by
    have h := vertStep_ok hc false (C := fun _ => 0) (F := F)
    rw [← hF, List.map_const'] at h
    rw [h]
    congr 1
    apply List.map_congr_left
    intro v hv
    rw [hC v hv]; simp
  obtain ⟨D, h1, h3, h4⟩ := smooth_all hc hd (n - 1).toNat (C := C) (fun v hv he => by rw [hC v hv, he]; rfl)
  have hsum : (m.verts.map fun v => C v.index).sum = 2 * ec.sum := by
    rw [hF, ← total_edges hc F]
    congr 1
    exact List.map_congr_left fun v hv => hC v hv
  refine ⟨m.verts.map fun v => D v.index, ?_, by simp, h3.trans hsum, fun hnn x hx => ?_, fun h1n p v hv => ?_⟩
  · unfold vertexCurvature
    rw [hfirst]
    exact h1
  · obtain ⟨v, hv, rfl⟩ := List.mem_map.mp hx
    refine h4 (fun w hw => ?_) v hv
    rw [hC w hw]
    apply List.sum_nonneg
    intro y hy
    obtain ⟨i, hi, rfl⟩ := List.mem_map.mp hy
    obtain ⟨e, he, rfl⟩ := hc.hasEdge ⟨w, hw, rfl, hi⟩
    exact hnn _ (by rw [hF]; exact List.mem_map.mpr ⟨e, he, rfl⟩)
  · have hn0 : (n - 1).toNat = 0 := by omega
    rw [hn0] at h1
    have hvm : v ∈ m.verts := List.mem_of_getElem? hv
    refine ⟨v.edgeind.map F, ?_, ?_⟩
    · have hall : ∀ i ∈ v.edgeind, ∃ (q : Nat) (e : Edge), m.edges[q]? = some e ∧ e.index = i ∧ ec[q]? = some (F i) := by
        intro i hi
        obtain ⟨e, he, rfl⟩ := hc.hasEdge ⟨v, hvm, rfl, hi⟩
        obtain ⟨q, hq, hqe⟩ := List.mem_iff_getElem.mp he
        refine ⟨q, e, by rw [List.getElem?_eq_getElem hq, hqe], rfl, ?_⟩
        rw [hF, List.getElem?_map, List.getElem?_eq_getElem hq, hqe]
        rfl
      rw [List.forall₂_map_right_iff, List.forall₂_same]
      exact hall
    · have : (m.verts.map fun v => D v.index) = m.verts.map fun v => C v.index := (Except.ok.inj h1).symm
      rw [this, List.getElem?_map, hv, ← hC v hvm]
      rfl

/-- C96 (partial): the curvature of an edge is finite and at most the number of pairs of its surfaces, not negative, or one of its
normals is zero. -/
theorem C96_range_partial (m : Mesh) (near : Int → Int → Bool) (co : Int → P3 K) (len : P3 K → K) (hl : IsLen len)
    (r : List (Option K)) (h : edgeCurvature m near co len = .ok r) (p : Nat) (e : Edge) (he : m.edges[p]? = some e) (x : K)
    (hx : r[p]? = some (some x)) : 0 ≤ x ∧ x ≤ ((pairsOf e.surfind).length : K) := by
  have key : ∀ (l : List (Int × Int)) (s : Option K) (k : K) (y : K),
      l.foldlM (m := Except Fault) (fun s q => (pseudoAngle m near co len q.1 q.2).map (addOpt s)) s = .ok (some y) →
      (∀ z, s = some z → 0 ≤ z ∧ z ≤ k) → 0 ≤ y ∧ y ≤ k + l.length := by
    intro l
    induction l with
    | nil =>
      intro s k y h1 h2
      have := h2 y (Except.ok.inj h1)
      simpa using this
    | cons q l ih =>
      intro s k y h1 h2
      rw [List.foldlM_cons] at h1
      obtain ⟨s', h3, h4⟩ := RSVS.bind_ok_iff.mp h1
      cases ha : pseudoAngle m near co len q.1 q.2 with
      | error _ => rw [ha] at h3; cases h3
      | ok a =>
        rw [ha] at h3
        have h3 : addOpt s a = s' := Except.ok.inj h3
        have := ih s' (k + 1) y h4 (by
          intro z hz
          rw [hz] at h3
          unfold addOpt at h3
          obtain ⟨u, hu, h5⟩ := Option.bind_eq_some_iff.mp h3
          obtain ⟨w, hw, rfl⟩ := Option.map_eq_some_iff.mp h5
          obtain ⟨u1, u2⟩ := h2 u hu
          rw [hw] at ha
          obtain ⟨w1, w2⟩ := pseudoAngle_range hl ha
          constructor <;> linarith)
        refine ⟨this.1, ?_⟩
        rw [List.length_cons, Nat.cast_add, Nat.cast_one]
        linarith [this.2]
  have hall : ∀ (es : List Edge) (r : List (Option K)), es.mapM (m := Except Fault) (fun e =>
      (pairsOf e.surfind).foldlM (m := Except Fault) (fun s p => (pseudoAngle m near co len p.1 p.2).map (addOpt s)) (some 0)) = .ok r →
      ∀ (p : Nat) (e : Edge), es[p]? = some e → ∃ o, r[p]? = some o ∧ (pairsOf e.surfind).foldlM (m := Except Fault)
        (fun s p => (pseudoAngle m near co len p.1 p.2).map (addOpt s)) (some 0) = .ok o := by
    intro es
    induction es with
    | nil => intro r _ p e he; simp at he
    | cons a es ih =>
      intro r h p e he
      rw [List.mapM_cons] at h
      obtain ⟨o, h1, h2⟩ := RSVS.bind_ok_iff.mp h
      obtain ⟨os, h3, h4⟩ := RSVS.bind_ok_iff.mp h2
      cases h4
      cases p with
      | zero => simp at he; subst he; exact ⟨o, rfl, h1⟩
      | succ p => exact ih os h3 p e (by simpa using he)
  obtain ⟨o, h1, h2⟩ := hall m.edges r h p e he
  rw [hx] at h1
  cases h1
  have := key _ (some 0) 0 x h2 (by intro z hz; cases hz; norm_num)
  rwa [zero_add] at this

omit [Field K] [IsStrictOrderedRing K] in
theorem foldl_max {cs : List K} {c : K} : (∀ x ∈ c :: cs, x ≤ cs.foldl max c) ∧ cs.foldl max c ∈ c :: cs := by
  induction cs generalizing c with
  | nil => simp
  | cons d cs ih =>
    obtain ⟨h1, h2⟩ := ih (c := max c d)
    have h3 := h1 (max c d) (by simp)
    refine ⟨fun x hx => ?_, ?_⟩
    · simp only [List.foldl_cons]
      rcases List.mem_cons.mp hx with rfl | hx
      · exact le_trans (le_max_left _ _) h3
      · rcases List.mem_cons.mp hx with rfl | hx
        · exact le_trans (le_max_right _ _) h3
        · exact h1 x (by simp [hx])
    · simp only [List.foldl_cons]
      rcases List.mem_cons.mp h2 with h2 | h2
      · rw [h2]
        rcases max_choice c d with h | h <;> rw [h] <;> simp
      · simp [h2]

/-- C96 (partial): from curvatures that are not negative and not all zero, the metrics go linearly from the first length at
curvature zero to the second one at the largest curvature, and stay between the two. -/
theorem C96_metric_partial (s0 s1 : K) (cs : List K) (hnn : ∀ x ∈ cs, 0 ≤ x) (hpos : ∃ x ∈ cs, 0 < x) :
    ∃ (r : List (Option K)) (M : K), curvatureMetric s0 s1 cs = .ok r ∧ M ∈ cs ∧ (∀ x ∈ cs, x ≤ M) ∧
      List.Forall₂ (fun c o => ∃ x t : K, o = some x ∧ x = s0 + t * (s1 - s0) ∧ c = t * M ∧ 0 ≤ t ∧ t ≤ 1 ∧
        min s0 s1 ≤ x ∧ x ≤ max s0 s1) cs r := by
  match cs, hpos with
  | c :: cs, hpos =>
    obtain ⟨h1, h2⟩ := foldl_max (cs := cs) (c := c)
    refine ⟨_, cs.foldl max c, rfl, h2, h1, ?_⟩
    generalize hM : cs.foldl max c = M at *
    have hM0 : 0 < M := by
      obtain ⟨x, hx, hp⟩ := hpos
      exact lt_of_lt_of_le hp (h1 x hx)
    rw [List.forall₂_map_right_iff, List.forall₂_same]
    intro x hx
    rw [if_neg (ne_of_gt hM0)]
    have ht0 : 0 ≤ x / M := div_nonneg (hnn x hx) hM0.le
    have ht1 : x / M ≤ 1 := (div_le_one hM0).mpr (h1 x hx)
    have he : (s1 - s0) / (M - 0) * (x - 0) + s0 = s0 + x / M * (s1 - s0) := by
      rw [sub_zero, sub_zero]; field_simp; ring
    refine ⟨_, x / M, rfl, he, by field_simp, ht0, ht1, ?_, ?_⟩ <;> rw [he]
    · rcases le_total s0 s1 with h | h
      · rw [min_eq_left h]; nlinarith
      · rw [min_eq_right h]; nlinarith
    · rcases le_total s0 s1 with h | h
      · rw [max_eq_right h]; nlinarith
      · rw [max_eq_left h]; nlinarith

/-- Two meshes are the same but for the order of the ends of edges. -/
structure SameButEnds (m m' : Mesh) : Prop where
  verts : m'.verts = m.verts
  surfs : m'.surfs = m.surfs
  volus : m'.volus = m.volus
  edges : List.Forall₂ (fun e e' => e'.index = e.index ∧ e'.surfind = e.surfind ∧ e'.vertind.Perm e.vertind) m.edges m'.edges

/-- C96, full statement about edges: the curvature of an edge does not depend on the order in which edges list their ends. -/
def C96_angle_statement (K : Type) [Field K] [LinearOrder K] : Prop :=
  ∀ (m m' : Mesh) (near : Int → Int → Bool) (co : Int → P3 K) (len : P3 K → K), IsLen len → Sound m → Sound m' → TwoVerts m →
    SameButEnds m m' → edgeCurvature m' near co len = edgeCurvature m near co len

/-- C96, full statement about metrics. -/
def C96_metric_statement (K : Type) [Field K] [LinearOrder K] : Prop :=
  ∀ (s0 s1 : K) (cs : List K), cs ≠ [] → (∀ x ∈ cs, 0 ≤ x) →
    ∃ r, curvatureMetric s0 s1 cs = .ok r ∧ ∀ o ∈ r, ∃ x, o = some x ∧ min s0 s1 ≤ x ∧ x ≤ max s0 s1

/-- A square of two triangles with a volume on one side. -/
def flatSquare (a b : Int) : Mesh :=
  { verts := [{ index := 1, edgeind := [1, 3, 5], coord := [0, 0, 0] }, { index := 2, edgeind := [1, 2], coord := [1, 0, 0] },
      { index := 3, edgeind := [2, 3, 4], coord := [1, 1, 0] }, { index := 4, edgeind := [4, 5], coord := [0, 1, 0] }]
    edges := [{ index := 1, vertind := [a, b], surfind := [1] }, { index := 2, vertind := [2, 3], surfind := [1] },
      { index := 3, vertind := [3, 1], surfind := [1, 2] }, { index := 4, vertind := [3, 4], surfind := [2] },
      { index := 5, vertind := [4, 1], surfind := [2] }]
    surfs := [{ index := 1, edgeind := [1, 2, 3], voluind := [0, 1] }, { index := 2, edgeind := [3, 4, 5], voluind := [0, 1] }]
    volus := [{ index := 1, surfind := [1, 2] }] }

theorem flatSquare_ok : Sound (flatSquare 1 2) ∧ Sound (flatSquare 2 1) ∧ TwoVerts (flatSquare 1 2) ∧ NoLoops (flatSquare 1 2) ∧
    ListedOnce (flatSquare 1 2) ∧ SameButEnds (flatSquare 1 2) (flatSquare 2 1) := by
  refine ⟨sound_of_checked (by decide +kernel), sound_of_checked (by decide +kernel), by unfold TwoVerts; decide +kernel, ?_,
    by unfold ListedOnce; decide +kernel, rfl, rfl, rfl, ?_⟩
  · intro e he x hx
    have h : ∀ e ∈ (flatSquare 1 2).edges, e.vertind.Nodup := by decide +kernel
    have := h e he
    rw [hx] at this
    simp at this
  · refine .cons ⟨rfl, rfl, List.Perm.swap _ _ _⟩ (.cons ⟨rfl, rfl, .rfl⟩ (.cons ⟨rfl, rfl, .rfl⟩ (.cons ⟨rfl, rfl, .rfl⟩
      (.cons ⟨rfl, rfl, .rfl⟩ .nil))))

/-- The coordinates of the square. -/
def flatCo (i : Int) : P3 K := if i = 1 then ![0, 0, 0] else if i = 2 then ![1, 0, 0] else if i = 3 then ![1, 1, 0] else ![0, 1, 0]

theorem flatSquare_points : threePoints (flatSquare 1 2) (fun _ _ => false) 1 = .ok [1, 2, 3] ∧
    threePoints (flatSquare 2 1) (fun _ _ => false) 1 = .ok [2, 1, 3] ∧
    threePoints (flatSquare 1 2) (fun _ _ => false) 2 = .ok [3, 1, 4] ∧
    threePoints (flatSquare 2 1) (fun _ _ => false) 2 = .ok [3, 1, 4] ∧
    (∀ s, s = 1 ∨ s = 2 → sidesOf (flatSquare 1 2) s = .ok (0, 1) ∧ sidesOf (flatSquare 2 1) s = .ok (0, 1)) := by
  refine ⟨by decide +kernel, by decide +kernel, by decide +kernel, by decide +kernel, ?_⟩
  rintro s (rfl | rfl) <;> exact ⟨by decide +kernel, by decide +kernel⟩

theorem flatNormals : planeNormal (flatCo 1) (flatCo 2) (flatCo 3) = ![0, 0, (-1 : K)] ∧
    planeNormal (flatCo 2) (flatCo 1) (flatCo 3) = ![0, 0, (1 : K)] ∧ planeNormal (flatCo 3) (flatCo 4) (flatCo 1) = ![0, 0, (-1 : K)] := by
  refine ⟨?_, ?_, ?_⟩ <;> apply ext3 <;> simp [normal_zero, normal_one, normal_two, flatCo]

theorem flatLen {len : P3 K → K} (hl : IsLen len) : len ![0, 0, -1] = 1 ∧ len ![0, 0, 1] = 1 := by
  constructor <;> apply len_eq_of_sq hl (by norm_num) <;> simp [inner_eq]

theorem flatAngles {len : P3 K → K} (hl : IsLen len) :
    pseudoAngle (flatSquare 1 2) (fun _ _ => false) flatCo len 1 2 = .ok (some 0) ∧
    pseudoAngle (flatSquare 2 1) (fun _ _ => false) flatCo len 1 2 = .ok (some 1) := by
  obtain ⟨p1, p2, p3, p4, p5⟩ := flatSquare_points
  obtain ⟨n1, n2, n3⟩ := flatNormals (K := K)
  obtain ⟨l1, l2⟩ := flatLen hl
  obtain ⟨a1, a2⟩ := p5 1 (.inl rfl)
  obtain ⟨b1, b2⟩ := p5 2 (.inr rfl)
  constructor
  · unfold pseudoAngle
    rw [a1, b1]
    simp only [Except.bind]
    rw [if_neg (by decide), p1, p3]
    simp [planesDot, orientSame, n1, n3, l1, Geo.dot]
    norm_num
  · unfold pseudoAngle
    rw [a2, b2]
    simp only [Except.bind]
    rw [if_neg (by decide), p2, p4]
    simp [planesDot, orientSame, n2, n3, l1, l2, Geo.dot]

/-- C96 violated: the edge inside a flat square has curvature 0 or 1 by the order of the ends of another edge; where all curvatures
are zero no metric is finite. -/
theorem C96_violated {len : P3 K → K} (hl : IsLen len) : ¬ C96_angle_statement K ∧ ¬ C96_metric_statement K ∧
    edgeCurvature (flatSquare 1 2) (fun _ _ => false) flatCo len = .ok [some 0, some 0, some 0, some 0, some 0] ∧
    edgeCurvature (flatSquare 2 1) (fun _ _ => false) flatCo len = .ok [some 0, some 0, some 1, some 0, some 0] := by
  obtain ⟨a1, a2⟩ := flatAngles hl
  have e1 : edgeCurvature (flatSquare 1 2) (fun _ _ => false) flatCo len = .ok [some 0, some 0, some 0, some 0, some 0] := by
    simp [edgeCurvature, flatSquare, pairsOf]
    rw [show (⟨_, _, _, _, _⟩ : Mesh) = flatSquare 1 2 from rfl, a1]
    simp [Except.map, addOpt]
  have e2 : edgeCurvature (flatSquare 2 1) (fun _ _ => false) flatCo len = .ok [some 0, some 0, some 1, some 0, some 0] := by
    simp [edgeCurvature, flatSquare, pairsOf]
    rw [show (⟨_, _, _, _, _⟩ : Mesh) = flatSquare 2 1 from rfl, a2]
    simp [Except.map, addOpt]
  refine ⟨fun H => ?_, fun H => ?_, e1, e2⟩
  · obtain ⟨f1, f2, f3, -, -, f4⟩ := flatSquare_ok
    have := H _ _ (fun _ _ => false) flatCo len hl f1 f2 f3 f4
    rw [e1, e2] at this
    have := Except.ok.inj this
    simp at this
  · obtain ⟨r, h1, h2⟩ := H 1 2 [0] (by simp) (by simp)
    have : r = [none] := by
      have := Except.ok.inj h1
      rw [← this]
      simp
    obtain ⟨x, hx, -⟩ := h2 none (by rw [this]; simp)
    cases hx

example : ∃ vc, vertexCurvature (flatSquare 1 2) [1, 2, 3, 4, (5 : ℚ)] 3 = .ok vc ∧ vc.sum = 30 := by
  obtain ⟨f1, -, f3, f4, f5, -⟩ := flatSquare_ok
  obtain ⟨vc, h1, -, h2, -⟩ := C96_smoothing_partial (flatSquare 1 2) [1, 2, 3, 4, (5 : ℚ)] 3 f1 f3 f4 f5 rfl
  exact ⟨vc, h1, h2.trans (by norm_num)⟩

example : vertexCurvature (flatSquare 1 2) [1, 2, 3, 4, (5 : ℚ)] 1 = .ok [9, 3, 9, 9] := by decide +kernel

example : vertexCurvature (flatSquare 1 2) [1, 2, 3, 4, (5 : ℚ)] 2 = .ok [9, 15 / 4, 9, 33 / 4] := by decide +kernel

example : curvatureMetric 1 (3 : ℚ) [0, 4, 2] = .ok [some 1, some 3, some 2] := by decide +kernel

end RSVS.Props
