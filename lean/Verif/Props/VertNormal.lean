import Mathlib.Analysis.SpecialFunctions.Trigonometric.Inverse
import Verif.Lemmas.VertNormalVert
import Verif.Props.Geometry
import Verif.Props.Orient

/-!
# C126: the normal at a vertex
-/

namespace RSVS.Props

open RSVS RSVS.Mesh RSVS.Geo RSVS.Spec RSVS.VertNormal

variable {K : Type} [Field K] [LinearOrder K] [IsStrictOrderedRing K]

/-- C126: if the triangle of the last and the first point is not too small, `VertexNormal` gives the mean of the unit normals of all
triangles which are not too small, weighted with their angles, and the sum of the angles between following normals. -/
theorem C126_normal_partial {len : P3 K → K} {ang : P3 K → P3 K → K} {eps : K} {c : P3 K} {pts : List (P3 K)} {a b : P3 K}
    (ha : pts.getLast? = some a) (hb : pts.head? = some b) (hw : eps ≤ |len (cornerNormal c a b)|)
    (hang : ∀ q ∈ wideFaces len eps c pts, cornerAngle ang c q ≠ 0) :
    vertexNormal len ang eps c pts =
      .ok (angleMean len ang c (wideFaces len eps c pts), turning len ang c (wideFaces len eps c pts)) :=
  vertexNormal_eq ha hb hw hang

/-- C126: if no triangle is too small, the result does not depend on the point at which the list starts. -/
theorem C126_rotate_partial {len : P3 K → K} {ang : P3 K → P3 K → K} {eps : K} {c : P3 K} {pts : List (P3 K)}
    (hw : ∀ q ∈ fanPairs pts, eps ≤ |len (cornerNormal c q.1 q.2)|) (hang : ∀ q ∈ fanPairs pts, cornerAngle ang c q ≠ 0) (n : Nat) :
    vertexNormal len ang eps c (pts.rotate n) = vertexNormal len ang eps c pts := by
  by_cases h0 : pts = []
  · subst h0
    rfl
  have key : ∀ l : List (P3 K), l ≠ [] → (∀ q ∈ fanPairs l, q ∈ fanPairs pts) →
      vertexNormal len ang eps c l = .ok (angleMean len ang c (fanPairs l), turning len ang c (fanPairs l)) := by
    intro l hl hsub
    obtain ⟨a, ha⟩ : ∃ a, l.getLast? = some a := ⟨_, List.getLast?_eq_getLast_of_ne_nil hl⟩
    obtain ⟨b, hb⟩ : ∃ b, l.head? = some b := ⟨_, List.head?_eq_some_head hl⟩
    have hwide : wideFaces len eps c l = fanPairs l := List.filter_eq_self.2 fun q hq => by simpa using hw q (hsub q hq)
    have := vertexNormal_eq (len := len) (ang := ang) (eps := eps) (c := c) ha hb
      (hw _ (hsub _ (List.mem_of_getLast? (last_pair ha hb)))) fun q hq => hang q (hsub q (by rw [← hwide]; exact hq))
    rw [this, hwide]
  rw [key pts h0 fun _ h => h, key (pts.rotate n) (fun h => h0 (List.rotate_eq_nil_iff.1 h)) fun q hq => by
    rw [fanPairs_rotate] at hq
    exact List.mem_rotate.1 hq]
  rw [fanPairs_rotate, turning_rotate, angleMean_perm (List.rotate_perm _ n)]

/-- The angle over the reals. -/
noncomputable def realAngle (a b : P3 ℝ) : ℝ := Real.arccos (Spec.inner a b / (Real.sqrt (Spec.inner a a) * Real.sqrt (Spec.inner b b)))

theorem realAngle_isAngle : IsAngle realAngle := by
  intro a b h
  unfold realAngle
  rw [Real.arccos_pos]
  have la := realLen_isLen a
  have lb := realLen_isLen b
  simp only at la lb
  have hN : 0 < Spec.inner (cornerNormal 0 b a) (cornerNormal 0 b a) := by
    refine lt_of_le_of_ne (Finset.sum_nonneg fun i _ => mul_self_nonneg _) fun h0 => h (funext fun i => ?_)
    exact mul_self_eq_zero.1 ((Finset.sum_eq_zero_iff_of_nonneg fun j _ => mul_self_nonneg _).1 h0.symm i (Finset.mem_univ i))
  have lag : Spec.inner a b * Spec.inner a b + Spec.inner (cornerNormal 0 b a) (cornerNormal 0 b a) = Spec.inner a a * Spec.inner b b := by
    simp only [Spec.inner, Fin.sum_univ_three, cornerNormal, Pi.zero_apply, sub_zero, Matrix.cons_val_zero, Matrix.cons_val_one,
      Matrix.cons_val]
    ring
  generalize Real.sqrt (Spec.inner a a) = x at la ⊢
  generalize Real.sqrt (Spec.inner b b) = y at lb ⊢
  have hxy : Spec.inner a b * Spec.inner a b < (x * y) * (x * y) := by
    have : (x * y) * (x * y) = Spec.inner a a * Spec.inner b b := by rw [← la.2, ← lb.2]; ring
    linarith
  have hlt : Spec.inner a b < x * y := lt_of_mul_self_lt_mul_self₀ (mul_nonneg la.1 lb.1) hxy
  have hpos : 0 < x * y := by
    refine lt_of_le_of_ne (mul_nonneg la.1 lb.1) fun h0 => ?_
    rw [← h0, mul_zero] at hxy
    exact absurd hxy (not_lt.2 (mul_self_nonneg _))
  exact (div_lt_one hpos).2 hlt

theorem len_of_inner {len : P3 K → K} (hl : IsLen len) {x : P3 K} {r : K} (hr : 0 ≤ r) (h : Spec.inner x x = r * r) : len x = r :=
  (mul_self_inj_of_nonneg (hl x).1 hr).1 (by rw [(hl x).2, h])

theorem cornerAngle_pos {ang : P3 K → P3 K → K} (ha : IsAngle ang) {c : P3 K} {q : P3 K × P3 K} (h : cornerNormal c q.1 q.2 ≠ 0) :
    0 < cornerAngle ang c q := by
  refine ha _ _ fun h0 => h ?_
  rw [← h0]
  funext i
  unfold cornerNormal
  fin_cases i <;> simp

theorem ne_zero_of_len {len : P3 K → K} (hl : IsLen len) {x : P3 K} (h : len x ≠ 0) : x ≠ 0 := fun h0 => h (by
  rw [h0]
  exact len_of_inner hl le_rfl (by simp [Spec.inner]))

/-- The corner of a cube, with its three neighbours. -/
def cubeCorner (K : Type) [Field K] : List (P3 K) := [![1, 0, 0], ![0, 1, 0], ![0, 0, 1]]

theorem cubeCorner_wide {len : P3 K → K} (hl : IsLen len) : ∀ q ∈ fanPairs (cubeCorner K), len (cornerNormal 0 q.1 q.2) = 1 := by
  intro q hq
  simp only [fanPairs, cubeCorner, List.rotate_cons_succ, List.rotate_zero, List.cons_append, List.nil_append, List.zip_cons_cons,
    List.zip_nil_right, List.mem_cons, List.not_mem_nil, or_false] at hq
  rcases hq with rfl | rfl | rfl <;>
    exact len_of_inner hl zero_le_one (by simp [Spec.inner, Fin.sum_univ_three, cornerNormal])

example : vertexNormal (fun v : P3 ℝ => Real.sqrt (Spec.inner v v)) realAngle (1 / 10) 0 ((cubeCorner ℝ).rotate 2) =
    vertexNormal (fun v : P3 ℝ => Real.sqrt (Spec.inner v v)) realAngle (1 / 10) 0 (cubeCorner ℝ) := by
  have h1 := cubeCorner_wide (K := ℝ) realLen_isLen
  refine C126_rotate_partial (fun q hq => ?_) (fun q hq => (cornerAngle_pos realAngle_isAngle ?_).ne') 2
  · rw [h1 q hq]
    norm_num
  · exact ne_zero_of_len realLen_isLen (by rw [h1 q hq]; exact one_ne_zero)

/-- The corner with a further neighbour on one of the edges: the triangle of the last and the first point has no area. -/
def doubledCorner (K : Type) [Field K] : List (P3 K) := [![1, 0, 0], ![0, 1, 0], ![0, 0, 1], ![2, 0, 0]]

theorem zero_narrow {len : P3 K → K} (hl : IsLen len) {eps : K} (he : 0 < eps) {c p q : P3 K} (h : cornerNormal c p q = 0) :
    ¬ eps ≤ |len (cornerNormal c p q)| := by
  rw [h, len_of_inner hl le_rfl (by simp [Spec.inner]), abs_zero]
  exact not_le.2 he

/-- C126 is violated: if the triangle of the last and the first point has no area, the triangles before the start of the loop are left
out.  Here the mean has a negative third coordinate, but `VertexNormal` gives zero; and it gives the mean if the same points are listed
from the second one. -/
theorem C126_start_violated {len : P3 K → K} (hl : IsLen len) {ang : P3 K → P3 K → K} (ha : IsAngle ang) {eps : K} (he : 0 < eps)
    (he1 : eps ≤ 1) :
    angleMean len ang 0 (wideFaces len eps 0 (doubledCorner K)) 2 < 0 ∧
    (∃ n, vertexNormal len ang eps 0 (doubledCorner K) = .ok n ∧ n.1 2 = 0) ∧
    ∃ n, vertexNormal len ang eps 0 ((doubledCorner K).rotate 1) = .ok n ∧ n.1 2 < 0 := by
  have n01 : cornerNormal (0 : P3 K) ![1, 0, 0] ![0, 1, 0] = ![0, 0, -1] := by simp [cornerNormal]
  have n12 : cornerNormal (0 : P3 K) ![0, 1, 0] ![0, 0, 1] = ![-1, 0, 0] := by simp [cornerNormal]
  have n23 : cornerNormal (0 : P3 K) ![0, 0, 1] ![2, 0, 0] = ![0, -2, 0] := by simp [cornerNormal]
  have n30 : cornerNormal (0 : P3 K) ![2, 0, 0] ![1, 0, 0] = 0 := by simp [cornerNormal]
  have n31 : cornerNormal (0 : P3 K) ![2, 0, 0] ![0, 1, 0] = ![0, 0, -2] := by simp [cornerNormal]
  have l01 : len ![0, 0, -1] = 1 := len_of_inner hl zero_le_one (by simp [Spec.inner, Fin.sum_univ_three])
  have l12 : len ![-1, 0, 0] = 1 := len_of_inner hl zero_le_one (by simp [Spec.inner, Fin.sum_univ_three])
  have l23 : len ![0, -2, 0] = 2 := len_of_inner hl zero_le_two (by simp [Spec.inner, Fin.sum_univ_three])
  have l31 : len ![0, 0, -2] = 2 := len_of_inner hl zero_le_two (by simp [Spec.inner, Fin.sum_univ_three])
  have w30 := zero_narrow hl he n30
  have a1 : eps ≤ |(1 : K)| := by rwa [abs_one]
  have a2 : eps ≤ |(2 : K)| := by
    rw [abs_of_pos zero_lt_two]
    linarith
  have p01 : 0 < cornerAngle ang 0 ((![1, 0, 0], ![0, 1, 0]) : P3 K × P3 K) :=
    cornerAngle_pos ha (ne_zero_of_len hl (by rw [n01, l01]; exact one_ne_zero))
  have p12 : 0 < cornerAngle ang 0 ((![0, 1, 0], ![0, 0, 1]) : P3 K × P3 K) :=
    cornerAngle_pos ha (ne_zero_of_len hl (by rw [n12, l12]; exact one_ne_zero))
  have p23 : 0 < cornerAngle ang 0 ((![0, 0, 1], ![2, 0, 0]) : P3 K × P3 K) :=
    cornerAngle_pos ha (ne_zero_of_len hl (by rw [n23, l23]; exact two_ne_zero))
  have hf : fanPairs (doubledCorner K) = [(![1, 0, 0], ![0, 1, 0]), (![0, 1, 0], ![0, 0, 1]), (![0, 0, 1], ![2, 0, 0]), (![2, 0, 0], ![1, 0, 0])] := by
    simp [fanPairs, doubledCorner, List.rotate_cons_succ]
  have hwf : wideFaces len eps 0 (doubledCorner K) = [(![1, 0, 0], ![0, 1, 0]), (![0, 1, 0], ![0, 0, 1]), (![0, 0, 1], ![2, 0, 0])] := by
    unfold wideFaces
    rw [hf]
    rw [List.filter_cons_of_pos (by simpa [n01, l01] using a1), List.filter_cons_of_pos (by simpa [n12, l12] using a1),
      List.filter_cons_of_pos (by simpa [n23, l23] using a2), List.filter_cons_of_neg (by simpa using w30)]
    rfl
  have hz : ∀ q ∈ wideFaces len eps 0 (doubledCorner K), cornerAngle ang 0 q ≠ 0 := by
    rw [hwf]
    simp only [List.mem_cons, List.not_mem_nil, or_false]
    rintro q (rfl | rfl | rfl)
    · exact p01.ne'
    · exact p12.ne'
    · exact p23.ne'
  have hmean : angleMean len ang 0 (wideFaces len eps 0 (doubledCorner K)) 2 < 0 := by
    rw [hwf]
    unfold angleMean cornerUnit
    simp only [List.map_cons, List.map_nil, List.sum_cons, List.sum_nil, n01, n12, n23, l01, l12, l23]
    refine div_neg_of_neg_of_pos ?_ (by positivity)
    simpa using p01
  refine ⟨hmean, ?_, ?_⟩
  · have hs : findStart len ang eps 0 ![2, 0, 0] 0 (doubledCorner K) = some (1, cornerNormal 0 ![2, 0, 0] ![0, 1, 0]) := by
      unfold doubledCorner findStart findStart
      simp only [plane_eq, nearZero_eq]
      rw [if_pos (by simpa using w30), if_neg (by simpa [n31, l31] using a2)]
    have hadd : ∀ (s : Sums K) (q : P3 K × P3 K), s.normal 2 = 0 → q ∈ [((![0, 1, 0], ![0, 0, 1]) : P3 K × P3 K), (![0, 0, 1], ![2, 0, 0]),
        (![2, 0, 0], ![1, 0, 0])] → (addFace len ang eps 0 s q).normal 2 = 0 := by
      intro s q h0 hq
      simp only [List.mem_cons, List.not_mem_nil, or_false] at hq
      have hq2 : cornerNormal 0 q.1 q.2 2 = 0 := by
        rcases hq with rfl | rfl | rfl
        · simp [n12]
        · simp [n23]
        · simp [n30]
      unfold addFace
      rw [plane_eq]
      split_ifs
      · exact h0
      · simp only [unit, h0, hq2]
        simp
    refine ⟨_, by
      unfold vertexNormal
      rw [show (doubledCorner K).getLast? = some ![2, 0, 0] from rfl]
      simp only [hs]
      rfl, ?_⟩
    simp only [doubledCorner, List.length_cons, List.length_nil]
    have hr : (List.range (0 + 1 + 1 + 1 + 1)).drop 1 = [1, 2, 3] := rfl
    rw [hr]
    simp only [List.foldl_cons, List.foldl_nil]
    rw [hadd _ _ (hadd _ _ (hadd _ _ rfl (by simp)) (by simp)) (by simp), zero_mul]
  · obtain ⟨k, hk⟩ := filter_rotate (fun q : P3 K × P3 K => decide (eps ≤ |len (cornerNormal 0 q.1 q.2)|)) (fanPairs (doubledCorner K)) 1
    have hw' : wideFaces len eps 0 ((doubledCorner K).rotate 1) = (wideFaces len eps 0 (doubledCorner K)).rotate k := by
      unfold wideFaces
      rw [fanPairs_rotate, hk]
    have := C126_normal_partial (len := len) (ang := ang) (eps := eps) (c := 0) (pts := (doubledCorner K).rotate 1) (a := ![1, 0, 0])
      (b := ![0, 1, 0]) rfl rfl (by rw [n01, l01]; exact a1) (by
        rw [hw']
        exact fun q hq => hz q (List.mem_rotate.1 hq))
    refine ⟨_, this, ?_⟩
    simp only
    rw [hw', angleMean_perm (List.rotate_perm _ k)]
    exact hmean

example : ∃ (len : P3 ℝ → ℝ) (ang : P3 ℝ → P3 ℝ → ℝ), IsLen len ∧ IsAngle ang := ⟨_, _, realLen_isLen, realAngle_isAngle⟩

/-- C126 is violated: a last point at the centre makes `VertexNormal` throw, though triangles have an area. -/
theorem C126_centre_violated {len : P3 K → K} (hl : IsLen len) {ang : P3 K → P3 K → K} {eps : K} (he : 0 < eps) (he1 : eps ≤ 1) :
    wideFaces len eps 0 (cubeCorner K ++ [0]) ≠ [] ∧ vertexNormal len ang eps 0 (cubeCorner K ++ [0]) = .error .throws := by
  have n01 : cornerNormal (0 : P3 K) ![1, 0, 0] ![0, 1, 0] = ![0, 0, -1] := by simp [cornerNormal]
  have l01 : len ![0, 0, -1] = 1 := len_of_inner hl zero_le_one (by simp [Spec.inner, Fin.sum_univ_three])
  have hz : ∀ p : P3 K, cornerNormal 0 0 p = 0 := fun p => by simp [cornerNormal]
  refine ⟨List.ne_nil_of_mem (a := (![1, 0, 0], ![0, 1, 0])) (List.mem_filter.2 ⟨?_, ?_⟩), ?_⟩
  · simp [fanPairs, cubeCorner, List.rotate_cons_succ]
  · simp only [n01, l01, abs_one, he1, decide_true]
  · have hs : ∀ (i : Nat) (l : List (P3 K)), findStart len ang eps 0 0 i l = none := by
      intro i l
      induction l generalizing i with
      | nil => rfl
      | cons p l ih =>
        unfold findStart
        rw [plane_eq, nearZero_eq, if_pos (by simpa using zero_narrow hl he (hz p)), ih]
    unfold vertexNormal
    rw [show (cubeCorner K ++ [(0 : P3 K)]).getLast? = some (0 : P3 K) from rfl]
    simp only [hs]

/-- C126: `NormalShouldFlip` for a surface between a volume and the outside tells the direction of two following elements. -/
theorem C126_flip (l : List Int) (hn : l.Nodup) (h3 : 3 ≤ l.length) (e1 e2 a b : Int) (hab : a ≠ b) (h0 : a = 0 ∨ b = 0) (inner : Bool) :
    (Follows l e1 e2 → normalShouldFlip l e1 e2 [a, b] inner = .ok ((if b = 0 then -1 else 1) * if inner then -1 else 1)) ∧
    (Follows l e2 e1 → normalShouldFlip l e1 e2 [a, b] inner = .ok ((if b = 0 then 1 else -1) * if inner then -1 else 1)) :=
  flip_ok hn h3 hab h0 inner

/-- C126: `NormalShouldFlip` answers only for a surface between one volume and the outside; for any other list it throws. -/
theorem C126_refuses (l : List Int) (e1 e2 : Int) (vs : List Int) (inner : Bool)
    (h : ¬ ∃ a b, vs = [a, b] ∧ a ≠ b ∧ (a = 0 ∨ b = 0)) : normalShouldFlip l e1 e2 vs inner = .error .throws := by
  unfold normalShouldFlip
  split
  · rename_i a b
    by_cases hab : a = b
    · rw [if_pos hab]
    · rw [if_neg hab]
      have ha : a ≠ 0 := fun h0 => h ⟨a, b, rfl, hab, .inl h0⟩
      have hb : b ≠ 0 := fun h0 => h ⟨a, b, rfl, hab, .inr h0⟩
      simp [ha, hb]
  · rfl

example : normalShouldFlip [4, 9, 2, 7] 7 4 [0, 0] true = .error .throws ∧ normalShouldFlip [4, 9, 2, 7] 7 4 [2, 3] true = .error .throws :=
  ⟨C126_refuses _ _ _ _ _ (by rintro ⟨a, b, h1, h2, -⟩; simp at h1; omega),
    C126_refuses _ _ _ _ _ (by rintro ⟨a, b, h1, -, h3⟩; simp at h1; omega)⟩

example : normalShouldFlip [4, 9, 2, 7] 7 4 [3, 0] true = .ok 1 :=
  (C126_flip [4, 9, 2, 7] (by decide) (by decide) 7 4 3 0 (by decide) (.inr rfl) true).1 ⟨3, rfl, rfl⟩

/-- C126: in a mesh with coherent orientation, at a vertex of the boundary of a volume where no corner of a surface is too small,
`vert::Normal` gives a vector of length 1.  It is on the outer side in each direction `d` which is on the outer side of all the
corners at the vertex. -/
theorem C126_outward_partial {m : Mesh} {w : Int → Nat → Int} (hm : SolidMesh m w) (hco : Coherent m.edges m.surfs w)
    {tab : List Int → Table} (ht : ∀ l, IsTable l (tab l)) {v : Vert} (hv : v ∈ m.verts) {c : Int} (hc : c ≠ 0)
    (hb : BoundaryVert m v c) {len : P3 K → K} (hl : IsLen len) {ang : P3 K → P3 K → K} (ha : IsAngle ang) {eps : K} (he : 0 < eps)
    (co : Int → P3 K)
    (hw : ∀ f ∈ m.surfs, ∀ k < f.edgeind.length, w f.index (k + 1) = v.index → eps ≤ len (outCorner co f (w f.index) k)) (d : P3 K)
    (hd : ∀ f ∈ m.surfs, ∀ k < f.edgeind.length, w f.index (k + 1) = v.index → 0 < Spec.inner d (outCorner co f (w f.index) k)) :
    ∃ n, vertNormal len ang eps tab m co v false = .ok (n, true) ∧ len n = 1 ∧ 0 < Spec.inner d n :=
  vertNormal_out hm hco ht hv hc hb hl ha he co hw d hd

theorem farTet_coherent : Coherent farTet.edges farTet.surfs farW := by
  have h : farTet.surfs.map (fun f => swapIf ((fun _ : Int => false) f.index) f) = farTet.surfs := rfl
  have := farTet_orientable
  unfold Orientable at this
  rw [h] at this
  exact this

theorem farTet_boundary : BoundaryVert farTet ⟨1, [2, 3, 6], [10, 10, 10], true⟩ 1 where
  ring := by
    refine ⟨[2, 3, 6], by decide, by decide, fun e => Iff.rfl, fun k => [2, 4, 3, 2].getD k 0, fun k e hk => ?_, rfl,
      fun i j hi hj => (show ∀ i < 3, ∀ j < 3, [(2 : Int), 4, 3, 2].getD i 0 = [(2 : Int), 4, 3, 2].getD j 0 → i = j by decide) i hi j hj⟩
    have hk3 : k < 3 := (List.getElem?_eq_some_iff.1 hk).1
    interval_cases k
    · cases hk
      exact ⟨⟨2, [1, 2], [2, 4], true⟩, by decide, rfl, .inl rfl⟩
    · cases hk
      exact ⟨⟨3, [1, 3], [3, 4], true⟩, by decide, rfl, .inr rfl⟩
    · cases hk
      exact ⟨⟨6, [1, 4], [2, 3], true⟩, by decide, rfl, .inr rfl⟩
  side := by decide +kernel

theorem farTet_corners {f : Surf} (hf : f ∈ farTet.surfs) {k : Nat} (hk : k < f.edgeind.length) (h : farW f.index (k + 1) = 1) :
    outCorner (awayCo K) f (farW f.index) k = ![0, -1, 0] ∨ outCorner (awayCo K) f (farW f.index) k = ![-1, 0, 0] ∨
      outCorner (awayCo K) f (farW f.index) k = ![0, 0, -1] := by
  have e1 : (11 - 10 : K) = 1 := by norm_num
  simp only [farTet, List.mem_cons, List.not_mem_nil, or_false] at hf
  rcases hf with rfl | rfl | rfl | rfl <;> simp only [List.length_cons, List.length_nil] at hk <;> interval_cases k <;>
    first
      | exact absurd h (by decide)
      | (simp [outCorner, farW, farRing, awayCo, cornerNormal, e1, funext_iff, Fin.forall_fin_succ])

/-- The normal at the corner of a tetrahedron between the three planes of the axes. -/
example (tab : List Int → Table) (ht : ∀ l, IsTable l (tab l)) :
    ∃ n, vertNormal (fun v : P3 ℝ => Real.sqrt (Spec.inner v v)) realAngle (1 / 10) tab farTet (awayCo ℝ)
      ⟨1, [2, 3, 6], [10, 10, 10], true⟩ false = .ok (n, true) ∧ 0 < Spec.inner ![-1, -2, -3] n := by
  obtain ⟨n, h1, -, h2⟩ := C126_outward_partial farTet_solid farTet_coherent ht (v := ⟨1, [2, 3, 6], [10, 10, 10], true⟩) (by decide)
    (c := 1) (by decide) farTet_boundary realLen_isLen realAngle_isAngle (eps := 1 / 10) (by norm_num) (awayCo ℝ)
    (fun f hf k hk h => by
      have hlen : ∀ x : P3 ℝ, Spec.inner x x = 1 * 1 → (1 / 10 : ℝ) ≤ Real.sqrt (Spec.inner x x) := fun x hx => by
        rw [len_of_inner realLen_isLen zero_le_one hx]
        norm_num
      rcases farTet_corners (K := ℝ) hf hk h with e | e | e <;> rw [e] <;>
        exact hlen _ (by simp [Spec.inner, Fin.sum_univ_three]))
    ![-1, -2, -3] (fun f hf k hk h => by
      rcases farTet_corners (K := ℝ) hf hk h with e | e | e <;> rw [e] <;> simp [Spec.inner, Fin.sum_univ_three])
  exact ⟨n, h1, h2⟩

/-- The tetrahedron inside of a second volume. -/
def innerTet : Mesh :=
  { farTet with surfs := farTet.surfs.map fun f => { f with voluind := [1, 2] },
                volus := [{ index := 1, surfind := [1, 2, 3, 4] }, { index := 2, surfind := [1, 2, 3, 4] }] }

/-- C126 is violated: between two volumes `vert::Normal` throws, though the normals of the surfaces are known and others of its
failures are returned. -/
theorem C126_between_violated {len : P3 K → K} (hl : IsLen len) {ang : P3 K → P3 K → K} (ha : IsAngle ang) {eps : K} (he1 : eps ≤ 1)
    (tab : List Int → Table) :
    Sound innerTet ∧ Coherent innerTet.edges innerTet.surfs farW ∧
    (∃ n, vertexNormal len ang eps (awayCo K 1) [awayCo K 2, awayCo K 3, awayCo K 4] = .ok n) ∧
    vertNormal len ang eps tab innerTet (awayCo K) ⟨1, [2, 3, 6], [10, 10, 10], true⟩ true = .error .throws := by
  have e1 : (11 - 10 : K) = 1 := by norm_num
  have hn : ∀ q ∈ fanPairs [awayCo K 2, awayCo K 3, awayCo K 4], len (cornerNormal (awayCo K 1) q.1 q.2) = 1 := by
    intro q hq
    simp only [fanPairs, List.rotate_cons_succ, List.rotate_zero, List.cons_append, List.nil_append, List.zip_cons_cons,
      List.zip_nil_right, List.mem_cons, List.not_mem_nil, or_false] at hq
    rcases hq with rfl | rfl | rfl <;>
      exact len_of_inner hl zero_le_one (by simp [Spec.inner, Fin.sum_univ_three, cornerNormal, awayCo, e1])
  have hv : ∃ n, vertexNormal len ang eps (awayCo K 1) [awayCo K 2, awayCo K 3, awayCo K 4] = .ok n := by
    refine ⟨_, C126_normal_partial (a := awayCo K 4) (b := awayCo K 2) rfl rfl ?_ fun q hq => ?_⟩
    · rw [hn (awayCo K 4, awayCo K 2) (List.mem_of_getLast? (last_pair rfl rfl)), abs_one]
      exact he1
    · exact (cornerAngle_pos ha (ne_zero_of_len hl (by rw [hn q (List.mem_filter.1 hq).1]; exact one_ne_zero))).ne'
  refine ⟨sound_of_checked (by decide +kernel), coherent_of_checked (by decide +kernel), hv, ?_⟩
  obtain ⟨n, hn⟩ := hv
  have hs : surrounding tab innerTet (awayCo K) ⟨1, [2, 3, 6], [10, 10, 10], true⟩ true =
      .ok (some ([2, 3, 6], [awayCo K 2, awayCo K 3, awayCo K 4])) := rfl
  have hg : signOf innerTet [2, 3, 6] = .error .throws := by decide +kernel
  unfold vertNormal
  rw [hs]
  simp only [Except.bind, hn, hg]
  rfl

end RSVS.Props
