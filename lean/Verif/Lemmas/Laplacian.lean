import Verif.Lemmas.VertNormalVert
import Verif.Model.Laplacian
import Verif.Spec.Laplacian

/-!
# Lemmas for the Laplacian at a vertex
-/

namespace RSVS.Laplacian

open RSVS RSVS.Mesh RSVS.Geo RSVS.Spec RSVS.VertNormal

variable {K : Type} [Field K] [LinearOrder K] [IsStrictOrderedRing K]

/-- The cotangent at the first point of a triangle, which belongs to the second. -/
def cotFirst (len : P3 K → K) (c : P3 K) (q : P3 K × P3 K) : K :=
  Spec.inner (fun j => q.2 j - q.1 j) (fun j => c j - q.1 j) / len (cornerNormal c q.1 q.2)

/-- The cotangent at the second point of a triangle, which belongs to the first. -/
def cotSecond (len : P3 K → K) (c : P3 K) (q : P3 K × P3 K) : K :=
  Spec.inner (fun j => q.1 j - q.2 j) (fun j => c j - q.2 j) / len (cornerNormal c q.1 q.2)

theorem pull_eq (len : P3 K → K) (c : P3 K) (q : P3 K × P3 K) (i : Fin 3) :
    cotFirst len c q * (q.2 i - c i) + cotSecond len c q * (q.1 i - c i) = areaPull len c q i := by
  unfold cotFirst cotSecond areaPull
  rw [div_mul_eq_mul_div, div_mul_eq_mul_div, ← add_div]
  congr 1
  simp only [Spec.inner, Fin.sum_univ_three, cornerNormal, Pi.zero_apply, sub_zero, Matrix.cons_val_zero, Matrix.cons_val_one,
    Matrix.cons_val]
  fin_cases i <;> simp <;> ring

theorem side_eq (len : P3 K → K) (c : P3 K) (q : P3 K × P3 K) : cotFirst len c q + cotSecond len c q = sideWeight len c q := by
  unfold cotFirst cotSecond sideWeight
  rw [← add_div]
  congr 1
  simp only [Spec.inner, Fin.sum_univ_three]
  ring

theorem cot_first {len : P3 K → K} (hl : IsLen len) {ang : P3 K → P3 K → K} {cot : K → Option K} (hc : IsCot len ang cot)
    {c : P3 K} {q : P3 K × P3 K} (h : cornerNormal c q.1 q.2 ≠ 0) : cot (angleAt ang q.1 c q.2) = some (cotFirst len c q) := by
  have e : cornerNormal 0 (fun j => c j - q.1 j) (fun j => q.2 j - q.1 j) = fun i => -cornerNormal c q.1 q.2 i := by
    funext i
    unfold cornerNormal
    fin_cases i <;> simp <;> ring
  unfold angleAt diffPoints cotFirst
  rw [hc _ _ fun h0 => h ?_]
  · rw [e, len_neg hl (fun i => -cornerNormal c q.1 q.2 i) (cornerNormal c q.1 q.2) (by simp [Spec.inner])]
  · rw [e] at h0
    funext i
    have := congrFun h0 i
    simpa using this

theorem cot_second {len : P3 K → K} {ang : P3 K → P3 K → K} {cot : K → Option K} (hc : IsCot len ang cot)
    {c : P3 K} {q : P3 K × P3 K} (h : cornerNormal c q.1 q.2 ≠ 0) : cot (angleAt ang q.2 c q.1) = some (cotSecond len c q) := by
  have e : cornerNormal 0 (fun j => c j - q.2 j) (fun j => q.1 j - q.2 j) = cornerNormal c q.1 q.2 := by
    funext i
    unfold cornerNormal
    fin_cases i <;> simp <;> ring
  unfold angleAt diffPoints cotSecond
  rw [hc _ _ (by rw [e]; exact h), e]

/-- Point `k` of the ring. -/
def ringPt (pts : List (P3 K)) (k : Nat) : P3 K := pts.getD k fun _ => 0

theorem loop_eq (cot : K → Option K) (ang : P3 K → P3 K → K) (c : P3 K) (pts : List (P3 K)) (x : Nat → K) : ∀ (l : List Nat) (s : P3 K × K),
    (∀ i ∈ l, cotWeight cot ang c (ringPt pts ((i + pts.length - 1) % pts.length)) (ringPt pts i) (ringPt pts ((i + 1) % pts.length)) = some (x i)) →
    lapLoop cot ang c pts l s = ((fun k => s.1 k + (l.map fun i => ringPt pts i k * x i).sum, s.2 + (l.map x).sum), true)
  | [], s, _ => by simp [lapLoop]
  | i :: l, s, h => by
    have hi := h i (by simp)
    unfold ringPt at hi
    unfold lapLoop
    rw [hi]
    simp only
    rw [loop_eq cot ang c pts x l _ fun j hj => h j (by simp [hj])]
    simp only [List.map_cons, List.sum_cons, ringPt, add_assoc]

theorem sum_cycle (n : Nat) (G : Nat → Nat → K) :
    ((List.range n).map fun i => G ((i + n - 1) % n) i).sum = ((List.range n).map fun i => G i ((i + 1) % n)).sum := by
  match n with
  | 0 => rfl
  | n + 1 =>
    rw [List.sum_range_succ', List.sum_range_succ]
    rw [show (0 + (n + 1) - 1) % (n + 1) = n by rw [Nat.zero_add, Nat.add_sub_cancel, Nat.mod_eq_of_lt (by omega)], Nat.mod_self, add_comm]
    congr 2
    refine List.map_congr_left fun i hi => ?_
    rw [List.mem_range] at hi
    rw [show i.succ + (n + 1) - 1 = i + (n + 1) by omega, Nat.add_mod_right, Nat.mod_eq_of_lt (show i < n + 1 by omega),
      Nat.mod_eq_of_lt (show i + 1 < n + 1 by omega)]

theorem sum_sub {α : Type} (l : List α) (f g : α → K) : (l.map fun a => f a - g a).sum = (l.map f).sum - (l.map g).sum := by
  induction l with
  | nil => simp
  | cons a l ih =>
    simp only [List.map_cons, List.sum_cons, ih]
    ring

theorem pairs_eq (pts : List (P3 K)) (g : P3 K × P3 K → K) :
    ((fanPairs pts).map g).sum = ((List.range pts.length).map fun k => g (ringPt pts k, ringPt pts ((k + 1) % pts.length))).sum := by
  rw [fanPairs_eq, List.map_map]
  rfl

/-- The loop gives the sums of the specification. -/
theorem lap_sums {len : P3 K → K} (hl : IsLen len) {ang : P3 K → P3 K → K} {cot : K → Option K} (hc : IsCot len ang cot)
    {c : P3 K} {pts : List (P3 K)} (h : ∀ q ∈ fanPairs pts, cornerNormal c q.1 q.2 ≠ 0) :
    ∃ s, lapLoop cot ang c pts (List.range pts.length) (fun _ => 0, 0) = (s, true) ∧
      s.2 = 1 / 2 * ((fanPairs pts).map (sideWeight len c)).sum ∧
      ∀ i, s.1 i - c i * s.2 = 1 / 2 * ((fanPairs pts).map fun q => areaPull len c q i).sum := by
  have hq : ∀ k < pts.length, cornerNormal c (ringPt pts k) (ringPt pts ((k + 1) % pts.length)) ≠ 0 := fun k hk =>
    h (ringPt pts k, ringPt pts ((k + 1) % pts.length)) (by
      rw [fanPairs_eq]
      exact List.mem_map.2 ⟨k, List.mem_range.2 hk, rfl⟩)
  have hprev : ∀ i < pts.length, (i + pts.length - 1) % pts.length < pts.length ∧
      ((i + pts.length - 1) % pts.length + 1) % pts.length = i := by
    intro i hi
    refine ⟨Nat.mod_lt _ (by omega), ?_⟩
    rw [Nat.mod_add_mod, show i + pts.length - 1 + 1 = i + pts.length by omega, Nat.add_mod_right, Nat.mod_eq_of_lt hi]
  let x : Nat → K := fun i => 1 / 2 * (cotFirst len c (ringPt pts ((i + pts.length - 1) % pts.length), ringPt pts i) +
    cotSecond len c (ringPt pts i, ringPt pts ((i + 1) % pts.length)))
  refine ⟨_, loop_eq cot ang c pts x _ _ fun i hi => ?_, ?_, fun i => ?_⟩
  · rw [List.mem_range] at hi
    obtain ⟨h1, h2⟩ := hprev i hi
    have a1 := cot_first hl hc (c := c) (q := (ringPt pts ((i + pts.length - 1) % pts.length), ringPt pts i)) (by
      have := hq _ h1
      rwa [h2] at this)
    have a2 := cot_second hc (c := c) (q := (ringPt pts i, ringPt pts ((i + 1) % pts.length))) (hq i hi)
    unfold cotWeight
    simp only at a1 a2
    rw [a1, a2]
  · simp only [zero_add]
    rw [pairs_eq]
    have e : ((List.range pts.length).map x).sum = 1 / 2 * (((List.range pts.length).map fun i =>
        (fun a b => cotFirst len c (ringPt pts a, ringPt pts b)) ((i + pts.length - 1) % pts.length) i).sum +
        ((List.range pts.length).map fun i => cotSecond len c (ringPt pts i, ringPt pts ((i + 1) % pts.length))).sum) := by
      rw [← List.sum_map_add, ← List.sum_map_mul_left]
    rw [e, sum_cycle pts.length fun a b => cotFirst len c (ringPt pts a, ringPt pts b), ← List.sum_map_add]
    simp only [side_eq]
  · simp only [zero_add]
    rw [pairs_eq]
    have e : ((List.range pts.length).map fun j => ringPt pts j i * x j).sum - c i * ((List.range pts.length).map x).sum =
        1 / 2 * (((List.range pts.length).map fun j =>
        (fun a b => cotFirst len c (ringPt pts a, ringPt pts b) * (ringPt pts b i - c i)) ((j + pts.length - 1) % pts.length) j).sum +
        ((List.range pts.length).map fun j => cotSecond len c (ringPt pts j, ringPt pts ((j + 1) % pts.length)) * (ringPt pts j i - c i)).sum) := by
      rw [← List.sum_map_add, ← List.sum_map_mul_left, ← List.sum_map_mul_left, ← sum_sub]
      congr 1
      refine List.map_congr_left fun j _ => ?_
      simp only [x]
      ring
    rw [e, sum_cycle pts.length fun a b => cotFirst len c (ringPt pts a, ringPt pts b) * (ringPt pts b i - c i), ← List.sum_map_add]
    simp only [← pull_eq]

theorem side_pos {len : P3 K → K} (hl : IsLen len) {c : P3 K} {q : P3 K × P3 K} (h : cornerNormal c q.1 q.2 ≠ 0) : 0 < sideWeight len c q := by
  unfold sideWeight
  refine div_pos ?_ (lt_of_le_of_ne (hl _).1 fun h0 => h (len_zero hl h0.symm))
  refine lt_of_le_of_ne (Finset.sum_nonneg fun j _ => mul_self_nonneg _) fun h0 => h ?_
  have hz : ∀ j, q.2 j - q.1 j = 0 := fun j =>
    mul_self_eq_zero.1 ((Finset.sum_eq_zero_iff_of_nonneg fun j _ => mul_self_nonneg _).1 h0.symm j (Finset.mem_univ j))
  have he : q.2 = q.1 := funext fun j => sub_eq_zero.1 (hz j)
  rw [he]
  funext i
  unfold cornerNormal
  fin_cases i <;> simp <;> ring

/-- The value before the test for a small length. -/
theorem lap_value {len : P3 K → K} (hl : IsLen len) {c : P3 K} {pts : List (P3 K)} (hne : pts ≠ [])
    (h : ∀ q ∈ fanPairs pts, cornerNormal c q.1 q.2 ≠ 0) {s : P3 K × K}
    (h1 : s.2 = 1 / 2 * ((fanPairs pts).map (sideWeight len c)).sum)
    (h2 : ∀ i, s.1 i - c i * s.2 = 1 / 2 * ((fanPairs pts).map fun q => areaPull len c q i).sum) :
    (fun k => s.1 k * (1 / s.2) - c k) = cotLaplacian len c pts := by
  have hfan : fanPairs pts ≠ [] := by
    rw [fanPairs_eq]
    simpa using hne
  have hW : 0 < ((fanPairs pts).map (sideWeight len c)).sum := sum_pos_of _ _ hfan fun q hq => side_pos hl (h q hq)
  have hs : s.2 ≠ 0 := by
    rw [h1]
    positivity
  funext i
  unfold cotLaplacian
  rw [show s.1 i * (1 / s.2) - c i = (s.1 i - c i * s.2) / s.2 by field_simp, h2, h1]
  rw [mul_div_mul_left _ _ (by norm_num)]

/-- In a flat ring the directions add up to zero. -/
theorem flat_zero {len : P3 K → K} (hl : IsLen len) {c n : P3 K} {pts : List (P3 K)} (hn : n ≠ 0) (h : FlatAround c n pts) :
    cotLaplacian len c pts = 0 := by
  have hlen : len n ≠ 0 := fun h0 => hn (len_zero hl h0)
  have e : ∀ i, ∀ q ∈ fanPairs pts, areaPull len c q i = cornerNormal 0 q.2 n i / len n - cornerNormal 0 q.1 n i / len n := by
    intro i q hq
    obtain ⟨a, ha, hN⟩ := h q hq
    have hN' : cornerNormal c q.1 q.2 = fun i => a * n i := funext hN
    have hl' : len (fun i => a * n i) = a * len n := by
      refine (mul_self_inj_of_nonneg (hl _).1 (mul_nonneg ha.le (hl n).1)).1 ?_
      rw [(hl _).2, mul_mul_mul_comm, (hl n).2]
      simp only [Spec.inner, Fin.sum_univ_three]
      ring
    unfold areaPull
    rw [hN', hl', ← sub_div]
    have ha' := ha.ne'
    rw [div_eq_div_iff (mul_ne_zero ha' hlen) hlen]
    unfold cornerNormal
    fin_cases i <;> simp <;> ring
  funext i
  unfold cotLaplacian
  have hs : ((fanPairs pts).map fun q => areaPull len c q i).sum = 0 := by
    rw [List.map_congr_left fun q hq => e i q hq, sum_sub, sub_eq_zero, pairs_eq, pairs_eq]
    rw [← sum_cycle pts.length fun a b => cornerNormal 0 (ringPt pts b) n i / len n]
  rw [hs, zero_div]
  rfl

end RSVS.Laplacian
