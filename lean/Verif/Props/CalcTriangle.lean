import Verif.Lemmas.CalcTriangle
import Verif.Props.CentroidHess

/-! # What a triangle adds are derivatives of its volume and area (C79) -/

namespace RSVS.Props

open RSVS.Spec RSVS.Math RSVS.Calc

theorem areaF_reg (p q r : Fin 3 → ℝ) (eps : ℝ) : areaF p q r eps = triAreaReg eps p q r := by
  rw [areaF_eq, areaSq_eq, triAreaReg]
  ring

/-- A point that does not depend on the listed snaxels, or depends on a fraction directly. -/
def Straight (vars : List ℤ) (p : Pt) : Prop :=
  (∃ c, p = .corner c) ∨ ∀ s ∈ vars, ¬ p.Uses s

theorem pos_congr {R : Rails} {p : Pt} {d d' : ℤ → ℝ} (h : ∀ s, p.Uses s → d s = d' s) :
    p.pos R d = p.pos R d' := by
  have hc : ∀ c : Corner, (∀ s, c = .snaxel s → d s = d' s) → c.pos R d = c.pos R d' := by
    intro c hc
    cases c with
    | node i => rfl
    | snaxel s => simp only [Corner.pos, Rails.snaxel, hc s rfl]
  cases p with
  | corner c => exact hc c h
  | centre n c =>
    simp only [Pt.pos]
    congr 1
    funext k
    exact hc (c k) fun s hs => h s ⟨k, hs⟩
  | fixed p => rfl

theorem straight_hess {R : Rails} {d : ℤ → ℝ} {vars : List ℤ} {p : Pt} (h : Straight vars p) (k : Fin 3)
    (x : Fin vars.length → ℝ) :
    IsHess (fun y => p.pos R (move d vars y) k) (fun _ _ => 0) x := by
  obtain ⟨c, rfl⟩ | h := h
  · exact corner_hess R d vars c k x
  · have e : (fun y : Fin vars.length → ℝ => p.pos R (move d vars y) k) = fun _ => p.pos R d k := by
      funext y
      rw [pos_congr fun s hs => ?_]
      unfold move
      rw [dif_neg fun hm => h s hm hs]
    rw [e]
    exact ⟨fun _ _ => 0, .of_forall fun y => IsGrad.const _, fun _ => IsGrad.const _⟩

/-- The gradient of a volume, in nine coordinates. -/
theorem volumeBy_ok {m : Method} (hm : ∀ h, m = .differences h → h ≠ 0) (p q r : Fin 3 → ℝ) :
    volumeBy m p q r = volumeCalc p q r fun _ _ => 0 := by
  cases m with
  | exact => rfl
  | differences h => exact C74_differences p q r _ (hm h rfl)

/-- What `CalcTriangle` works out of a triangle.  `K` are the Hessians of the nine coordinates. -/
theorem trianglePart_ok {E : Env} {R : Rails} {d : ℤ → ℝ} {t : Tri} {P : Fin 3 → Pt}
    (h : DescribesTri E R d t P) (dvMap : List ℤ) {m : Method}
    (hm : ∀ h, m = .differences h → h ≠ 0) (epsS : ℝ) (ha : areaOf R epsS P d ≠ 0) :
    ∃ p, trianglePart E dvMap true m epsS 0 0 t = .ok p ∧
      p.dvs.Nodup ∧ (∀ s, s ∈ p.dvs ↔ s ∈ dvMap ∧ ∃ i, (P i).Uses s) ∧
      p.vol.1 = -volumeOf R P d ∧ p.area.1 = areaOf R 0 P d ∧
      IsGrad (fun y => -volumeOf R P (move d p.dvs y)) (fun k => p.vol.2.1.val 0 k) (here d p.dvs) ∧
      IsGrad (fun y => areaOf R epsS P (move d p.dvs y)) (fun k => p.area.2.1.val 0 k)
        (here d p.dvs) ∧
      ∀ K : Fin 9 → Fin p.dvs.length → Fin p.dvs.length → ℝ,
        (∀ a, IsHess (fun y => nine (fun i => (P i).pos R (move d p.dvs y)) a) (K a) (here d p.dvs)) →
        IsHess (fun y => -volumeOf R P (move d p.dvs y)) (fun i j =>
          ∑ a, volumeDf ((P 0).pos R d) ((P 1).pos R d) ((P 2).pos R d) a * K a i j +
            p.vol.2.2.val i j) (here d p.dvs) ∧
        IsHess (fun y => areaOf R epsS P (move d p.dvs y)) (fun i j =>
          ∑ a, areaDf ((P 0).pos R d) ((P 1).pos R d) ((P 2).pos R d) epsS a * K a i j +
            p.area.2.2.val i j) (here d p.dvs) := by
  obtain ⟨dvs, hd, hn, hu⟩ := activeDvs_eq h dvMap
  obtain ⟨D, C, hD, hDC, hC⟩ := dPos_grad h dvs
  let pos : (Fin dvs.length → ℝ) → Fin 9 → ℝ := fun y => nine fun i => (P i).pos R (move d dvs y)
  have hp : pos (here d dvs) = nine fun i => (P i).pos R d := by
    simp only [pos, move_here]
  have hq0 : ∀ y, q0 (pos y) = (P 0).pos R (move d dvs y) := fun y => q0_nine _
  have hq1 : ∀ y, q1 (pos y) = (P 1).pos R (move d dvs y) := fun y => q1_nine _
  have hq2 : ∀ y, q2 (pos y) = (P 2).pos R (move d dvs y) := fun y => q2_nine _
  -- volume
  obtain ⟨-, v2, v3⟩ := C74_calc (pos (here d dvs))
  obtain ⟨G, H, hc, -, -, -, -, hG, hH⟩ := chain_ok
    (volumeCalc (q0 (pos (here d dvs))) (q1 (pos (here d dvs))) (q2 (pos (here d dvs)))
      fun _ _ => 0) (fun Y => -coneVolume (q0 Y) (q1 Y) (q2 Y)) pos (here d dvs) C hDC hC v2
  -- area
  have hsq : 0 < areaSq (q0 (pos (here d dvs))) (q1 (pos (here d dvs))) (q2 (pos (here d dvs))) epsS := by
    by_contra hc
    apply ha
    rw [hq0, hq1, hq2, move_here] at hc
    rw [areaOf, ← areaF_reg, areaF_eq, Real.sqrt_eq_zero_of_nonpos (not_lt.mp hc), zero_mul]
  obtain ⟨G', H', hc', -, -, -, -, hG', hH'⟩ := chain_ok
    (areaCalc (q0 (pos (here d dvs))) (q1 (pos (here d dvs))) (q2 (pos (here d dvs))) epsS)
    (fun Y => areaF (q0 Y) (q1 Y) (q2 Y) epsS) pos (here d dvs) C hDC hC
    (C75_grad_partial _ epsS hsq)
  have w3 := C75_hess_partial _ epsS hsq
  simp only [hq0, hq1, hq2, move_here] at hc hc' hG hH hG' hH' v3 w3
  have hG2 : IsGrad (fun y => areaOf R epsS P (move d dvs y)) _ (here d dvs) :=
    isGrad_of_eq hG' fun y => areaF_reg _ _ _ _
  refine ⟨⟨dvs, ((volumeCalc ((P 0).pos R d) ((P 1).pos R d) ((P 2).pos R d) fun _ _ => 0).1, G, H),
    ((areaCalc ((P 0).pos R d) ((P 1).pos R d) ((P 2).pos R d) epsS).1, G', H')⟩, ?_, hn, hu, ?_, ?_,
    hG, hG2, fun K hK => ⟨hH K hK v3, isHess_of_eq (hH' K hK w3) fun y => areaF_reg _ _ _ _⟩⟩
  · unfold trianglePart
    rw [coordOf_eq (h 0), coordOf_eq (h 1), coordOf_eq (h 2), hd]
    simp only [Except.bind, hD, volumeBy_ok hm, hc, hc', Except.map]
  · simp only [volumeCalc]
    rw [C74_value]
    rfl
  · simp only [areaCalc]
    rw [areaF_reg]
    rfl

/-- C79.  For a triangle whose points are described by the triangulation, `CalcTriangle` finds the
active snaxels it depends on, its value is minus the signed volume, and `dConstrPart` is the gradient
of that with respect to them; `HConstrPart` is the Hessian if no centroid moves.  Likewise for the
area, of which the derivatives are those with `epsS` below the root.  `eps` and `eps2`, the
constants of the centroid, are zero. -/
theorem C79_partial {E : Env} {R : Rails} {d : ℤ → ℝ} {t : Tri} {P : Fin 3 → Pt}
    (h : DescribesTri E R d t P) (dvMap : List ℤ) {m : Method}
    (hm : ∀ h, m = .differences h → h ≠ 0) (epsS : ℝ) (ha : areaOf R epsS P d ≠ 0) :
    ∃ p, trianglePart E dvMap true m epsS 0 0 t = .ok p ∧
      p.dvs.Nodup ∧ (∀ s, s ∈ p.dvs ↔ s ∈ dvMap ∧ ∃ i, (P i).Uses s) ∧
      p.vol.1 = -volumeOf R P d ∧ p.area.1 = areaOf R 0 P d ∧
      IsGrad (fun y => -volumeOf R P (move d p.dvs y)) (fun k => p.vol.2.1.val 0 k) (here d p.dvs) ∧
      IsGrad (fun y => areaOf R epsS P (move d p.dvs y)) (fun k => p.area.2.1.val 0 k)
        (here d p.dvs) ∧
      ((∀ i, Straight p.dvs (P i)) →
        IsHess (fun y => -volumeOf R P (move d p.dvs y)) (fun i j => p.vol.2.2.val i j)
          (here d p.dvs) ∧
        IsHess (fun y => areaOf R epsS P (move d p.dvs y)) (fun i j => p.area.2.2.val i j)
          (here d p.dvs)) := by
  obtain ⟨p, h1, h2, h3, h4, h5, h6, h7, h8⟩ := trianglePart_ok h dvMap hm epsS ha
  refine ⟨p, h1, h2, h3, h4, h5, h6, h7, fun hs => ?_⟩
  have := h8 (fun _ _ _ => 0) fun a => straight_hess (hs _) _ _
  simpa only [mul_zero, Finset.sum_const_zero, zero_add] using this

/-- C79, what is missing: the Hessians are short by the gradient with respect to the coordinates times
the second derivatives of the coordinates, which exist. -/
theorem C79_missing_partial {E : Env} {R : Rails} {d : ℤ → ℝ} {t : Tri} {P : Fin 3 → Pt}
    (h : DescribesTri E R d t P) (dvMap : List ℤ) {m : Method}
    (hm : ∀ h, m = .differences h → h ≠ 0) (epsS : ℝ) (ha : areaOf R epsS P d ≠ 0) :
    ∃ p, trianglePart E dvMap true m epsS 0 0 t = .ok p ∧
      ∃ (K : Fin 9 → Fin p.dvs.length → Fin p.dvs.length → ℝ) (V A : Fin 9 → ℝ),
        (∀ a, IsHess (fun y => nine (fun i => (P i).pos R (move d p.dvs y)) a) (K a) (here d p.dvs)) ∧
        IsGrad (fun Y => -coneVolume (q0 Y) (q1 Y) (q2 Y)) V (nine fun i => (P i).pos R d) ∧
        IsGrad (fun Y => triAreaReg epsS (q0 Y) (q1 Y) (q2 Y)) A (nine fun i => (P i).pos R d) ∧
        IsHess (fun y => -volumeOf R P (move d p.dvs y))
          (fun i j => ∑ a, V a * K a i j + p.vol.2.2.val i j) (here d p.dvs) ∧
        IsHess (fun y => areaOf R epsS P (move d p.dvs y))
          (fun i j => ∑ a, A a * K a i j + p.area.2.2.val i j) (here d p.dvs) := by
  obtain ⟨p, h1, -, -, -, -, -, -, h8⟩ := trianglePart_ok h dvMap hm epsS ha
  choose K hK using fun a : Fin 9 =>
    point_hess (h (Fin.ofNat 3 (a / 3))) p.dvs (Fin.ofNat 3 a)
  refine ⟨p, h1, K, _, _, hK, ?_, ?_, (h8 K hK).1, (h8 K hK).2⟩
  · have := C74_grad (nine fun i => (P i).pos R d)
    rwa [q0_nine, q1_nine, q2_nine] at this
  · have := C75_grad_partial (nine fun i => (P i).pos R d) epsS
    rw [q0_nine, q1_nine, q2_nine] at this
    refine isGrad_of_eq (this ?_) fun y => areaF_reg _ _ _ _
    by_contra hc
    apply ha
    rw [areaOf, ← areaF_reg, areaF_eq, Real.sqrt_eq_zero_of_nonpos (not_lt.mp hc), zero_mul]

/-- C79 as stated, for the Hessian of the volume. -/
def C79_statement : Prop :=
  ∀ (E : Env) (R : Rails) (d : ℤ → ℝ) (t : Tri) (P : Fin 3 → Pt), DescribesTri E R d t P →
    ∀ (dvMap : List ℤ) (epsS : ℝ), areaOf R epsS P d ≠ 0 →
    ∃ p, trianglePart E dvMap true .exact epsS 0 0 t = .ok p ∧
      IsHess (fun y => -volumeOf R P (move d p.dvs y)) (fun i j => p.vol.2.2.val i j) (here d p.dvs)

/-- A square and a point above it; one snaxel on an edge of the square. -/
def wRails : Rails where
  node i := if i = 1 then ![1, 0, 0] else if i = 2 then ![1, 1, 0] else if i = 3 then ![0, 1, 0]
    else if i = 4 then ![0, 0, 6] else ![0, 0, 0]
  start _ := 3
  stop _ := 2

def wCorners : Fin 4 → Corner := ![.node 0, .node 1, .node 2, .snaxel 10]

noncomputable def wEnv : Env where
  meshVert i := .ok (wRails.node i)
  snakeVert s := .ok (wRails.snaxel (fun _ => 0) s)
  snax _ := .ok (3, 2)
  trivert _ := .ok ⟨(Pt.centre 3 wCorners).pos wRails fun _ => 0, 3, 0⟩
  trisurf _ := .ok (List.ofFn fun k => code (wCorners k))
  snakeSurf _ := .error .throws
  snakeConn _ := .error .throws

def wTri : Tri := ⟨![1, 1, 3], ![4, 1, 0], [], []⟩

def wPts : Fin 3 → Pt := ![.corner (.node 4), .corner (.node 1), .centre 3 wCorners]

theorem wPos (d : ℤ → ℝ) : (fun k => (wCorners k).pos wRails d) = poly (sqT (d 10)) := by
  funext k a
  match k, a with
  | 0, 0 | 0, 1 | 0, 2 | 1, 0 | 1, 1 | 1, 2 | 2, 0 | 2, 1 | 2, 2 | 3, 0 | 3, 1 | 3, 2 =>
    simp [wCorners, Corner.pos, wRails, poly, sqT, Rails.snaxel, along]

theorem wRegular : Regular wRails (fun _ => 0) wCorners where
  four := le_rfl
  ne j := by
    have h := wPos fun _ => 0
    have e : ∀ k, (wCorners k).pos wRails (fun _ => 0) = poly (sqT 0) k := fun k => congrFun h k
    rw [e, e]
    exact sqT_ne j
  long := by
    rw [wPos, sqT_per]
    norm_num

theorem wSees (c : Corner) : SeesCorner wEnv wRails (fun _ => 0) c := by
  cases c with
  | node i => rfl
  | snaxel s => exact ⟨⟨rfl, rfl, rfl⟩, rfl⟩

theorem wDescribes : DescribesTri wEnv wRails (fun _ => 0) wTri wPts := by
  intro i
  match i with
  | 0 => exact .node 4 (wSees _)
  | 1 => exact .node 1 (wSees _)
  | 2 => exact .hybrid 0 0 wCorners wRegular rfl rfl fun k => wSees _

theorem wArea : areaOf wRails 1 wPts (fun _ => 0) ≠ 0 := by
  unfold areaOf triAreaReg
  have : ∀ p : Fin 3 → ℝ, 0 ≤ normSq p := fun p => by
    simp only [normSq, dotProduct, Fin.sum_univ_three]
    nlinarith [mul_self_nonneg (p 0), mul_self_nonneg (p 1), mul_self_nonneg (p 2)]
  refine (div_pos (Real.sqrt_pos.mpr ?_) two_pos).ne'
  exact add_pos_of_nonneg_of_pos (this _) one_pos

example : ∃ p, trianglePart wEnv [10, 11] true .exact 1 0 0 wTri = .ok p ∧ 10 ∈ p.dvs ∧
    11 ∉ p.dvs := by
  obtain ⟨p, h1, -, h3, -⟩ := C79_partial wDescribes [10, 11] (m := .exact) (by simp) 1 wArea
  refine ⟨p, h1, (h3 10).mpr ⟨by simp, 2, 3, rfl⟩, fun h => ?_⟩
  obtain ⟨-, i, hi⟩ := (h3 11).mp h
  match i with
  | 0 => cases hi
  | 1 => cases hi
  | 2 =>
    obtain ⟨k, hk⟩ := hi
    match k with
    | 0 | 1 | 2 => cases hk
    | 3 => simp [wCorners] at hk

/-- The middle coordinate of the centroid as the snaxel moves. -/
noncomputable def wC (t : ℝ) : ℝ :=
  (1 / 2 + (1 - t) + Real.sqrt (1 + t * t) / 2) / (2 + (1 - t) + Real.sqrt (1 + t * t))

theorem wC_eq {t : ℝ} (ht : t < 1) : edgeCentroid (poly (sqT t)) 1 = wC t := by
  have e1 : (1 : Fin 4) + 1 = 2 := rfl
  have e2 : (2 : Fin 4) + 1 = 3 := rfl
  have e3 : (3 : Fin 4) + 1 = 0 := rfl
  have l0 : dist3 (poly (sqT t) 0) (poly (sqT t) 1) = 1 := by simp [dist3_eq, sqd, poly, sqT]
  have l1 : dist3 (poly (sqT t) 1) (poly (sqT t) 2) = 1 := by simp [dist3_eq, sqd, poly, sqT]
  have l2 : dist3 (poly (sqT t) 2) (poly (sqT t) 3) = 1 - t := by
    simp [dist3_eq, sqd, poly, sqT, Real.sqrt_mul_self (sub_pos.mpr ht).le]
  have l3 : dist3 (poly (sqT t) 3) (poly (sqT t) 0) = Real.sqrt (1 + t * t) := by
    simp [dist3_eq, sqd, poly, sqT]
    ring_nf
  unfold edgeCentroid perimeter wC
  simp only [Fin.sum_univ_four, zero_add, e1, e2, e3, l0, l1, l2, l3]
  simp [poly, sqT]
  congr 1
  ring

noncomputable def wS (t : ℝ) : ℝ := Real.sqrt (1 + t * t)

theorem wS_deriv (t : ℝ) : HasDerivAt wS (t / wS t) t := by
  have h1 : HasDerivAt (fun t : ℝ => 1 + t * t) (2 * t) t := by
    refine (((hasDerivAt_id t).mul (hasDerivAt_id t)).const_add 1).congr_deriv ?_
    simp only [id]
    ring
  refine (h1.sqrt (by nlinarith [mul_self_nonneg t])).congr_deriv ?_
  unfold wS
  rw [mul_div_mul_left _ _ two_ne_zero]

theorem wS_pos (t : ℝ) : 0 < wS t := Real.sqrt_pos.mpr (by nlinarith [mul_self_nonneg t])

noncomputable def wN (t : ℝ) : ℝ := 1 / 2 + (1 - t) + wS t / 2
noncomputable def wD (t : ℝ) : ℝ := 2 + (1 - t) + wS t

theorem wN_deriv (t : ℝ) : HasDerivAt wN (-1 + t / wS t / 2) t :=
  (((hasDerivAt_id t).const_sub 1).const_add (1 / 2)).add ((wS_deriv t).div_const 2)

theorem wD_deriv (t : ℝ) : HasDerivAt wD (-1 + t / wS t) t :=
  (((hasDerivAt_id t).const_sub 1).const_add 2).add (wS_deriv t)

theorem wD_pos {t : ℝ} (ht : t < 1) : wD t ≠ 0 := by
  have := wS_pos t
  unfold wD
  linarith

noncomputable def wC1 (t : ℝ) : ℝ :=
  ((-1 + t / wS t / 2) * wD t - wN t * (-1 + t / wS t)) / wD t ^ 2

theorem wC_deriv {t : ℝ} (ht : t < 1) : HasDerivAt wC (wC1 t) t :=
  (wN_deriv t).div (wD_deriv t) (wD_pos ht)

theorem wS_zero : wS 0 = 1 := by simp [wS]

theorem wC1_deriv : HasDerivAt wC1 (-1 / 16) 0 := by
  have hq : HasDerivAt (fun t => t / wS t) 1 0 := by
    refine ((hasDerivAt_id (0 : ℝ)).div (wS_deriv 0) (wS_pos 0).ne').congr_deriv ?_
    simp [wS_zero]
  have hD := wD_deriv 0
  have hN := wN_deriv 0
  have h := ((((hq.div_const 2).const_add (-1)).mul hD).sub
    (hN.mul (hq.const_add (-1)))).div (hD.pow 2) (pow_ne_zero 2 (wD_pos one_pos))
  refine h.congr_deriv ?_
  simp [wS_zero, wD, wN]
  norm_num

/-- C79 as stated is false: the curvature of the centroid is left out. -/
theorem C79_violated : ¬ C79_statement := by
  intro h
  obtain ⟨p, h1, h2⟩ := h _ _ _ _ _ wDescribes [10] 1 wArea
  obtain ⟨p', h1', hn, hm, -, -, -, -, h8⟩ :=
    trianglePart_ok wDescribes [10] (m := .exact) (by simp) 1 wArea
  rw [h1] at h1'
  cases h1'
  choose K hK using fun a : Fin 9 =>
    point_hess (wDescribes (Fin.ofNat 3 (a / 3))) p.dvs (Fin.ofNat 3 a)
  have hd : p.dvs = [10] := by
    have h10 : (10 : ℤ) ∈ p.dvs := (hm 10).mpr ⟨by simp, 2, 3, rfl⟩
    have hall : ∀ s ∈ p.dvs, s = 10 := fun s hs => by simpa using ((hm s).mp hs).1
    exact eq_singleton_of hn h10 hall
  have hs := isHess_unique (h8 K hK).1 h2
  obtain ⟨dvs, v, A⟩ := p
  simp only at hd hs hK
  subst hd
  have hz : ∑ a, volumeDf ((wPts 0).pos wRails fun _ => 0) ((wPts 1).pos wRails fun _ => 0)
      ((wPts 2).pos wRails fun _ => 0) a * K a 0 0 = 0 := by
    have := congrFun (congrFun hs 0) 0
    simpa using this
  have hc : ∀ a : Fin 9, a.val < 6 → K a = fun _ _ => 0 := by
    intro a ha
    refine isHess_unique (hK a) ?_
    have : ∃ q : Fin 3 → ℝ, ∀ d, (wPts (Fin.ofNat 3 (a / 3))).pos wRails d = q := by
      have : a.val / 3 = 0 ∨ a.val / 3 = 1 := by omega
      obtain h | h := this <;> rw [h]
      · exact ⟨_, fun d => rfl⟩
      · exact ⟨_, fun d => rfl⟩
    obtain ⟨q, hq⟩ := this
    simp only [hq]
    exact ⟨fun _ _ => 0, .of_forall fun y => IsGrad.const _, fun _ => IsGrad.const _⟩
  have h7 : K 7 0 0 = -1 / 16 := by
    have hk := hK 7
    have hx : here (fun _ => 0) [10] = fun _ => (0 : ℝ) := rfl
    rw [hx] at hk
    refine isHess_one hk ?_ wC1_deriv
    filter_upwards [Iio_mem_nhds (show (0 : ℝ) < 1 by norm_num)] with t ht
    refine (wC_deriv ht).congr_of_eventuallyEq ?_
    filter_upwards [Iio_mem_nhds ht] with s hs
    rw [← wC_eq hs]
    have := congrFun (congrArg edgeCentroid (wPos (move (fun _ => 0) [10] fun _ => s))) 1
    rw [show move (fun _ => 0) [10] (fun _ => s) 10 = s by simp [move]] at this
    exact this
  have e0 : (wPts 0).pos wRails (fun _ => 0) = ![0, 0, 6] := by
    simp [wPts, Pt.pos, Corner.pos, wRails]
  have e1 : (wPts 1).pos wRails (fun _ => 0) = ![1, 0, 0] := by
    simp [wPts, Pt.pos, Corner.pos, wRails]
  rw [e0, e1, Finset.sum_eq_single 7, h7] at hz
  · simp [volumeDf] at hz
  · intro a _ ha
    by_cases h6 : a.val < 6
    · rw [hc a h6, mul_zero]
    · have : a = 6 ∨ a = 8 := by omega
      obtain rfl | rfl := this <;> simp [volumeDf]
  · simp

end RSVS.Props
