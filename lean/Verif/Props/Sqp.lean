import Mathlib.Tactic.NormNum
import Mathlib.Tactic.FinCases
import Verif.Lemmas.Sqp

/-! # Properties of the SQP step (C49, C50, C70-C72) -/

set_option linter.unusedSectionVars false

namespace RSVS.Props

open RSVS.Sqp RSVS.Spec

variable {K : Type} [Field K] [LinearOrder K] [IsStrictOrderedRing K]

/-! ### C50 -/

/-- C50, for limits that are not negative: every multiplier becomes what the documentation says,
and the two flags say whether one was out of bounds or NaN. -/
theorem C50_limit_partial {m : Nat} (lim : Ext K) (hl : IsLimit lim) (v : Fin m → Ext K) :
    (∀ i, LimitedTo lim (v i) ((resize lim v).lag i)) ∧
    ((resize lim v).isLarge = true ↔ ∃ i, v i ≠ .nan ∧ ¬ InLimit lim (v i)) ∧
    ((resize lim v).isNan = true ↔ ∃ i, v i = .nan) := by
  refine ⟨fun i => ?_, ?_, ?_⟩
  · rw [resize_lag]
    exact limitOne_limited hl (v i)
  · rw [resize_large]
    exact exists_congr fun i => tooLarge_iff (v i) hl
  · rw [resize_nan]
    exact exists_congr fun i => badNan_iff lim (v i)

/-- C50: afterwards all of them are within the limit; so they are finite if the limit is. -/
theorem C50_bounds_partial {m : Nat} (lim : Ext K) (hl : IsLimit lim) (v : Fin m → Ext K)
    (i : Fin m) : InLimit lim ((resize lim v).lag i) := by
  have h := (C50_limit_partial lim hl v).1 i
  cases lim with
  | nan => cases hl
  | inf s =>
    cases s with
    | true => cases hl
    | false =>
      generalize (resize (.inf false) v).lag i = w at h
      cases w with
      | nan =>
        generalize v i = u at h
        cases h with
        | keep h => cases h
      | inf _ => trivial
      | fin _ => trivial
  | fin L =>
    have hL : (0 : K) ≤ L := hl
    generalize (resize (.fin L) v).lag i = w at h
    generalize v i = u at h
    cases h with
    | keep h => exact h
    | nan => exact ⟨neg_nonpos.mpr hL, hL⟩
    | above h _ => cases h; exact ⟨by linarith, le_refl _⟩
    | below h _ => cases h; exact ⟨le_refl _, by linarith⟩
    | top h => cases h; exact ⟨by linarith, le_refl _⟩
    | bot h => cases h; exact ⟨le_refl _, by linarith⟩

/-- Three multipliers: one NaN, one infinite and one in bounds. -/
def someMult : Fin 3 → Ext ℚ := ![.nan, .inf true, .fin 2]

example : ((resize (.fin 5) someMult).lag 0, (resize (.fin 5) someMult).lag 1,
    (resize (.fin 5) someMult).lag 2, (resize (.fin 5) someMult).isLarge,
    (resize (.fin 5) someMult).isNan) = (.fin 0, .fin (-5), .fin 2, true, true) := by
  decide +kernel

example : IsLimit (.fin (5 : ℚ)) := by show (0 : ℚ) ≤ 5; norm_num

/-- C50 as stated, for every limit that is a number. -/
def C50_statement : Prop :=
  ∀ (m : Nat) (L : ℚ) (v : Fin m → Ext ℚ) (i : Fin m),
    InLimit (.fin L) ((resize (.fin L) v).lag i) ∨ (resize (.fin L) v).lag i = v i

/-- C50 fails for a negative limit: the multiplier 0 becomes 1 with limit -1. -/
theorem C50_violated : ¬ C50_statement := by
  intro h
  have h' := h 1 (-1) (fun _ => .fin 0) 0
  rw [resize_lag] at h'
  have e : limitOne (.fin (-1)) (.fin (0 : ℚ)) = .fin 1 := by decide +kernel
  rw [e] at h'
  rcases h' with h' | h'
  · have : (1 : ℚ) ≤ -1 := h'.2
    norm_num at this
  · simp at h'

/-- With the default limit, infinity, an infinite multiplier is kept and nothing is reported. -/
theorem C50_default (s : Bool) :
    (resize (.inf false) (fun _ : Fin 1 => (.inf s : Ext K))).lag 0 = .inf s ∧
    (resize (.inf false) (fun _ : Fin 1 => (.inf s : Ext K))).isLarge = false ∧
    (resize (.inf false) (fun _ : Fin 1 => (.inf s : Ext K))).isNan = false := by
  have hl : IsLimit (.inf false : Ext K) := trivial
  have h := C50_limit_partial (.inf false) hl (fun _ : Fin 1 => (.inf s : Ext K))
  refine ⟨?_, ?_, ?_⟩
  · rw [resize_lag]
    exact limitOne_of_in hl trivial
  · rw [← Bool.not_eq_true, h.2.1]
    rintro ⟨i, -, hi⟩
    exact hi trivial
  · rw [← Bool.not_eq_true, h.2.2]
    rintro ⟨i, hi⟩
    cases hi

/-! ### C49 -/

/-- A solver for all invertible matrices exists. -/
theorem solver_exists : ∃ solve : Solver K, SolvesAll solve := by
  classical
  refine ⟨fun n a b => if h : ∃ (A : Fin n → Fin n → K) (v x : Fin n → K),
      a = finMat A ∧ b = finVec v ∧ ∀ i, ∑ k, A i k * x k = v i
    then finVec h.choose_spec.choose_spec.choose else fun _ => .nan, ?_⟩
  intro n A B hAB b
  have hex : ∃ (A' : Fin n → Fin n → K) (v x : Fin n → K),
      finMat A = finMat A' ∧ finVec b = finVec v ∧ ∀ i, ∑ k, A' i k * x k = v i := by
    refine ⟨A, b, fun k => ∑ j, B k j * b j, rfl, rfl, fun i => ?_⟩
    have : ∑ k, A i k * ∑ j, B k j * b j = ∑ j, (∑ k, A i k * B k j) * b j := by
      simp only [Finset.mul_sum, Finset.sum_mul]
      rw [Finset.sum_comm]
      exact Finset.sum_congr rfl fun j _ => Finset.sum_congr rfl fun k _ => by ring
    rw [this]
    simp [hAB]
  refine ⟨hex.choose_spec.choose_spec.choose, ?_, ?_⟩
  · show (if h : _ then _ else _) = _
    rw [dif_pos hex]
  · have h := hex.choose_spec.choose_spec.choose_spec
    have hA : A = hex.choose := by
      funext i j
      have := congrFun (congrFun h.1 i) j
      simpa [finMat] using this
    have hb : b = hex.choose_spec.choose := finVec_inj h.2.1
    intro i
    refine Eq.trans ?_ ((h.2.2 i).trans (congrFun hb i).symm)
    exact Finset.sum_congr rfl fun k _ => congrArg (· * _) (congrFun (congrFun hA i) k)

/-- C49, when the multipliers are within the limit: the step meets the linearised constraints and
makes the gradient of the Lagrangian vanish, and no failure is reported.  `hS` says that the solver
also solves the systems with `J H⁻¹ Jᵀ`. -/
theorem C49_kkt_partial {m n : Nat} (solve : Solver K) (lsq : Lsq K) (lim : Ext K)
    (hlim : IsLimit lim) (H : Fin n → Fin n → K) (J : Fin m → Fin n → K) (g : Fin n → K)
    (c : Fin m → K) (delta0 : Fin n → Ext K) (attempt : Bool) (hH : Solves solve H)
    (hS : ∀ W, IsInvTrans H J W → Solves solve (fun a b => ∑ k, J a k * W k b)) :
    ∃ l : Fin m → K, (∃ d, IsKkt H J g c d l) ∧
      ((∀ i, InLimit lim (.fin (l i))) → ∃ d : Fin n → K,
        let s := sqpStep solve lsq lim (finMat H) (finMat J) (finVec g) (finVec c) delta0 attempt
        s.delta = finVec d ∧ s.lag = finVec l ∧ s.ret = false ∧ s.isNan = false ∧
          s.isLarge = false ∧ IsKkt H J g c d l) := by
  obtain ⟨l, hl, hk⟩ := step_kkt hH hS g c
  obtain ⟨x, hx, hHx⟩ := hH (fun i => g i + ∑ a, J a i * l a)
  refine ⟨l, ⟨_, hk x hHx⟩, fun hin => ⟨fun i => - x i, ?_⟩⟩
  have hf := finish_cases solve lsq lim (finMat H) (finMat J) (finVec g) (finVec c) delta0 attempt
    (finVec l)
  have hr : (resize lim (finVec l)).lag = finVec l := by
    funext i
    rw [resize_lag]
    exact limitOne_of_in hlim (hin i)
  have hn : (resize lim (finVec l)).isNan = false := by
    rw [← Bool.not_eq_true, resize_nan]
    rintro ⟨i, hi⟩
    rw [badNan_iff] at hi
    cases hi
  unfold sqpStep
  rw [hl]
  obtain ⟨h1, h2, h3, h4, h5⟩ := hf
  refine ⟨?_, by rw [h1, hr], by rw [h4, hn], by rw [h3, hn], h2, hk x hHx⟩
  rw [h5, hn, hr]
  simp only [Bool.false_eq_true, if_false]
  rw [trans_fin, mulVec_fin]
  have e : (fun k => Ext.add (finVec g k) (finVec (fun i => ∑ k, J k i * l k) k))
      = finVec (fun i => g i + ∑ a, J a i * l a) := rfl
  rw [e, hx]
  rfl

/-- C49 with the inverses themselves. -/
theorem C49_inverse_partial {m n : Nat} (solve : Solver K) (hs : SolvesAll solve) (lsq : Lsq K)
    (lim : Ext K) (hlim : IsLimit lim) (H Hi : Fin n → Fin n → K) (J : Fin m → Fin n → K)
    (hHi : ∀ i j, ∑ k, H i k * Hi k j = if i = j then 1 else 0) (S : Fin m → Fin m → K)
    (hSi : ∀ i j, ∑ k, (∑ a, ∑ b, J i a * Hi a b * J k b) * S k j = if i = j then 1 else 0)
    (g : Fin n → K) (c : Fin m → K) (delta0 : Fin n → Ext K) (attempt : Bool) :
    ∃ l : Fin m → K, (∃ d, IsKkt H J g c d l) ∧
      ((∀ i, InLimit lim (.fin (l i))) → ∃ d : Fin n → K,
        let s := sqpStep solve lsq lim (finMat H) (finMat J) (finVec g) (finVec c) delta0 attempt
        s.delta = finVec d ∧ s.lag = finVec l ∧ s.ret = false ∧ s.isNan = false ∧
          s.isLarge = false ∧ IsKkt H J g c d l) := by
  have hH : Solves solve H := hs n H Hi hHi
  refine C49_kkt_partial solve lsq lim hlim H J g c delta0 attempt hH fun W hW => ?_
  have hWe : W = fun a b => ∑ e, Hi a e * J b e := by
    funext a b
    have : (fun k => W k b) = fun k => ∑ e, Hi k e * J b e := by
      apply Solves.injective hH
      intro i
      rw [hW i b]
      have : ∑ k, H i k * ∑ e, Hi k e * J b e = ∑ e, (∑ k, H i k * Hi k e) * J b e := by
        simp only [Finset.mul_sum, Finset.sum_mul]
        rw [Finset.sum_comm]
        exact Finset.sum_congr rfl fun j _ => Finset.sum_congr rfl fun k _ => by ring
      rw [this]
      simp [hHi]
    exact congrFun this a
  refine hs m _ S fun i j => ?_
  rw [← hSi i j, hWe]
  refine Finset.sum_congr rfl fun k _ => ?_
  congr 1
  refine Finset.sum_congr rfl fun a _ => ?_
  rw [Finset.mul_sum]
  exact Finset.sum_congr rfl fun b _ => by ring

/-- C49: whatever happened to the multipliers, unless one was NaN the gradient of the Lagrangian
with the multipliers returned vanishes. -/
theorem C49_stationary_partial {m n : Nat} (solve : Solver K) (lsq : Lsq K) (L : K) (hL : 0 ≤ L)
    (H : Fin n → Fin n → K) (J : Fin m → Fin n → K) (g : Fin n → K) (c : Fin m → K)
    (delta0 : Fin n → Ext K) (attempt : Bool) (hH : Solves solve H) :
    let s := sqpStep solve lsq (.fin L) (finMat H) (finMat J) (finVec g) (finVec c) delta0 attempt
    s.ret = false → ∃ (d : Fin n → K) (l : Fin m → K), s.delta = finVec d ∧ s.lag = finVec l ∧
      (∀ i, -L ≤ l i ∧ l i ≤ L) ∧ ∀ k, ∑ a, H k a * d a + g k + ∑ i, J i k * l i = 0 := by
  intro s hret
  have hf := finish_cases solve lsq (.fin L) (finMat H) (finMat J) (finVec g) (finVec c) delta0
    attempt (multipliers solve (finMat H) (finMat J) (finVec g) (finVec c))
  obtain ⟨h1, -, -, h4, h5⟩ := hf
  have hb := C50_bounds_partial (.fin L) hL
    (multipliers solve (finMat H) (finMat J) (finVec g) (finVec c))
  have hex : ∀ i, ∃ x : K, (resize (.fin L)
      (multipliers solve (finMat H) (finMat J) (finVec g) (finVec c))).lag i = .fin x ∧
      -L ≤ x ∧ x ≤ L := by
    intro i
    have := hb i
    generalize (resize (.fin L) _).lag i = w at this
    cases w with
    | nan => cases this
    | inf _ => cases this
    | fin x => exact ⟨x, rfl, this⟩
  choose l hl using hex
  have hlv : (resize (.fin L)
      (multipliers solve (finMat H) (finMat J) (finVec g) (finVec c))).lag = finVec l :=
    funext fun i => (hl i).1
  obtain ⟨x, hx, hHx⟩ := hH (fun i => g i + ∑ a, J a i * l a)
  have hn := h4.symm.trans hret
  refine ⟨fun i => - x i, l, ?_, by rw [← hlv]; exact h1, fun i => (hl i).2, fun k => ?_⟩
  · show (finish ..).delta = _
    rw [h5, hn, hlv]
    simp only [Bool.false_eq_true, if_false]
    rw [trans_fin, mulVec_fin]
    have e : (fun k => Ext.add (finVec g k) (finVec (fun i => ∑ k, J k i * l k) k))
        = finVec (fun i => g i + ∑ a, J a i * l a) := rfl
    rw [e, hx]
    rfl
  · simp only [mul_neg, Finset.sum_neg_distrib, hHx k]
    ring

/-- C49: a step meeting the conditions minimises the quadratic model among all steps that meet the
linearised constraints, if `H` is symmetric and positive semidefinite. -/
theorem C49_minimises {m n : Nat} (H : Fin n → Fin n → K) (J : Fin m → Fin n → K) (g : Fin n → K)
    (c : Fin m → K) (d : Fin n → K) (l : Fin m → K) (h : IsKkt H J g c d l)
    (hsym : ∀ i k, H i k = H k i) (hpos : ∀ v : Fin n → K, 0 ≤ ∑ k, ∑ a, v k * H k a * v a)
    (e : Fin n → K) (he : ∀ i, ∑ k, J i k * e k = - c i) :
    quadModel H g d ≤ quadModel H g e :=
  kkt_minimises h hsym hpos e he

/-- C49: failure is reported exactly when a multiplier was NaN.  Then the step is left as it was or,
in "constraint only" mode, replaced by the least squares step. -/
theorem C49_flag_partial {m n : Nat} (solve : Solver K) (lsq : Lsq K) (lim : Ext K)
    (h : Mat K n n) (j : Mat K m n) (g : Vec K n) (c : Vec K m) (delta0 : Vec K n)
    (attempt : Bool) :
    let s := sqpStep solve lsq lim h j g c delta0 attempt
    (s.ret = true ↔ ∃ i, multipliers solve h j g c i = .nan) ∧
    (s.ret = true → attempt = false → s.delta = delta0) ∧
    (s.ret = true → attempt = true → s.delta = fun i => Ext.neg (lsq m n j c i)) := by
  have hf := finish_cases solve lsq lim h j g c delta0 attempt (multipliers solve h j g c)
  obtain ⟨-, -, -, h4, h5⟩ := hf
  refine ⟨?_, ?_, ?_⟩
  · show (finish ..).ret = true ↔ _
    rw [h4, resize_nan]
    exact exists_congr fun i => badNan_iff lim _
  · intro hr ha
    show (finish ..).delta = _
    rw [h5, h4.symm.trans hr, ha]
    rfl
  · intro hr ha
    show (finish ..).delta = _
    rw [h5, h4.symm.trans hr, ha]
    rfl

/-- C49: if the linearised constraints can be met, the least squares step meets them. -/
theorem C49_fallback {m n : Nat} (lsq : Lsq K) (J : Fin m → Fin n → K) (c : Fin m → K)
    (hq : IsLsq lsq J c) (z : Fin n → K) (hz : ∀ i, ∑ k, J i k * z k = c i) :
    ∃ d : Fin n → K, (fun i => Ext.neg (lsq m n (finMat J) (finVec c) i)) = finVec d ∧
      ∀ i, ∑ k, J i k * d k = - c i := by
  obtain ⟨x, hx, hn⟩ := hq
  refine ⟨fun k => - x k, ?_, ?_⟩
  · rw [hx]; rfl
  · have hsq : ∑ i, (∑ k, J i k * x k - c i) * (∑ k, J i k * x k - c i) = 0 := by
      have e : ∀ i, (∑ k, J i k * x k - c i) = ∑ k, J i k * (x k - z k) := by
        intro i
        rw [← hz i, ← Finset.sum_sub_distrib]
        exact Finset.sum_congr rfl fun k _ => by ring
      have e2 : ∑ i, (∑ k, J i k * x k - c i) * (∑ k, J i k * x k - c i)
          = ∑ k, (x k - z k) * ∑ i, J i k * (∑ a, J i a * x a - c i) := by
        have : ∀ i, (∑ k, J i k * x k - c i) * (∑ k, J i k * x k - c i)
            = ∑ k, (x k - z k) * (J i k * (∑ a, J i a * x a - c i)) := by
          intro i
          conv_lhs => lhs; rw [e i]
          rw [Finset.sum_mul]
          exact Finset.sum_congr rfl fun k _ => by ring
        simp only [this, Finset.mul_sum]
        rw [Finset.sum_comm]
      rw [e2]
      simp [hn]
    have hz0 := (Finset.sum_eq_zero_iff_of_nonneg (fun i _ => mul_self_nonneg _)).mp hsq
    intro i
    have := hz0 i (Finset.mem_univ i)
    have h0 := mul_self_eq_zero.mp this
    simp only [mul_neg, Finset.sum_neg_distrib]
    linarith

/-- C49 as stated for the flag: it is true iff the step does not meet the conditions. -/
def C49_statement : Prop :=
  ∀ (solve : Solver ℚ) (lsq : Lsq ℚ), SolvesAll solve →
    ∀ (L : ℚ) (H J : Fin 1 → Fin 1 → ℚ) (g c : Fin 1 → ℚ), 0 ≤ L →
    let s := sqpStep solve lsq (.fin L) (finMat H) (finMat J) (finVec g) (finVec c)
      (fun _ => .fin 0) false
    s.ret = true ↔ ¬ ∃ d l, s.delta = finVec d ∧ s.lag = finVec l ∧ IsKkt H J g c d l

/-- C49 fails: with one variable, one constraint with residual 10 and the limit 5 the multiplier is
cut to 5, the step is -5 instead of -10, and no failure is reported. -/
theorem C49_violated : ¬ C49_statement := by
  intro h
  obtain ⟨solve, hs⟩ := solver_exists (K := ℚ)
  have hone : ∀ i j : Fin 1, ∑ k : Fin 1, (fun _ _ => (1 : ℚ) : Fin 1 → Fin 1 → ℚ) i k
      * (fun _ _ => (1 : ℚ) : Fin 1 → Fin 1 → ℚ) k j = if i = j then 1 else 0 := by
    intro i j
    simp [Subsingleton.elim i j]
  have hH : Solves solve (fun _ _ => (1 : ℚ) : Fin 1 → Fin 1 → ℚ) := hs 1 _ _ hone
  have h' := h solve (fun _ _ _ _ _ => .nan) hs 5 (fun _ _ => 1) (fun _ _ => 1) (fun _ => 0)
    (fun _ => 10) (by norm_num)
  obtain ⟨l0, hl0, hk⟩ := step_kkt hH (J := fun (_ _ : Fin 1) => (1 : ℚ)) (fun W hW => by
    refine hs 1 _ (fun _ _ => 1) fun i j => ?_
    have := hW 0 j
    simp only [Finset.univ_unique, Fin.default_eq_zero, Fin.isValue, one_mul,
      Finset.sum_singleton] at this ⊢
    rw [Subsingleton.elim i j]
    simp
    rw [← this]
    congr 1
    exact Subsingleton.elim _ _) (fun _ => 0) (fun _ => 10)
  obtain ⟨x, hx, hHx⟩ := hH (fun i => 0 + ∑ a : Fin 1, (fun (_ _ : Fin 1) => (1 : ℚ)) a i * l0 a)
  have hkk := hk x hHx
  have hl : l0 0 = 10 := by
    have a := hkk.1 0
    have b := hkk.2 0
    simp at a b
    linarith
  have hr : (resize (.fin 5) (finVec l0)).lag = finVec (fun _ => 5) := by
    funext i
    rw [resize_lag]
    show limitOne (.fin 5) (.fin (l0 i)) = .fin 5
    rw [Subsingleton.elim i 0, hl]
    decide +kernel
  have hn : (resize (.fin 5) (finVec l0)).isNan = false := by
    rw [← Bool.not_eq_true, resize_nan]
    rintro ⟨i, hi⟩
    rw [badNan_iff] at hi
    cases hi
  unfold sqpStep at h'
  rw [hl0] at h'
  obtain ⟨h1, -, -, h4, -⟩ := finish_cases solve (fun _ _ _ _ _ => .nan) (.fin 5)
    (finMat fun (_ _ : Fin 1) => (1 : ℚ)) (finMat fun (_ _ : Fin 1) => (1 : ℚ)) (finVec fun _ => 0)
    (finVec fun _ => 10) (fun _ => .fin 0) false (finVec l0)
  have hret := h4.trans hn
  have hno : ¬ ∃ d l, (finish solve (fun _ _ _ _ _ => .nan) (.fin 5)
      (finMat fun (_ _ : Fin 1) => (1 : ℚ)) (finMat fun (_ _ : Fin 1) => (1 : ℚ))
      (finVec fun _ => 0) (finVec fun _ => 10) (fun _ => .fin 0) false (finVec l0)).delta
        = finVec d ∧ (finish solve (fun _ _ _ _ _ => .nan) (.fin 5)
      (finMat fun (_ _ : Fin 1) => (1 : ℚ)) (finMat fun (_ _ : Fin 1) => (1 : ℚ))
      (finVec fun _ => 0) (finVec fun _ => 10) (fun _ => .fin 0) false (finVec l0)).lag = finVec l ∧
      IsKkt (fun (_ _ : Fin 1) => (1 : ℚ)) (fun (_ _ : Fin 1) => (1 : ℚ)) (fun _ => 0) (fun _ => 10)
        d l := by
    rintro ⟨d, l, -, hlag, hk2⟩
    rw [h1, hr] at hlag
    have e := congrFun (finVec_inj hlag) 0
    have a := hk2.1 0
    have b := hk2.2 0
    simp at a b
    linarith
  have := h'.mpr hno
  rw [hret] at this
  cases this

/-- The hypotheses of `C49_inverse_partial` can be met with two variables and one constraint. -/
example : ∃ (solve : Solver ℚ) (H Hi : Fin 2 → Fin 2 → ℚ) (J : Fin 1 → Fin 2 → ℚ)
    (S : Fin 1 → Fin 1 → ℚ), SolvesAll solve ∧
    (∀ i j, ∑ k, H i k * Hi k j = if i = j then 1 else 0) ∧
    ∀ i j, ∑ k, (∑ a, ∑ b, J i a * Hi a b * J k b) * S k j = if i = j then 1 else 0 := by
  obtain ⟨solve, hs⟩ := solver_exists (K := ℚ)
  refine ⟨solve, ![![2, 1], ![1, 1]], ![![1, -1], ![-1, 2]], ![![1, 3]], ![![1 / 13]], hs, ?_, ?_⟩
  · intro i j
    fin_cases i <;> fin_cases j <;> simp [Fin.sum_univ_two] <;> norm_num
  · intro i j
    fin_cases i; fin_cases j
    simp [Fin.sum_univ_two]
    norm_num

end RSVS.Props
