import Mathlib.LinearAlgebra.Matrix.NonsingularInverse
import Mathlib.Tactic.Ring
import Mathlib.Tactic.Linarith
import Verif.Spec.Sqp

/-! # Lemmas on the SQP step -/

set_option linter.unusedSectionVars false

namespace RSVS.Sqp

open RSVS.Spec Ext

variable {K : Type} [Field K] [LinearOrder K] [IsStrictOrderedRing K]

/-! ### Finite values -/

theorem foldl_fin {α : Type} (l : List α) (f : α → K) (s : K) :
    l.foldl (fun s i => add s (fin (f i))) (fin s) = fin (s + (l.map f).sum) := by
  induction l generalizing s with
  | nil => simp
  | cons a l ih =>
    show l.foldl _ (fin (s + f a)) = _
    rw [ih, List.map_cons, List.sum_cons, add_assoc]

theorem sum_fin {n : Nat} (f : Fin n → K) : sum n (fun i => fin (f i)) = fin (∑ i, f i) := by
  unfold sum
  rw [foldl_fin, zero_add, Fin.sum_univ_def]

theorem mulVec_fin {m n : Nat} (A : Fin m → Fin n → K) (v : Fin n → K) :
    mulVec (finMat A) (finVec v) = finVec (fun i => ∑ k, A i k * v k) := by
  funext i
  exact sum_fin _

theorem mulMat_fin {m n p : Nat} (A : Fin m → Fin n → K) (B : Fin n → Fin p → K) :
    mulMat (finMat A) (finMat B) = finMat (fun i j => ∑ k, A i k * B k j) := by
  funext i j
  exact sum_fin _

theorem trans_fin {m n : Nat} (A : Fin m → Fin n → K) :
    trans (finMat A) = finMat (fun i j => A j i) := rfl

theorem finVec_inj {n : Nat} {v w : Fin n → K} (h : finVec v = finVec w) : v = w := by
  funext i
  have := congrFun h i
  simpa [finVec] using this

/-! ### Solved systems have inverses -/

theorem Solves.inverse {n : Nat} {solve : Solver K} {A : Fin n → Fin n → K} (h : Solves solve A) :
    ∃ B : Matrix (Fin n) (Fin n) K, (Matrix.of A) * B = 1 ∧ B * (Matrix.of A) = 1 := by
  choose x hx using fun j : Fin n => h (fun i => if i = j then 1 else 0)
  have hAB : (Matrix.of A) * (Matrix.of fun i j => x j i) = 1 := by
    ext i j
    rw [Matrix.mul_apply, Matrix.one_apply]
    exact (hx j).2 i
  exact ⟨_, hAB, mul_eq_one_comm.mp hAB⟩

theorem Solves.injective {n : Nat} {solve : Solver K} {A : Fin n → Fin n → K} (h : Solves solve A)
    {x y : Fin n → K} (hxy : ∀ i, ∑ k, A i k * x k = ∑ k, A i k * y k) : x = y := by
  obtain ⟨B, -, hBA⟩ := Solves.inverse h
  have e : (Matrix.of A).mulVec x = (Matrix.of A).mulVec y := by
    funext i
    exact hxy i
  have e2 := congrArg (B.mulVec ·) e
  simpa [Matrix.mulVec_mulVec, hBA] using e2

/-- Solving with every column of a matrix. -/
theorem solveMat_fin {n p : Nat} {solve : Solver K} {A : Fin n → Fin n → K} (h : Solves solve A)
    (B : Fin n → Fin p → K) :
    ∃ W : Fin n → Fin p → K, solveMat solve (finMat A) (finMat B) = finMat W ∧
      ∀ i j, ∑ k, A i k * W k j = B i j := by
  choose x hx using fun j : Fin p => h (fun i => B i j)
  refine ⟨fun i j => x j i, ?_, fun i j => (hx j).2 i⟩
  funext i j
  show solve n (finMat A) (finVec fun k => B k j) i = _
  rw [(hx j).1]
  rfl

/-! ### Limiting the multipliers -/

/-- What happens to one multiplier. -/
def limitOne (lim v : Ext K) : Ext K :=
  if lt v (neg lim) then neg lim else if lt lim v then lim else if v.isNan then fin 0 else v

/-- A multiplier is too large. -/
def tooLarge (lim v : Ext K) : Bool := lt v (neg lim) || lt lim v

/-- A multiplier is NaN and was not compared as too large. -/
def badNan (lim v : Ext K) : Bool := !(lt v (neg lim)) && !(lt lim v) && v.isNan

theorem resizeAt_lag {m : Nat} (lim : Ext K) (s : Limited K m) (i j : Fin m) :
    (resizeAt lim s i).lag j = if j = i then limitOne lim (s.lag i) else s.lag j := by
  unfold resizeAt limitOne
  by_cases hj : j = i
  · subst hj
    split
    · simp
    · split
      · simp
      · split <;> simp
  · split
    · simp [hj]
    · split
      · simp [hj]
      · split <;> simp [hj]

theorem resizeAt_large {m : Nat} (lim : Ext K) (s : Limited K m) (i : Fin m) :
    (resizeAt lim s i).isLarge = (s.isLarge || tooLarge lim (s.lag i)) := by
  unfold resizeAt tooLarge
  split
  · simp [*]
  · split
    · simp [*]
    · split <;> simp [*]

theorem resizeAt_nan {m : Nat} (lim : Ext K) (s : Limited K m) (i : Fin m) :
    (resizeAt lim s i).isNan = (s.isNan || badNan lim (s.lag i)) := by
  unfold resizeAt badNan
  split
  · simp [*]
  · split
    · simp [*]
    · split <;> simp [*]

theorem resize_fold {m : Nat} (lim : Ext K) (l : List (Fin m)) (hl : l.Nodup) (s : Limited K m) :
    (∀ j, (l.foldl (resizeAt lim) s).lag j =
      if j ∈ l then limitOne lim (s.lag j) else s.lag j) ∧
    (l.foldl (resizeAt lim) s).isLarge = (s.isLarge || l.any fun i => tooLarge lim (s.lag i)) ∧
    (l.foldl (resizeAt lim) s).isNan = (s.isNan || l.any fun i => badNan lim (s.lag i)) := by
  induction l generalizing s with
  | nil => simp
  | cons a l ih =>
    obtain ⟨ha, hl⟩ := List.nodup_cons.mp hl
    obtain ⟨h1, h2, h3⟩ := ih hl (resizeAt lim s a)
    have hne : ∀ i ∈ l, (resizeAt lim s a).lag i = s.lag i := by
      intro i hi
      rw [resizeAt_lag, if_neg]
      rintro rfl
      exact ha hi
    refine ⟨?_, ?_, ?_⟩
    · intro j
      rw [List.foldl_cons, h1 j, resizeAt_lag]
      by_cases hj : j = a
      · subst hj
        rw [if_neg ha, if_pos rfl, if_pos (List.mem_cons_self ..)]
      · simp [hj]
    · rw [List.foldl_cons, h2, resizeAt_large, List.any_cons, Bool.or_assoc]
      congr 2
      rw [Bool.eq_iff_iff, List.any_eq_true, List.any_eq_true]
      constructor <;> rintro ⟨i, hi, h⟩ <;> refine ⟨i, hi, ?_⟩
      · rwa [hne i hi] at h
      · rwa [hne i hi]
    · rw [List.foldl_cons, h3, resizeAt_nan, List.any_cons, Bool.or_assoc]
      congr 2
      rw [Bool.eq_iff_iff, List.any_eq_true, List.any_eq_true]
      constructor <;> rintro ⟨i, hi, h⟩ <;> refine ⟨i, hi, ?_⟩
      · rwa [hne i hi] at h
      · rwa [hne i hi]

theorem resize_lag {m : Nat} (lim : Ext K) (v : Vec K m) (j : Fin m) :
    (resize lim v).lag j = limitOne lim (v j) := by
  unfold resize
  rw [(resize_fold lim _ (List.nodup_finRange m) _).1 j, if_pos (List.mem_finRange j)]

theorem resize_large {m : Nat} (lim : Ext K) (v : Vec K m) :
    (resize lim v).isLarge = true ↔ ∃ i, tooLarge lim (v i) = true := by
  unfold resize
  rw [(resize_fold lim _ (List.nodup_finRange m) _).2.1]
  simp [List.any_eq_true]

theorem resize_nan {m : Nat} (lim : Ext K) (v : Vec K m) :
    (resize lim v).isNan = true ↔ ∃ i, badNan lim (v i) = true := by
  unfold resize
  rw [(resize_fold lim _ (List.nodup_finRange m) _).2.2]
  simp [List.any_eq_true]

theorem badNan_iff (lim v : Ext K) : badNan lim v = true ↔ v = .nan := by
  cases v <;> cases lim <;> simp [badNan, isNan, lt, neg]

theorem limitOne_limited {lim : Ext K} (hl : IsLimit lim) (v : Ext K) :
    LimitedTo lim v (limitOne lim v) := by
  unfold limitOne
  cases lim with
  | nan => cases hl
  | inf s =>
    cases s with
    | true => cases hl
    | false =>
      cases v with
      | nan => exact .nan
      | inf t => cases t <;> exact .keep trivial
      | fin x => exact .keep trivial
  | fin L =>
    have hL : (0 : K) ≤ L := hl
    cases v with
    | nan => exact .nan
    | inf t => cases t <;> first | exact .top rfl | exact .bot rfl
    | fin x =>
      by_cases h1 : x < -L
      · simp only [lt, neg, h1, decide_true, if_true]
        exact .below rfl h1
      · by_cases h2 : L < x
        · simp only [lt, neg, h1, h2, decide_true, decide_false, if_true]
          exact .above rfl h2
        · simp only [lt, neg, h1, h2, decide_false, isNan]
          exact .keep ⟨not_lt.mp h1, not_lt.mp h2⟩

theorem tooLarge_iff {lim : Ext K} (v : Ext K) (hl : IsLimit lim) :
    tooLarge lim v = true ↔ v ≠ .nan ∧ ¬ InLimit lim v := by
  cases lim with
  | nan => cases hl
  | inf s =>
    cases s with
    | true => cases hl
    | false => cases v with
      | nan => simp [tooLarge, lt]
      | inf t => cases t <;> simp [tooLarge, lt, neg, InLimit]
      | fin x => simp [tooLarge, lt, neg, InLimit]
  | fin L =>
    cases v with
    | nan => simp [tooLarge, lt]
    | inf t => cases t <;> simp [tooLarge, lt, neg, InLimit]
    | fin x =>
      simp only [tooLarge, lt, neg, InLimit, Bool.or_eq_true, decide_eq_true_eq, ne_eq,
        reduceCtorEq, not_false_eq_true, true_and, not_and_or, not_le]

theorem limitOne_of_in {lim : Ext K} (hl : IsLimit lim) {v : Ext K} (h : InLimit lim v) :
    limitOne lim v = v := by
  have hv : v ≠ .nan := by
    rintro rfl
    cases lim <;> first | exact h | (rename_i s; cases s <;> exact h)
  have ht : tooLarge lim v ≠ true := fun hc => ((tooLarge_iff v hl).mp hc).2 h
  unfold tooLarge at ht
  unfold limitOne
  rw [ne_eq, Bool.or_eq_true, not_or, Bool.not_eq_true, Bool.not_eq_true] at ht
  rw [if_neg (by simp [ht.1]), if_neg (by simp [ht.2])]
  cases v with
  | nan => exact absurd rfl hv
  | inf s => simp [isNan]
  | fin x => simp [isNan]

/-! ### The step -/

theorem finish_cases {m n : Nat} (solve : Solver K) (lsq : Lsq K) (lim : Ext K) (h : Mat K n n)
    (j : Mat K m n) (g : Vec K n) (c : Vec K m) (delta0 : Vec K n) (attempt : Bool)
    (lag : Vec K m) :
    let s := finish solve lsq lim h j g c delta0 attempt lag
    s.lag = (resize lim lag).lag ∧ s.isLarge = false ∧ s.isNan = (resize lim lag).isNan ∧
    s.ret = (resize lim lag).isNan ∧
    s.delta = if (resize lim lag).isNan then
        if attempt then fun i => neg (lsq m n j c i) else delta0
      else fun i => neg (solve n h (fun k => add (g k) (mulVec (trans j) (resize lim lag).lag k)) i) := by
  unfold finish
  cases hn : (resize lim lag).isNan <;> cases attempt <;> simp [hn]

theorem step_kkt {m n : Nat} {solve : Solver K} {H : Fin n → Fin n → K} {J : Fin m → Fin n → K}
    (hH : Solves solve H)
    (hS : ∀ W, IsInvTrans H J W → Solves solve (fun a b => ∑ k, J a k * W k b))
    (g : Fin n → K) (c : Fin m → K) :
    ∃ l : Fin m → K, multipliers solve (finMat H) (finMat J) (finVec g) (finVec c) = finVec l ∧
      ∀ x : Fin n → K, (∀ i, ∑ k, H i k * x k = g i + ∑ a, J a i * l a) →
        IsKkt H J g c (fun i => - x i) l := by
  obtain ⟨W, hW, hHW⟩ := solveMat_fin hH (fun i j => J j i)
  obtain ⟨y, hy, hHy⟩ := hH g
  obtain ⟨l, hl, hSl⟩ := hS W hHW (fun i => c i - ∑ k, J i k * y k)
  refine ⟨l, ?_, ?_⟩
  · unfold multipliers
    rw [trans_fin, hW, hy]
    show solve m (mulMat (finMat J) (finMat W)) (fun i => Ext.sub (finVec c i) (mulVec (finMat J) (finVec y) i)) = _
    rw [mulMat_fin, mulVec_fin, ← hl]
    congr 1
    funext i
    simp [finVec, sub, add, neg, sub_eq_add_neg]
  · intro x hx
    have hxy : x = fun k => y k + ∑ a, W k a * l a := by
      apply Solves.injective hH
      intro i
      rw [hx i]
      simp only [mul_add, Finset.sum_add_distrib, hHy i, add_right_inj]
      simp only [Finset.mul_sum]
      rw [Finset.sum_comm]
      refine Finset.sum_congr rfl fun a _ => ?_
      rw [← hHW i a, Finset.sum_mul]
      refine Finset.sum_congr rfl fun k _ => ?_
      ring
    constructor
    · intro i
      have h1 := hSl i
      have h2 : ∑ k, J i k * x k = c i := by
        rw [hxy]
        simp only [mul_add, Finset.sum_add_distrib]
        have : ∑ k, J i k * ∑ a, W k a * l a = ∑ a, (∑ k, J i k * W k a) * l a := by
          simp only [Finset.mul_sum, Finset.sum_mul]
          rw [Finset.sum_comm]
          refine Finset.sum_congr rfl fun a _ => Finset.sum_congr rfl fun k _ => ?_
          ring
        rw [this, h1]
        ring
      simp only [mul_neg, Finset.sum_neg_distrib, h2]
    · intro k
      simp only [mul_neg, Finset.sum_neg_distrib, hx k]
      ring

/-- A step with symmetric positive semidefinite `H` is a minimiser. -/
theorem kkt_minimises {m n : Nat} {H : Fin n → Fin n → K} {J : Fin m → Fin n → K} {g : Fin n → K}
    {c : Fin m → K} {d : Fin n → K} {l : Fin m → K} (h : IsKkt H J g c d l)
    (hsym : ∀ i k, H i k = H k i) (hpos : ∀ v : Fin n → K, 0 ≤ ∑ k, ∑ a, v k * H k a * v a)
    (e : Fin n → K) (he : ∀ i, ∑ k, J i k * e k = - c i) :
    quadModel H g d ≤ quadModel H g e := by
  obtain ⟨h1, h2⟩ := h
  have hs : ∑ k, (∑ a, H k a * d a + g k + ∑ i, J i k * l i) * (e k - d k) = 0 := by
    simp [h2]
  have hJ : ∑ k, (∑ i, J i k * l i) * (e k - d k) = 0 := by
    have : ∑ k, (∑ i, J i k * l i) * (e k - d k)
        = ∑ i, l i * (∑ k, J i k * e k - ∑ k, J i k * d k) := by
      simp only [Finset.sum_mul, mul_sub, Finset.mul_sum, Finset.sum_sub_distrib]
      congr 1
      · rw [Finset.sum_comm]
        exact Finset.sum_congr rfl fun i _ => Finset.sum_congr rfl fun k _ => by ring
      · rw [Finset.sum_comm]
        exact Finset.sum_congr rfl fun i _ => Finset.sum_congr rfl fun k _ => by ring
    rw [this]
    simp [h1, he]
  have hp := hpos (fun k => e k - d k)
  have e1 : ∑ k, ∑ a, (e k - d k) * H k a * (e a - d a)
      = ∑ k, ∑ a, e k * H k a * e a - ∑ k, ∑ a, d k * H k a * d a
        - 2 * ∑ k, (∑ a, H k a * d a) * (e k - d k) := by
    have hc : ∑ k, ∑ a, d k * H k a * e a = ∑ k, ∑ a, e k * H k a * d a := by
      rw [Finset.sum_comm]
      exact Finset.sum_congr rfl fun k _ => Finset.sum_congr rfl fun a _ => by
        rw [hsym a k]; ring
    have hx : ∑ k, (∑ a, H k a * d a) * (e k - d k)
        = ∑ k, ∑ a, e k * H k a * d a - ∑ k, ∑ a, d k * H k a * d a := by
      rw [← Finset.sum_sub_distrib]
      refine Finset.sum_congr rfl fun k _ => ?_
      rw [← Finset.sum_sub_distrib, Finset.sum_mul]
      exact Finset.sum_congr rfl fun a _ => by ring
    have hy : ∑ k, ∑ a, (e k - d k) * H k a * (e a - d a)
        = (∑ k, ∑ a, e k * H k a * e a - ∑ k, ∑ a, e k * H k a * d a)
          - (∑ k, ∑ a, d k * H k a * e a - ∑ k, ∑ a, d k * H k a * d a) := by
      simp only [← Finset.sum_sub_distrib]
      exact Finset.sum_congr rfl fun k _ => Finset.sum_congr rfl fun a _ => by ring
    rw [hy, hx, hc]
    ring
  have e2 : ∑ k, (∑ a, H k a * d a + g k + ∑ i, J i k * l i) * (e k - d k)
      = ∑ k, (∑ a, H k a * d a) * (e k - d k) + (∑ k, g k * e k - ∑ k, g k * d k)
        + ∑ k, (∑ i, J i k * l i) * (e k - d k) := by
    rw [← Finset.sum_sub_distrib, ← Finset.sum_add_distrib, ← Finset.sum_add_distrib]
    exact Finset.sum_congr rfl fun k _ => by ring
  rw [e1] at hp
  rw [e2, hJ] at hs
  unfold quadModel
  linarith

/-! ### Writing the step back -/

theorem scatter_spec (sub : List Nat) (hsub : sub.Nodup) (v w : List (Ext K))
    (hr : ∀ s ∈ sub, s < v.length) (hw : sub.length = w.length) :
    ∃ v', scatter v sub w = .ok v' ∧ v'.length = v.length ∧
      (∀ (i : Nat) (hi : i < sub.length), v'[sub[i]]? = w[i]?) ∧
      ∀ p, p ∉ sub → v'[p]? = v[p]? := by
  induction sub generalizing v w with
  | nil => exact ⟨v, by simp [scatter], rfl, fun i hi => absurd hi (Nat.not_lt_zero _), fun _ _ => rfl⟩
  | cons s sub ih =>
    cases w with
    | nil => cases hw
    | cons x w =>
      obtain ⟨hs, hsub⟩ := List.nodup_cons.mp hsub
      have hlt := hr s (List.mem_cons_self ..)
      obtain ⟨v', h1, h2, h3, h4⟩ := ih hsub (v.set s x) w
        (fun t ht => by rw [List.length_set]; exact hr t (List.mem_cons_of_mem _ ht))
        (by simpa using hw)
      refine ⟨v', ?_, by rw [h2, List.length_set], ?_, ?_⟩
      · rw [scatter, if_pos hlt, h1]
      · intro i hi
        cases i with
        | zero =>
          show v'[s]? = some x
          rw [h4 s hs, List.getElem?_set_self hlt]
        | succ i =>
          exact h3 i (by simpa using hi)
      · intro p hp
        rw [List.mem_cons, not_or] at hp
        rw [h4 p hp.2, List.getElem?_set_ne (Ne.symm hp.1)]

theorem stepLoop_two {m n : Nat} (solvers : Int → Solver K) (lsq : Lsq K) (lim : Ext K)
    (h : Mat K n n) (j : Mat K m n) (g : Vec K n) (c : Vec K m) (attempt : Bool) (fuel : Nat)
    (method : Int) (delta : Vec K n) :
    ∃ s, stepLoop solvers lsq lim h j g c attempt (fuel + 2) method delta = .ok s ∧
      ((s = sqpStep (solvers method) lsq lim h j g c delta attempt ∧ isCase method = true ∧
          (attempt = true ∨ s.ret = false)) ∨
        (s = sqpStep (solvers 2) lsq lim h j g c delta true ∧
          (isCase method = false ∨
            (sqpStep (solvers method) lsq lim h j g c delta attempt).ret = true ∧
            attempt = false))) := by
  unfold stepLoop
  cases hc : isCase method with
  | false =>
    refine ⟨sqpStep (solvers 2) lsq lim h j g c delta true, ?_, .inr ⟨rfl, .inl rfl⟩⟩
    cases attempt <;> simp
  | true =>
    cases attempt with
    | true => exact ⟨_, by simp, .inl ⟨rfl, rfl, .inl rfl⟩⟩
    | false =>
      cases hr : (sqpStep (solvers method) lsq lim h j g c delta false).ret with
      | false => exact ⟨_, by simp [hr], .inl ⟨rfl, rfl, .inr hr⟩⟩
      | true =>
        refine ⟨sqpStep (solvers 2) lsq lim h j g c delta true, ?_, .inr ⟨rfl, .inr ⟨rfl, rfl⟩⟩⟩
        have hd : (sqpStep (solvers method) lsq lim h j g c delta false).delta = delta := by
          unfold sqpStep at hr ⊢
          have hf := finish_cases (solvers method) lsq lim h j g c delta false
            (multipliers (solvers method) h j g c)
          rw [hf.2.2.2.1] at hr
          rw [hf.2.2.2.2, hr]
          simp
        simp only [hr, if_true]
        unfold stepLoop
        simp [isCase, hd]

/-! ### Active positions -/

theorem mem_activeFrom (l : List Bool) (start p : Nat) :
    p ∈ activeFrom start l ↔ start ≤ p ∧ l[p - start]? = some true := by
  induction l generalizing start with
  | nil => simp [activeFrom]
  | cons b l ih =>
    have key : (start + 1 ≤ p ∧ l[p - (start + 1)]? = some true) ↔
        (start ≠ p ∧ start ≤ p ∧ (b :: l)[p - start]? = some true) := by
      constructor
      · rintro ⟨h1, h2⟩
        refine ⟨by omega, by omega, ?_⟩
        rw [show p - start = (p - (start + 1)) + 1 by omega, List.getElem?_cons_succ]
        exact h2
      · rintro ⟨h0, h1, h2⟩
        refine ⟨by omega, ?_⟩
        rw [show p - start = (p - (start + 1)) + 1 by omega, List.getElem?_cons_succ] at h2
        exact h2
    unfold activeFrom
    split
    · rename_i hb
      rw [List.mem_cons, ih, key]
      constructor
      · rintro (rfl | ⟨-, h⟩)
        · simp [hb]
        · exact h
      · intro h
        by_cases hp : p = start
        · exact .inl hp
        · exact .inr ⟨Ne.symm hp, h⟩
    · rename_i hb
      rw [ih, key]
      constructor
      · exact fun h => h.2
      · intro h
        refine ⟨?_, h⟩
        rintro rfl
        simp only [Nat.sub_self, List.getElem?_cons_zero, Option.some.injEq] at h
        exact hb h.2

theorem activeFrom_sorted (l : List Bool) (start : Nat) :
    (activeFrom start l).Pairwise (· < ·) := by
  induction l generalizing start with
  | nil => exact List.Pairwise.nil
  | cons b l ih =>
    unfold activeFrom
    split
    · refine List.pairwise_cons.mpr ⟨?_, ih _⟩
      intro q hq
      have := ((mem_activeFrom _ _ _).mp hq).1
      omega
    · exact ih _

theorem activeFrom_nodup (l : List Bool) (start : Nat) : (activeFrom start l).Nodup :=
  (activeFrom_sorted l start).imp (fun h => Nat.ne_of_lt h)

theorem activeFrom_lt (l : List Bool) (p : Nat) (h : p ∈ activeFrom 0 l) : p < l.length := by
  have := ((mem_activeFrom _ _ _).mp h).2
  simp only [Nat.sub_zero] at this
  exact (List.getElem?_eq_some_iff.mp this).1

end RSVS.Sqp
