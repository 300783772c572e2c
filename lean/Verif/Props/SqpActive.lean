import Verif.Props.Sqp
import Verif.Props.Triplet

/-! # Properties of the stored step and of the sensitivities (C71, C72) -/

set_option linter.unusedSectionVars false

namespace RSVS.Props

open RSVS RSVS.Sqp RSVS.Spec

variable {K : Type} [Field K] [LinearOrder K] [IsStrictOrderedRing K]

/-! ### C71 -/

/-- Storing the multipliers when none was reported large. -/
theorem storeLag_spec (nConstr : Nat) (sub : List Nat) (hs : sub.Nodup)
    (hr : ∀ s ∈ sub, s < nConstr) (lag : List (Ext K)) (hl : sub.length = lag.length) :
    ∃ l, storeLag nConstr false sub lag = .ok l ∧ l.length = nConstr ∧
      (∀ (i : Nat) (hi : i < sub.length), l[sub[i]]? = lag[i]?) ∧
      ∀ p, p < nConstr → p ∉ sub → l[p]? = some (.fin 0) := by
  obtain ⟨l, h1, h2, h3, h4⟩ := scatter_spec sub hs (List.replicate nConstr (.fin (0 : K))) lag
    (by simpa using hr) hl
  refine ⟨l, ?_, by simpa using h2, h3, fun p hp hn => ?_⟩
  · unfold storeLag
    simpa using h1
  · rw [h4 p hn]
    simp [hp]

/-- C71: with any two rounds or more the loop ends, nothing faults, the active variables get the
components of a step computed with one of the two solvers, the other ones keep theirs; the active
multipliers are stored and the other ones are zero.  This holds for all solvers and all values,
finite or not. -/
theorem C71_store (solvers : Int → Solver K) (lsq : Lsq K) (lim : Ext K) (fuel : Nat)
    (method : Int) (nConstr : Nat) (subC subD : List Nat) (hC : subC.Nodup) (hD : subD.Nodup)
    (h : Mat K subD.length subD.length) (j : Mat K subC.length subD.length)
    (g : Vec K subD.length) (c : Vec K subC.length) (deltaDV : List (Ext K))
    (hrC : ∀ s ∈ subC, s < nConstr) (hrD : ∀ s ∈ subD, s < deltaDV.length) :
    ∃ (d l : List (Ext K)) (k : Int) (att : Bool),
      computeStep solvers lsq lim nConstr (fuel + 2) method subC subD h j g c deltaDV = .ok (d, l) ∧
      d.length = deltaDV.length ∧ l.length = nConstr ∧
      (∀ (i : Nat) (hi : i < subD.length), d[subD[i]]? = some
        ((sqpStep (solvers k) lsq lim h j g c (fun _ => .fin 0) att).delta ⟨i, hi⟩)) ∧
      (∀ p, p ∉ subD → d[p]? = deltaDV[p]?) ∧
      (∀ (i : Nat) (hi : i < subC.length), l[subC[i]]? = some
        ((sqpStep (solvers k) lsq lim h j g c (fun _ => .fin 0) att).lag ⟨i, hi⟩)) ∧
      ∀ p, p < nConstr → p ∉ subC → l[p]? = some (.fin 0) := by
  obtain ⟨s, hs, hcase⟩ := stepLoop_two solvers lsq lim h j g c (splitMethod method).1 fuel
    (splitMethod method).2 (fun _ => .fin 0)
  obtain ⟨k, att, hk⟩ : ∃ k att, s = sqpStep (solvers k) lsq lim h j g c (fun _ => .fin 0) att := by
    rcases hcase with ⟨h1, -⟩ | ⟨h1, -⟩
    · exact ⟨_, _, h1⟩
    · exact ⟨_, _, h1⟩
  have hlarge : s.isLarge = false := by
    rw [hk]
    exact (finish_cases _ _ _ _ _ _ _ _ _ _).2.1
  obtain ⟨d, d1, d2, d3, d4⟩ := scatter_spec subD hD deltaDV (List.ofFn s.delta) hrD (by simp)
  obtain ⟨l, l1, l2, l3, l4⟩ := storeLag_spec nConstr subC hC hrC (List.ofFn s.lag) (by simp)
  refine ⟨d, l, k, att, ?_, d2, l2, ?_, d4, ?_, l4⟩
  · unfold computeStep
    rw [hs]
    simp only [Except.bind]
    rw [d1]
    simp only
    rw [hlarge, l1]
  · intro i hi
    rw [d3 i hi, ← hk]
    simp [hi]
  · intro i hi
    rw [l3 i hi, ← hk]
    simp [hi]

/-- Sums over the active list and over the active positions. -/
theorem sum_active (act : List Bool) (f : Nat → K) :
    ∑ k : Fin (activeFrom 0 act).length, f (activeFrom 0 act)[k]
      = ∑ k ∈ Finset.range act.length with act[k]? = some true, f k := by
  have h1 : ∑ k : Fin (activeFrom 0 act).length, f (activeFrom 0 act)[k]
      = ((activeFrom 0 act).map f).sum := by
    rw [← List.sum_ofFn]
    congr 1
    apply List.ext_getElem
    · simp
    · intro i h1 h2
      simp
  rw [h1, ← List.sum_toFinset f (activeFrom_nodup act 0)]
  congr 1
  ext p
  simp only [List.mem_toFinset, mem_activeFrom, Finset.mem_filter, Finset.mem_range, Nat.sub_zero,
    Nat.zero_le, true_and]
  constructor
  · intro h
    exact ⟨(List.getElem?_eq_some_iff.mp h).1, h⟩
  · exact And.right

theorem constrAct_fin (constr targ : Nat → K) (sub : List Nat) :
    constrAct (fun i => Ext.fin (constr i)) (fun i => Ext.fin (targ i)) sub
      = finVec (fun i => constr sub[i] - targ sub[i]) := by
  funext i
  simp [constrAct, finVec, Ext.sub, Ext.add, Ext.neg, sub_eq_add_neg]

/-- C71, when the exact multipliers are within the limit and both systems are regular: the vectors
stored by `CheckAndCompute` solve the problem of the active variables and constraints, written with
indices of the full vectors.  Variables that are not active keep their step. -/
theorem C71_kkt_partial (solvers : Int → Solver K) (hs : ∀ k, SolvesAll (solvers k)) (lsq : Lsq K)
    (lim : Ext K) (hlim : IsLimit lim) (fuel : Nat) (method : Int) (actC actD : List Bool)
    (hObj hConstr J : Nat → Nat → K) (g constr targ : Nat → K) (deltaDV lagMult : List (Ext K))
    (hlen : deltaDV.length = actD.length) (hpos : ∃ k : Nat, actD[k]? = some true)
    (Hi : Fin (activeFrom 0 actD).length → Fin (activeFrom 0 actD).length → K)
    (hHi : ∀ i j, ∑ k : Fin (activeFrom 0 actD).length,
      (hObj (activeFrom 0 actD)[i] (activeFrom 0 actD)[k]
        + hConstr (activeFrom 0 actD)[i] (activeFrom 0 actD)[k]) * Hi k j = if i = j then 1 else 0)
    (S : Fin (activeFrom 0 actC).length → Fin (activeFrom 0 actC).length → K)
    (hSi : ∀ i j, ∑ k, (∑ a, ∑ b, J (activeFrom 0 actC)[i] (activeFrom 0 actD)[a] * Hi a b
      * J (activeFrom 0 actC)[k] (activeFrom 0 actD)[b]) * S k j = if i = j then 1 else 0)
    (hin : ∀ d l, IsActiveKkt actC actD (fun i k => hObj i k + hConstr i k) J g
      (fun i => constr i - targ i) d l → ∀ i : Nat, actC[i]? = some true → InLimit lim (.fin (l i))) :
    ∃ (D L : List (Ext K)) (d l : Nat → K),
      checkAndCompute solvers lsq lim (fuel + 2) method actC actD (fun i => Ext.fin (g i))
        (fun i => Ext.fin (constr i)) (fun i => Ext.fin (targ i)) (fun i k => Ext.fin (J i k))
        (fun i k => Ext.fin (hObj i k)) (fun i k => Ext.fin (hConstr i k)) deltaDV lagMult = .ok (D, L) ∧
      IsActiveKkt actC actD (fun i k => hObj i k + hConstr i k) J g (fun i => constr i - targ i) d l ∧
      (∀ p : Nat, actD[p]? = some true → D[p]? = some (.fin (d p))) ∧
      (∀ p : Nat, actD[p]? ≠ some true → D[p]? = deltaDV[p]?) ∧
      (∀ p : Nat, actC[p]? = some true → L[p]? = some (.fin (l p))) ∧
      (∀ p : Nat, actC[p]? = some false → L[p]? = some (.fin 0)) := by
  have memA : ∀ {act : List Bool} {p : Nat}, p ∈ activeFrom 0 act ↔ act[p]? = some true := by
    intro act p
    rw [mem_activeFrom]
    simp
  have hne : 0 < (activeFrom 0 actD).length := by
    obtain ⟨k, hk⟩ := hpos
    exact List.length_pos_of_mem (memA.mpr hk)
  obtain ⟨D, L, k, att, h1, h2, h3, h4, h5, h6, h7⟩ := C71_store solvers lsq lim fuel method
    actC.length (activeFrom 0 actC) (activeFrom 0 actD) (activeFrom_nodup _ _)
    (activeFrom_nodup _ _)
    (hLag (fun i k => Ext.fin (hObj i k)) (fun i k => Ext.fin (hConstr i k)) (activeFrom 0 actD))
    (matAct (fun i k => Ext.fin (J i k)) (activeFrom 0 actC) (activeFrom 0 actD))
    (gradAct (fun i => Ext.fin (g i)) (activeFrom 0 actD))
    (constrAct (fun i => Ext.fin (constr i)) (fun i => Ext.fin (targ i)) (activeFrom 0 actC)) deltaDV
    (fun s hs => activeFrom_lt actC s hs) (fun s hs => hlen ▸ activeFrom_lt actD s hs)
  rw [constrAct_fin] at h4 h6
  obtain ⟨l0, ⟨d1, hd1⟩, hl0⟩ := C49_inverse_partial (solvers k) (hs k) lsq lim hlim
    (fun i j => hObj (activeFrom 0 actD)[i] (activeFrom 0 actD)[j]
      + hConstr (activeFrom 0 actD)[i] (activeFrom 0 actD)[j]) Hi
    (fun i j => J (activeFrom 0 actC)[i] (activeFrom 0 actD)[j]) hHi S hSi
    (fun i => g (activeFrom 0 actD)[i])
    (fun i => constr (activeFrom 0 actC)[i] - targ (activeFrom 0 actC)[i]) (fun _ => .fin 0) att
  -- vectors of full length
  have lift : ∀ (act : List Bool) (v : Fin (activeFrom 0 act).length → K),
      ∃ w : Nat → K, ∀ i : Fin (activeFrom 0 act).length, w (activeFrom 0 act)[i] = v i := by
    intro act v
    classical
    refine ⟨fun p => if h : ∃ i : Fin (activeFrom 0 act).length, (activeFrom 0 act)[i] = p
      then v h.choose else 0, fun i => ?_⟩
    have h : ∃ i' : Fin (activeFrom 0 act).length, (activeFrom 0 act)[i'] = (activeFrom 0 act)[i] :=
      ⟨i, rfl⟩
    simp only [dif_pos h]
    congr 1
    have := h.choose_spec
    exact Fin.ext ((List.Nodup.getElem_inj_iff (activeFrom_nodup act 0)).mp this)
  have conv : ∀ (dv : Fin (activeFrom 0 actD).length → K) (lv : Fin (activeFrom 0 actC).length → K)
      (w u : Nat → K), (∀ i : Fin (activeFrom 0 actD).length, w (activeFrom 0 actD)[i] = dv i) →
      (∀ i : Fin (activeFrom 0 actC).length, u (activeFrom 0 actC)[i] = lv i) →
      IsKkt (fun i j => hObj (activeFrom 0 actD)[i] (activeFrom 0 actD)[j]
        + hConstr (activeFrom 0 actD)[i] (activeFrom 0 actD)[j])
        (fun i j => J (activeFrom 0 actC)[i] (activeFrom 0 actD)[j])
        (fun i => g (activeFrom 0 actD)[i])
        (fun i => constr (activeFrom 0 actC)[i] - targ (activeFrom 0 actC)[i]) dv lv →
      IsActiveKkt actC actD (fun i k => hObj i k + hConstr i k) J g (fun i => constr i - targ i)
        w u := by
    intro dv lv w u hw hu hk
    refine ⟨fun i hi => ?_, fun q hq => ?_⟩
    · obtain ⟨a, ha, rfl⟩ := active_place hi
      rw [← sum_active actD (fun q => J (activeFrom 0 actC)[a] q * w q)]
      refine Eq.trans ?_ (hk.1 ⟨a, ha⟩)
      exact Finset.sum_congr rfl fun b _ => by rw [hw b]; rfl
    · obtain ⟨a, ha, rfl⟩ := active_place hq
      rw [← sum_active actD (fun e => (hObj (activeFrom 0 actD)[a] e
          + hConstr (activeFrom 0 actD)[a] e) * w e),
        ← sum_active actC (fun e => J e (activeFrom 0 actD)[a] * u e)]
      refine Eq.trans ?_ (hk.2 ⟨a, ha⟩)
      congr 1
      · congr 1
        exact Finset.sum_congr rfl fun b _ => by rw [hw b]; rfl
      · exact Finset.sum_congr rfl fun b _ => by rw [hu b]; rfl
  obtain ⟨u, hu⟩ := lift actC l0
  obtain ⟨w1, hw1⟩ := lift actD d1
  have hin' : ∀ i, InLimit lim (.fin (l0 i)) := by
    intro i
    rw [← hu i]
    exact hin w1 u (conv d1 l0 w1 u hw1 hu hd1) _ (active_at i.2)
  obtain ⟨dv, hdv, hlv, -, -, -, hkk⟩ := hl0 hin'
  obtain ⟨w, hw⟩ := lift actD dv
  refine ⟨D, L, w, u, ?_, conv dv l0 w u hw hu hkk, ?_, ?_, ?_, ?_⟩
  · show (if 0 < (activeFrom 0 actD).length then _ else _) = _
    rw [if_pos hne]
    exact h1
  · intro p hp
    obtain ⟨a, ha, rfl⟩ := active_place hp
    rw [h4 a ha]
    congr 1
    have := congrFun hdv ⟨a, ha⟩
    refine Eq.trans this ?_
    show Ext.fin _ = Ext.fin _
    rw [← hw ⟨a, ha⟩]
    rfl
  · intro p hp
    exact h5 p fun hc => hp (memA.mp hc)
  · intro p hp
    obtain ⟨a, ha, rfl⟩ := active_place hp
    rw [h6 a ha]
    congr 1
    have := congrFun hlv ⟨a, ha⟩
    refine Eq.trans this ?_
    show Ext.fin _ = Ext.fin _
    rw [← hu ⟨a, ha⟩]
    rfl
  · intro p hp
    refine h7 p (List.getElem?_eq_some_iff.mp hp).1 fun hc => ?_
    rw [memA.mp hc] at hp
    cases hp

/-- C71: without active variables the step is zero and the multipliers are left alone. -/
theorem C71_none (solvers : Int → Solver K) (lsq : Lsq K) (lim : Ext K) (fuel : Nat) (method : Int)
    (actC actD : List Bool) (dObj constr targ : Nat → Ext K) (dConstr hObj hConstr : Nat → Nat → Ext K)
    (deltaDV lagMult : List (Ext K)) (h : ∀ k : Nat, actD[k]? ≠ some true) :
    checkAndCompute solvers lsq lim fuel method actC actD dObj constr targ dConstr hObj hConstr
      deltaDV lagMult = .ok (List.replicate actD.length (.fin 0), lagMult) := by
  have : activeFrom 0 actD = [] := by
    rw [List.eq_nil_iff_forall_not_mem]
    intro p hp
    exact h p (((C70_lists actD).1.2 p).mp hp)
  show (if 0 < (activeFrom 0 actD).length then _ else _) = _
  rw [this]
  rfl

/-- C71 for sparse matrices, when both decompositions succeed: as in the dense case, with the step
of "constraint only" mode. -/
theorem C71_sparse_partial (info : ∀ n : Nat, Mat K n n → Bool) (solve : Solver K) (lsq : Lsq K)
    (lim : Ext K) (nConstr : Nat) (subC subD : List Nat) (hC : subC.Nodup) (hD : subD.Nodup)
    (h : Mat K subD.length subD.length) (j : Mat K subC.length subD.length)
    (g : Vec K subD.length) (c : Vec K subC.length) (deltaDV : List (Ext K))
    (hrC : ∀ s ∈ subC, s < nConstr) (hrD : ∀ s ∈ subD, s < deltaDV.length)
    (hinfo : ∀ n a, info n a = true) :
    ∃ (d l : List (Ext K)),
      computeStepSparse info solve lsq lim nConstr subC subD h j g c deltaDV = .ok (d, l) ∧
      d.length = deltaDV.length ∧ l.length = nConstr ∧
      (∀ (i : Nat) (hi : i < subD.length), d[subD[i]]? = some
        ((sqpStep solve lsq lim h j g c (fun _ => .fin 0) true).delta ⟨i, hi⟩)) ∧
      (∀ p, p ∉ subD → d[p]? = deltaDV[p]?) ∧
      (∀ (i : Nat) (hi : i < subC.length), l[subC[i]]? = some
        ((sqpStep solve lsq lim h j g c (fun _ => .fin 0) true).lag ⟨i, hi⟩)) ∧
      ∀ p, p < nConstr → p ∉ subC → l[p]? = some (.fin 0) := by
  have hlarge : (sqpStep solve lsq lim h j g c (fun _ => .fin 0) true).isLarge = false :=
    (finish_cases _ _ _ _ _ _ _ _ _ _).2.1
  obtain ⟨d, d1, d2, d3, d4⟩ := scatter_spec subD hD deltaDV
    (List.ofFn (sqpStep solve lsq lim h j g c (fun _ => .fin 0) true).delta) hrD (by simp)
  obtain ⟨l, l1, l2, l3, l4⟩ := storeLag_spec nConstr subC hC hrC
    (List.ofFn (sqpStep solve lsq lim h j g c (fun _ => .fin 0) true).lag) (by simp)
  refine ⟨d, l, ?_, d2, l2, ?_, d4, ?_, l4⟩
  · have hstep : sqpStepSparse info solve lsq lim h j g c (fun _ => .fin 0) (fun _ => .fin 0) none
        true = .ok (sqpStep solve lsq lim h j g c (fun _ => .fin 0) true) := by
      unfold sqpStepSparse sqpStep
      simp [hinfo]
    unfold computeStepSparse
    rw [hstep]
    simp only [Except.bind]
    rw [d1]
    simp only
    rw [hlarge, l1]
  · intro i hi
    rw [d3 i hi]
    simp [hi]
  · intro i hi
    rw [l3 i hi]
    simp [hi]

/-- C71 as stated for sparse matrices: the step never faults. -/
def C71_statement : Prop :=
  ∀ (info : ∀ n : Nat, Mat ℚ n n → Bool) (solve : Solver ℚ) (lsq : Lsq ℚ),
    ∃ r, computeStepSparse info solve lsq (.inf false) 1 [0] [0] (fun _ _ => .fin 0)
      (fun _ _ => .fin 1) (fun _ => .fin 1) (fun _ => .fin 1) [.fin 0] = .ok r

/-- C71 fails for sparse matrices: when the Hessian (here 0) cannot be decomposed, the variable
`isLarge` is read before it has a value. -/
theorem C71_violated : ¬ C71_statement := by
  intro h
  obtain ⟨r, hr⟩ := h (fun _ _ => false) (fun _ _ b => b) (fun _ _ _ _ _ => .nan)
  have : computeStepSparse (fun _ _ => false) (fun _ _ b => b) (fun _ _ _ _ _ => .nan) (.inf false) 1
      [0] [0] (fun _ _ => .fin 0) (fun _ _ => .fin 1) (fun _ => .fin 1) (fun _ => .fin 1)
      [(.fin 0 : Ext ℚ)] = .error .ub := rfl
  rw [this] at hr
  cases hr

/-! ### C72 -/

/-- The block matrix of the conditions. -/
def kktMat {m n : Nat} (H : Fin n → Fin n → K) (J : Fin m → Fin n → K) :
    Fin (n + m) → Fin (n + m) → K :=
  fun a b => Fin.addCases
    (fun i => Fin.addCases (fun k => H i k) (fun l => J l i) b)
    (fun i => Fin.addCases (fun k => J i k) (fun _ => 0) b) a

theorem sensInv_fin {m n : Nat} (H : Fin n → Fin n → K) (J : Fin m → Fin n → K) :
    sensInv (finMat H) (finMat J) = finMat (kktMat H J) := by
  funext a b
  refine Fin.addCases (fun i => ?_) (fun i => ?_) a <;>
    refine Fin.addCases (fun k => ?_) (fun k => ?_) b <;>
    simp [sensInv, kktMat, finMat]

theorem kktMat_mul {m n : Nat} (H : Fin n → Fin n → K) (J : Fin m → Fin n → K)
    (x : Fin (n + m) → K) :
    (∀ i : Fin n, ∑ k, kktMat H J (Fin.castAdd m i) k * x k
      = ∑ k, H i k * x (Fin.castAdd m k) + ∑ l, J l i * x (Fin.natAdd n l)) ∧
    ∀ i : Fin m, ∑ k, kktMat H J (Fin.natAdd n i) k * x k = ∑ k, J i k * x (Fin.castAdd m k) := by
  constructor <;> intro i <;> rw [Fin.sum_univ_add] <;> simp [kktMat]

/-- C72, what is stored: if the solver solves the systems with the matrix of the conditions, then
the column of constraint `i` is the sensitivity of the step to the target of constraint `i`, times
minus the multiplier of constraint `i`. -/
theorem C72_scaled_partial {m n : Nat} (solve : Solver K) (H : Fin n → Fin n → K)
    (J : Fin m → Fin n → K) (l : Fin m → K) (hS : Solves solve (kktMat H J)) (i : Fin m) :
    ∃ s : Fin n → K, IsSens H J i s ∧
      ∀ k, sensRes solve (finMat H) (finMat J) (finVec l) k i = .fin (- (l i * s k)) := by
  obtain ⟨x, -, hx⟩ := hS (fun a => Fin.addCases (fun _ => 0) (fun b => if b = i then 1 else 0) a)
  have hx1 : ∀ k : Fin n, ∑ a, H k a * x (Fin.castAdd m a) + ∑ b, J b k * x (Fin.natAdd n b) = 0 := by
    intro k
    rw [← (kktMat_mul H J x).1 k, hx]
    simp
  have hx2 : ∀ b : Fin m, ∑ k, J b k * x (Fin.castAdd m k) = if b = i then 1 else 0 := by
    intro b
    rw [← (kktMat_mul H J x).2 b, hx]
    simp
  refine ⟨fun k => x (Fin.castAdd m k), ?_, ?_⟩
  · intro g c t d d' l1 l2 h1 h2 k
    have hinj := Solves.injective hS
      (x := fun a => Fin.addCases (fun k => d' k - d k) (fun b => l2 b - l1 b) a)
      (y := fun a => t * x a) (by
        intro a
        refine Fin.addCases (fun q => ?_) (fun q => ?_) a
        · rw [(kktMat_mul H J _).1 q, (kktMat_mul H J _).1 q]
          simp only [Fin.addCases_left, Fin.addCases_right]
          have e1 := h1.2 q
          have e2 := h2.2 q
          have e3 := hx1 q
          have a1 : ∑ a, H q a * (d' a - d a) = ∑ a, H q a * d' a - ∑ a, H q a * d a := by
            rw [← Finset.sum_sub_distrib]
            exact Finset.sum_congr rfl fun _ _ => by ring
          have a2 : ∑ b, J b q * (l2 b - l1 b) = ∑ b, J b q * l2 b - ∑ b, J b q * l1 b := by
            rw [← Finset.sum_sub_distrib]
            exact Finset.sum_congr rfl fun _ _ => by ring
          have a3 : ∑ a, H q a * (t * x (Fin.castAdd m a)) + ∑ b, J b q * (t * x (Fin.natAdd n b))
              = t * (∑ a, H q a * x (Fin.castAdd m a) + ∑ b, J b q * x (Fin.natAdd n b)) := by
            rw [mul_add, Finset.mul_sum, Finset.mul_sum]
            congr 1 <;> exact Finset.sum_congr rfl fun _ _ => by ring
          rw [a1, a2, a3, e3]
          linarith
        · rw [(kktMat_mul H J _).2 q, (kktMat_mul H J _).2 q]
          simp only [Fin.addCases_left]
          have e1 := h1.1 q
          have e2 := h2.1 q
          have e3 := hx2 q
          have a1 : ∑ a, J q a * (d' a - d a) = ∑ a, J q a * d' a - ∑ a, J q a * d a := by
            rw [← Finset.sum_sub_distrib]
            exact Finset.sum_congr rfl fun _ _ => by ring
          have a3 : ∑ a, J q a * (t * x (Fin.castAdd m a)) = t * ∑ a, J q a * x (Fin.castAdd m a) := by
            rw [Finset.mul_sum]
            exact Finset.sum_congr rfl fun _ _ => by ring
          rw [a1, a3, e3, e1, e2]
          by_cases hq : q = i
          · simp [hq]
          · simp [hq])
    have := congrFun hinj (Fin.castAdd m k)
    simpa using this
  · intro k
    have hb : (fun a => sensMult (n := n) (finVec l) a i)
        = finVec (fun a => Fin.addCases (fun _ => 0) (fun b => if b = i then l i else 0) a) := by
      funext a
      refine Fin.addCases (fun q => ?_) (fun q => ?_) a
      · simp [sensMult, finVec]
      · simp only [sensMult, finVec, Fin.addCases_right]
        split <;> rfl
    obtain ⟨y, hy, hyx⟩ := hS
      (fun a => Fin.addCases (fun _ => 0) (fun b => if b = i then l i else 0) a)
    have hyl : y = fun a => l i * x a := by
      apply Solves.injective hS
      intro a
      rw [hyx a]
      have : ∑ b, kktMat H J a b * (l i * x b) = l i * ∑ b, kktMat H J a b * x b := by
        rw [Finset.mul_sum]
        exact Finset.sum_congr rfl fun _ _ => by ring
      rw [this, hx a]
      refine Fin.addCases (fun q => ?_) (fun q => ?_) a
      · simp
      · simp
    show Ext.neg (solve _ (sensInv (finMat H) (finMat J)) (fun a => sensMult (finVec l) a i) _) = _
    rw [sensInv_fin, hb, hy, hyl]
    rfl

/-- C72 as stated: the columns are the sensitivities to the targets. -/
def C72_statement : Prop :=
  ∀ (solve : Solver ℚ), SolvesAll solve → ∀ (H J : Fin 1 → Fin 1 → ℚ) (l : Fin 1 → ℚ),
    Solves solve (kktMat H J) → ∃ s : Fin 1 → ℚ, IsSens H J 0 s ∧
      ∀ k, sensRes solve (finMat H) (finMat J) (finVec l) k 0 = .fin (s k)

/-- C72 fails: with one variable, one constraint and the multiplier 2 the value stored is -2, but
the step changes by 1 per unit of the target. -/
theorem C72_violated : ¬ C72_statement := by
  intro h
  obtain ⟨solve, hs⟩ := solver_exists (K := ℚ)
  have hS : Solves solve (kktMat (fun (_ _ : Fin 1) => (1 : ℚ)) (fun (_ _ : Fin 1) => (1 : ℚ))) := by
    refine hs (1 + 1) _ ![![0, 1], ![1, -1]] fun i j => ?_
    fin_cases i <;> fin_cases j <;> simp [Fin.sum_univ_two, kktMat, Fin.addCases]
  obtain ⟨s, h1, h2⟩ := h solve hs (fun _ _ => 1) (fun _ _ => 1) (fun _ => 2) hS
  obtain ⟨s', h1', h2'⟩ := C72_scaled_partial solve (fun _ _ => 1) (fun _ _ => 1) (fun _ => 2) hS 0
  have e := (h2 0).symm.trans (h2' 0)
  simp only [Ext.fin.injEq] at e
  have k0 : IsKkt (fun (_ _ : Fin 1) => (1 : ℚ)) (fun (_ _ : Fin 1) => 1) (fun _ => 0) (fun _ => 0)
      (fun _ => 0) (fun _ => 0) := ⟨fun i => by simp, fun k => by simp⟩
  have k1 : IsKkt (fun (_ _ : Fin 1) => (1 : ℚ)) (fun (_ _ : Fin 1) => 1) (fun _ => 0)
      (fun a => if a = 0 then (fun _ => 0 : Fin 1 → ℚ) a - 1 else (fun _ => 0 : Fin 1 → ℚ) a)
      (fun _ => 1) (fun _ => -1) :=
    ⟨fun i => by simp [Subsingleton.elim i 0], fun k => by simp⟩
  have a1 := h1 _ _ 1 _ _ _ _ k0 k1 0
  have a2 := h1' _ _ 1 _ _ _ _ k0 k1 0
  simp only [sub_zero, one_mul] at a1 a2
  rw [← a1, ← a2] at e
  norm_num at e

/-- The hypotheses of `C71_kkt_partial` on the active matrices, met by two active variables out of
three and one active constraint out of two. -/
example (D C : List Nat) (hD : D = activeFrom 0 [true, false, true])
    (hC : C = activeFrom 0 [false, true]) :
    ∃ (H J : Nat → Nat → ℚ) (Hi : Fin D.length → Fin D.length → ℚ)
      (S : Fin C.length → Fin C.length → ℚ),
      (∀ i j, ∑ k : Fin D.length, (H D[i] D[k] + 0) * Hi k j = if i = j then 1 else 0) ∧
      ∀ i j, ∑ k, (∑ a, ∑ b, J C[i] D[a] * Hi a b * J C[k] D[b]) * S k j
        = if i = j then 1 else 0 := by
  have e1 : D = [0, 2] := hD.trans (by decide)
  have e2 : C = [1] := hC.trans (by decide)
  clear hD hC
  subst e1 e2
  refine ⟨fun i j => if i = j then (if i = 0 then 2 else 4) else 0,
    fun _ j => if j = 0 then 1 else 3,
    fun i j => if i = j then (if i.1 = 0 then 1 / 2 else 1 / 4) else 0, fun _ _ => 4 / 11, ?_, ?_⟩
  · show ∀ i j : Fin 2, _
    intro i j
    show ∑ k : Fin 2, _ = _
    rw [Fin.sum_univ_two]
    fin_cases i <;> fin_cases j <;> simp
  · show ∀ i j : Fin 1, _
    intro i j
    fin_cases i; fin_cases j
    show ∑ k : Fin 1, (∑ a : Fin 2, ∑ b : Fin 2, _) * _ = _
    simp [Fin.sum_univ_two]
    norm_num

end RSVS.Props
