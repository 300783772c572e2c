import Verif.Lemmas.Triplet

/-! # Properties of the sparse matrices and of the active matrices (C70, C73) -/

set_option linter.unusedSectionVars false

namespace RSVS.Props

open RSVS RSVS.Sqp RSVS.Spec

variable {S : Type} [Zero S] [Add S]

/-! ### C73 -/

/-- A sequence of `coeffRef(i, j) += x`. -/
def runAdds (t : Triplet S) : List (Nat × Nat × S) → Res (Triplet S)
  | [] => .ok t
  | e :: es => (t.addAt e.1 e.2.1 e.2.2).bind fun t' => runAdds t' es

theorem runAdds_inv (nRow nCol : Nat) (hsz : nRow * nCol ≤ 2 ^ 31) (adds : List (Nat × Nat × S))
    (hr : ∀ e ∈ adds, e.1 < nRow ∧ e.2.1 < nCol) (t : Triplet S) (a : Nat → Nat → S)
    (h : Triplet.Inv t nRow nCol a) :
    ∃ t', runAdds t adds = .ok t' ∧ Triplet.Inv t' nRow nCol (fun i j =>
      ((adds.filter (fun e => decide (e.1 = i ∧ e.2.1 = j))).map (fun e => e.2.2)).foldl (· + ·)
        (a i j)) := by
  induction adds generalizing t a with
  | nil => exact ⟨t, rfl, h⟩
  | cons e es ih =>
    obtain ⟨h1, h2⟩ := hr e (List.mem_cons_self ..)
    obtain ⟨t1, ht1, hi1⟩ := Triplet.inv_add h hsz h1 h2 e.2.2
    obtain ⟨t2, ht2, hi2⟩ := ih (fun x hx => hr x (List.mem_cons_of_mem _ hx)) t1 _ hi1
    refine ⟨t2, ?_, ?_⟩
    · show (t.addAt e.1 e.2.1 e.2.2).bind _ = _
      rw [ht1]
      exact ht2
    · convert hi2 using 3 with i j
      by_cases hc : e.1 = i ∧ e.2.1 = j
      · obtain ⟨rfl, rfl⟩ := hc
        simp
      · have hc' : ¬ (i = e.1 ∧ j = e.2.1) := fun ⟨a, b⟩ => hc ⟨a.symm, b.symm⟩
        simp [hc, hc']

/-- C73, for matrices of at most `2 ^ 31` coefficients: any sequence of additions in range
succeeds, and afterwards the matrix holds the sums of what was added, whether it is read
coefficient by coefficient, listed or copied to a dense matrix.  The sums are those of the order
of the calls, so nothing is asked of the addition. -/
theorem C73_sums_partial (nRow nCol : Nat) (hsz : nRow * nCol ≤ 2 ^ 31)
    (adds : List (Nat × Nat × S)) (hr : ∀ e ∈ adds, e.1 < nRow ∧ e.2.1 < nCol) :
    ∃ t, runAdds (Triplet.empty nRow nCol) adds = .ok t ∧ Holds t nRow nCol (sumAt adds) := by
  obtain ⟨t, h1, h2⟩ := runAdds_inv nRow nCol hsz adds hr _ _ (Triplet.inv_empty nRow nCol)
  exact ⟨t, h1, h2.holds hsz⟩

/-- C73: a position out of range throws, whether it is read or written. -/
theorem C73_range (t : Triplet S) (a b : Int) (x : S)
    (h : a < 0 ∨ (t.nRow : Int) ≤ a ∨ b < 0 ∨ (t.nCol : Int) ≤ b) :
    t.get a b = .error .throws ∧ t.addAt a b x = .error .throws := by
  have hk : t.key a b = .error .throws := by
    unfold Triplet.key
    rw [if_pos h]
  constructor
  · unfold Triplet.get
    rw [hk]
    rfl
  · unfold Triplet.addAt
    rw [hk]
    rfl

/-- C73 as stated, without a bound on the number of coefficients. -/
def C73_statement : Prop :=
  ∀ (nRow nCol : Nat) (adds : List (Nat × Nat × Int)), nRow < 2 ^ 31 → nCol < 2 ^ 31 →
    (∀ e ∈ adds, e.1 < nRow ∧ e.2.1 < nCol) →
    ∃ t, runAdds (Triplet.empty nRow nCol) adds = .ok t ∧ Holds t nRow nCol (sumAt adds)

/-- C73 fails for the Hessian of 65536 variables: the key of `(0, 32768)` is not an `int`. -/
theorem C73_violated : ¬ C73_statement := by
  intro h
  obtain ⟨t, ht, -⟩ := h 65536 65536 [(0, 32768, 1)] (by norm_num) (by norm_num) (by
    intro e he
    simp at he
    subst he
    norm_num)
  have : runAdds (Triplet.empty 65536 65536) [(0, 32768, (1 : Int))] = .error .ub := by
    have hk : (Triplet.empty 65536 65536 : Triplet Int).key 0 32768 = .error .ub := by
      decide +kernel
    show ((Triplet.key _ 0 32768).bind _).bind _ = _
    rw [hk]
    rfl
  rw [this] at ht
  cases ht

example : (3 * 2 : Nat) ≤ 2 ^ 31 ∧
    ∀ e ∈ [(0, 1, (2 : Int)), (2, 0, 3), (0, 1, 5)], e.1 < 3 ∧ e.2.1 < 2 := by decide

example : sumAt [(0, 1, (2 : Int)), (2, 0, 3), (0, 1, 5)] 0 1 = 7 := by decide +kernel

example : ((runAdds (Triplet.empty 3 2) [(0, 1, (2 : Int)), (2, 0, 3), (0, 1, 5)]).bind
    fun t => t.entries) = .ok [(0, 1, 7), (2, 0, 3)] := by decide +kernel

/-! ### C70 -/

/-- C70: the lists of active variables and constraints hold exactly the active positions, in
increasing order, and the hashed list used for sparse matrices is the same list. -/
theorem C70_lists (act : List Bool) :
    IsActiveList act (activeFrom 0 act) ∧
      (activeHashed act).vec = (activeFrom 0 act).map (fun (n : Nat) => (n : Int)) := by
  refine ⟨⟨activeFrom_sorted act 0, fun p => ?_⟩, activeHashed_vec act⟩
  rw [mem_activeFrom]
  simp

/-- C70: such a list is unique. -/
theorem C70_unique {act : List Bool} {s t : List Nat} (hs : IsActiveList act s)
    (ht : IsActiveList act t) : s = t := by
  have hnd : ∀ {l : List Nat}, l.Pairwise (· < ·) → l.Nodup := fun h => h.imp Nat.ne_of_lt
  have hp : s.Perm t := by
    rw [List.perm_ext_iff_of_nodup (hnd hs.1) (hnd ht.1)]
    intro p
    rw [hs.2, ht.2]
  exact hp.eq_of_pairwise (fun a b _ _ h1 h2 => absurd (lt_trans h1 h2) (lt_irrefl _)) hs.1 ht.1

/-- C70: the active part of a sparse matrix has the coefficients of the active rows and columns,
for every matrix that the triplets hold. -/
theorem C70_sparse (check : Bool) (actR actC : List Bool) (t : Triplet S) (a : Nat → Nat → S)
    (h : Holds t actR.length actC.length a) {subR subC : List Nat} (hR : IsActiveList actR subR)
    (hC : IsActiveList actC subC) :
    ∃ m, sparseAct check actR actC t = .ok m ∧
      ∀ (i j : Nat) (hi : i < subR.length) (hj : j < subC.length),
        SparseMat.coeff m i j = a subR[i] subC[j] := by
  obtain rfl := C70_unique hR (C70_lists actR).1
  obtain rfl := C70_unique hC (C70_lists actC).1
  obtain ⟨es, e1, e2, e3, e4⟩ := h.entries
  obtain ⟨m, h1, h2⟩ := sparseAct_fold check actR actC es
    (fun e he => ⟨(e3 e he).1, (e3 e he).2.1⟩) e2 [] (by simp)
  refine ⟨m, ?_, ?_⟩
  · unfold sparseAct
    rw [e1]
    exact h1
  · intro i j hi hj
    obtain ⟨g1, g2⟩ := h2 i j hi hj
    by_cases hm : ((activeFrom 0 actR)[i], (activeFrom 0 actC)[j]) ∈ es.map (fun e => (e.1, e.2.1))
    · obtain ⟨e, he, heq⟩ := List.mem_map.mp hm
      simp only [Prod.mk.injEq] at heq
      rw [g1 e he heq.1 heq.2, (e3 e he).2.2, heq.1, heq.2]
    · rw [g2 hm]
      have hz : ¬ (a (activeFrom 0 actR)[i] (activeFrom 0 actC)[j] ≠ 0) := fun hne =>
        hm (e4 _ _ (activeFrom_lt actR _ (List.getElem_mem hi))
          (activeFrom_lt actC _ (List.getElem_mem hj)) hne)
      exact (not_not.mp hz).symm

/-- C70: sparse and full maths see the same active matrix. -/
theorem C70_same {K : Type} [Field K] [LinearOrder K] (check : Bool) (actR actC : List Bool)
    (t : Triplet (Ext K)) [Zero (Ext K)] [Add (Ext K)] (a : Nat → Nat → Ext K)
    (h : Holds t actR.length actC.length a) :
    ∃ m d, sparseAct check actR actC t = .ok m ∧ t.setEqual = .ok d ∧
      ∀ (i : Fin (activeFrom 0 actR).length) (j : Fin (activeFrom 0 actC).length),
        SparseMat.coeff m i.1 j.1 = matAct d (activeFrom 0 actR) (activeFrom 0 actC) i j := by
  obtain ⟨m, h1, h2⟩ := C70_sparse check actR actC t a h (C70_lists actR).1 (C70_lists actC).1
  obtain ⟨d, h3, h4⟩ := h.dense
  refine ⟨m, d, h1, h3, fun i j => ?_⟩
  rw [h2 i j i.2 j.2]
  exact (h4 _ _ (activeFrom_lt actR _ (List.getElem_mem i.2))
    (activeFrom_lt actC _ (List.getElem_mem j.2))).symm

example : IsActiveList [true, false, true] [0, 2] := (C70_lists [true, false, true]).1

example : ∃ t, runAdds (Triplet.empty 3 2) [(0, 1, (2 : Int)), (2, 0, 3), (0, 1, 5)] = .ok t ∧
    Holds t [true, false, true].length [true, true].length
      (sumAt [(0, 1, (2 : Int)), (2, 0, 3), (0, 1, 5)]) :=
  C73_sums_partial 3 2 (by decide) _ (by decide)

end RSVS.Props
