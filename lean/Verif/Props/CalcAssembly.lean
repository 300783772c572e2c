import Verif.Lemmas.CalcAssembly

/-! # Objective, constraints and their derivatives are those of the whole triangulation (C80) -/

namespace RSVS.Props

open RSVS.Spec RSVS.Math RSVS.Calc

/-- A triangle and what its points are. -/
abbrev Piece := Tri × (Fin 3 → Pt)

/-- Sum of the areas as the snaxels of `dvMap` move. -/
noncomputable def objOf (R : Rails) (epsS : ℝ) (d : ℤ → ℝ) (dvMap : List ℤ) (l : List Piece)
    (y : Fin dvMap.length → ℝ) : ℝ :=
  (l.map fun x => areaOf R epsS x.2 (move d dvMap y)).sum

/-- Constraint `q`: minus the volumes, as far as they count. -/
noncomputable def constrOf (R : Rails) (d : ℤ → ℝ) (S : Setup) (l : List Piece) (q : ℤ)
    (y : Fin S.dvMap.length → ℝ) : ℝ :=
  (l.map fun x => share S.constrMap x.1.celltarg x.1.influence q *
    -volumeOf R x.2 (move d S.dvMap y)).sum

/-- What is required of a triangle. -/
structure Sound (E : Env) (R : Rails) (d : ℤ → ℝ) (S : Setup) (epsS : ℝ) (x : Piece) : Prop where
  describes : DescribesTri E R d x.1 x.2
  area : areaOf R epsS x.2 d ≠ 0
  influence : x.1.celltarg.length ≤ x.1.influence.length

/-- Positions of constraints are valid or `-1`. -/
def ValidMap (S : Setup) : Prop := ∀ p ∈ S.constrMap, p.2 = -1 ∨ 0 ≤ p.2 ∧ p.2 < S.nConstr

/-- No entry is left out (`UseFullMath`). -/
def Full (S : Setup) : Prop := (∀ x, S.keepC x) ∧ ∀ x, S.keepO x

/-- The numbers in `a` are values and gradients of given functions. -/
structure Tracks (d : ℤ → ℝ) (S : Setup) (a : Acc) (obj : ℝ) (fo : (Fin S.dvMap.length → ℝ) → ℝ)
    (fc : ℤ → (Fin S.dvMap.length → ℝ) → ℝ) : Prop where
  obj : a.obj = obj
  constr : ∀ q : ℕ, a.constr q = fc q (here d S.dvMap)
  dObj : IsGrad fo (fun i => a.dObj i) (here d S.dvMap)
  dConstr : ∀ q : ℕ, IsGrad (fc q) (fun i => a.dConstr q i) (here d S.dvMap)

/-- And Hessians. -/
structure Tracks2 (d : ℤ → ℝ) (S : Setup) (a : Acc) (fo : (Fin S.dvMap.length → ℝ) → ℝ)
    (fc : ℤ → (Fin S.dvMap.length → ℝ) → ℝ) : Prop where
  hObj : IsHess fo (fun i j => a.hObj i j) (here d S.dvMap)
  hConstr : IsHess (fun y => ∑ q : Fin S.nConstr, S.lagMult q * fc q y) (fun i j => a.hConstr i j)
    (here d S.dvMap)

theorem isHess_add {ι : Type} [Fintype ι] {f k : (ι → ℝ) → ℝ} {H K : ι → ι → ℝ} {x : ι → ℝ}
    (h : IsHess f H x) (h' : IsHess k K x) : IsHess (fun y => f y + k y) (fun i j => H i j + K i j) x := by
  obtain ⟨G, hG, hG2⟩ := h
  obtain ⟨L, hL, hL2⟩ := h'
  refine ⟨fun y i => G y i + L y i, ?_, fun i => (hG2 i).add (hL2 i)⟩
  filter_upwards [hG, hL] with y a b
  exact a.add b

theorem isHess_smul {ι : Type} [Fintype ι] {f : (ι → ℝ) → ℝ} {H : ι → ι → ℝ} {x : ι → ℝ} (c : ℝ)
    (h : IsHess f H x) : IsHess (fun y => c * f y) (fun i j => c * H i j) x := by
  obtain ⟨G, hG, hG2⟩ := h
  refine ⟨fun y i => c * G y i, ?_, fun i => ?_⟩
  · filter_upwards [hG] with y a
    exact ((IsGrad.const c).mul a).congr fun i => by ring
  · exact ((IsGrad.const c).mul (hG2 i)).congr fun j => by ring

/-- Effect of one triangle. -/
theorem calcTriangle_ok {E : Env} {R : Rails} {d : ℤ → ℝ} {S : Setup} {epsS : ℝ} {x : Piece}
    (h : Sound E R d S epsS x) (hv : ValidMap S) (hf : Full S) {m : Method}
    (hm : ∀ h, m = .differences h → h ≠ 0) (isObj isDeriv : Bool)
    (hs : isDeriv = false → ∀ s ∈ S.dvMap, ∀ i, ¬ (x.2 i).Uses s) (a : Acc) :
    ∃ b, calcTriangle E S true m epsS 0 0 isObj isDeriv x.1 a = .ok b ∧
      (∀ {obj fo fc}, Tracks d S a obj fo fc → (isObj = true → isDeriv = true) →
        Tracks d S b (obj + if isObj then areaOf R 0 x.2 d else 0)
          (fun y => fo y + if isObj then areaOf R epsS x.2 (move d S.dvMap y) else 0)
          (fun q y => fc q y + share S.constrMap x.1.celltarg x.1.influence q *
            -volumeOf R x.2 (move d S.dvMap y))) ∧
      (∀ {fo fc}, Tracks2 d S a fo fc → (isObj = true → isDeriv = true) →
        (∀ i, Straight S.dvMap (x.2 i)) →
        Tracks2 d S b
          (fun y => fo y + if isObj then areaOf R epsS x.2 (move d S.dvMap y) else 0)
          (fun q y => fc q y + share S.constrMap x.1.celltarg x.1.influence q *
            -volumeOf R x.2 (move d S.dvMap y))) ∧
      (∀ i, b.isDvAct i = true ↔ a.isDvAct i = true ∨
        ∃ s ∈ S.dvMap, S.dvMap.idxOf s = i ∧ ∃ k, (x.2 k).Uses s) ∧
      (∀ q : ℕ, b.isConstrAct q = true ↔ a.isConstrAct q = true ∨
        (∃ s ∈ S.dvMap, ∃ k, (x.2 k).Uses s) ∧ ∃ c ∈ x.1.celltarg, (c, (q : ℤ)) ∈ S.constrMap) := by
  obtain ⟨p, e1, -, hu, hvol, harea, gV, gA, hK⟩ := trianglePart_ok h.describes S.dvMap hm epsS h.area
  obtain ⟨ts, e2, hsh, hmem⟩ := targets_ok S.constrMap x.1.celltarg x.1.influence h.influence
  have hts : ∀ t ∈ ts, t.1 = -1 ∨ 0 ≤ t.1 ∧ t.1 < S.nConstr := by
    intro t ht
    obtain ⟨c, -, hc⟩ := (hmem t.1).mp ⟨t, ht, rfl⟩
    exact hv _ hc
  have hsub : ∀ s ∈ p.dvs, s ∈ S.dvMap := fun s hs => ((hu s).mp hs).1
  have hpos : ∀ (y : Fin S.dvMap.length → ℝ) i,
      (x.2 i).pos R (move d p.dvs fun k => y (seat hsub k)) = (x.2 i).pos R (move d S.dvMap y) :=
    fun y i => pos_seat R d hsub (fun s hs hm => (hu s).mpr ⟨hm, i, hs⟩) y
  have eV : ∀ y : Fin S.dvMap.length → ℝ, -volumeOf R x.2 (move d p.dvs fun k => y (seat hsub k)) =
      -volumeOf R x.2 (move d S.dvMap y) := fun y => by simp only [volumeOf, hpos]
  have eA : ∀ y : Fin S.dvMap.length → ℝ, areaOf R epsS x.2 (move d p.dvs fun k => y (seat hsub k)) =
      areaOf R epsS x.2 (move d S.dvMap y) := fun y => by simp only [areaOf, hpos]
  have gV' := seat_grad hsub eV gV
  have gA' := seat_grad hsub eA gA
  have hH : (∀ i, Straight S.dvMap (x.2 i)) → _ := fun hs =>
    hK (fun _ _ _ => 0) fun a => straight_hess (k := Fin.ofNat 3 a) (p := x.2 (Fin.ofNat 3 (a / 3)))
      ((hs _).imp id fun h s hs => h s (hsub s hs)) _
  simp only [mul_zero, Finset.sum_const_zero, zero_add] at hH
  have hz : isDeriv = false → p.dvs = [] := by
    intro he
    rw [List.eq_nil_iff_forall_not_mem]
    intro s hs'
    obtain ⟨h1, i, h2⟩ := (hu s).mp hs'
    exact hs he s h1 i h2
  have z1 : ∀ (g : ℕ → ℝ) (c : ℝ) i, (if isDeriv then c * scat S.dvMap p.dvs g i else 0) =
      c * scat S.dvMap p.dvs g i := by
    intro g c i
    cases isDeriv with
    | true => rfl
    | false => rw [hz rfl]; simp [scat]
  have z2 : ∀ (g : ℕ → ℕ → ℝ) (c : ℝ) i j,
      (if isDeriv then c * scat2 S.dvMap p.dvs g i j else 0) = c * scat2 S.dvMap p.dvs g i j := by
    intro g c i j
    cases isDeriv with
    | true => rfl
    | false => rw [hz rfl]; simp [scat2]
  have b1 := addConstrs_eq S hf.1 isDeriv p hts a
  simp only [z1, z2] at b1
  obtain ⟨a', e3, c1, c2, c3, c4, c5, c6, c7, c8⟩ : ∃ a', addConstrs S isDeriv p ts a = .ok a' ∧
      (∀ q, a'.constr q = a.constr q + factor ts q * p.vol.1) ∧
      (∀ q i, a'.dConstr q i = a.dConstr q i + factor ts q * scat S.dvMap p.dvs (p.vol.2.1.val 0) i) ∧
      (∀ i j, a'.hConstr i j = a.hConstr i j +
        lagFactor S.lagMult ts * scat2 S.dvMap p.dvs p.vol.2.2.val i j) ∧
      a'.obj = a.obj ∧ a'.dObj = a.dObj ∧ a'.hObj = a.hObj ∧ a'.isDvAct = a.isDvAct ∧
      a'.isConstrAct = a.isConstrAct :=
    ⟨_, b1, fun _ => rfl, fun _ _ => rfl, fun _ _ => rfl, rfl, rfl, rfl, rfl, rfl⟩
  obtain ⟨b, eb, d1, d2, d3, d4, d5, d6, d7, d8⟩ : ∃ b,
      b = addActive S p ts (if isObj then addObj S isDeriv p a' else a') ∧
      b.constr = a'.constr ∧ b.dConstr = a'.dConstr ∧ b.hConstr = a'.hConstr ∧
      b.obj = a'.obj + (if isObj then p.area.1 else 0) ∧
      ((isObj = true → isDeriv = true) → ∀ i, b.dObj i = a'.dObj i +
        if isObj then scat S.dvMap p.dvs (p.area.2.1.val 0) i else 0) ∧
      ((isObj = true → isDeriv = true) → ∀ i j, b.hObj i j = a'.hObj i j +
        if isObj then scat2 S.dvMap p.dvs p.area.2.2.val i j else 0) ∧
      (∀ i, b.isDvAct i = (a'.isDvAct i || decide (∃ s ∈ p.dvs, S.dvMap.idxOf s = i))) ∧
      (∀ i, b.isConstrAct i = (a'.isConstrAct i ||
        (decide (p.dvs ≠ []) && decide (∃ q ∈ ts, q.1 = (i : Int))))) := by
    refine ⟨_, rfl, ?_, ?_, ?_, ?_, fun hod i => ?_, fun hod i j => ?_, fun i => ?_, fun i => ?_⟩
    rotate_left 4
    · cases isObj
      · simp [addActive]
      · simp [addActive, addObj, addGrad_eq, hod rfl]
    · cases isObj
      · simp [addActive]
      · simp [addActive, addObj, @addHess_eq S.keepO S.decO hf.2, hod rfl]
    all_goals cases isObj <;> cases isDeriv <;> first | rfl | simp [addActive]
  refine ⟨b, ?_, ?_, ?_, ?_, ?_⟩
  · rw [calcTriangle, e1]
    simp only [Except.bind]
    rw [e2]
    simp only
    rw [e3, eb]
    rfl
  · intro obj fo fc ht hod
    constructor
    · rw [d4, c4, ht.obj, harea]
    · intro q
      rw [d1, c1, move_here, hvol, hsh, ht.constr]
    · cases isObj with
      | true =>
        refine (ht.dObj.add gA').congr fun i => ?_
        rw [d5 hod, c5]
        rfl
      | false =>
        refine (ht.dObj.add (IsGrad.const 0)).congr fun i => ?_
        rw [d5 hod, c5]
        rfl
    · intro q
      have := ht.dConstr q |>.add ((IsGrad.const (share S.constrMap x.1.celltarg x.1.influence q)).mul gV')
      refine this.congr fun i => ?_
      rw [d2, c2, hsh]
      ring
  · intro fo fc ht hod hs
    obtain ⟨hV, hA⟩ := hH hs
    have hV' := seat_hess hsub eV hV
    have hA' := seat_hess hsub eA hA
    constructor
    · cases isObj with
      | true =>
        have e : (fun i j : Fin S.dvMap.length => b.hObj i j) =
            fun i j : Fin S.dvMap.length => a.hObj i j + scat2 S.dvMap p.dvs p.area.2.2.val i j := by
          funext i j
          rw [d6 hod, c6]
          rfl
        rw [e]
        exact isHess_add ht.hObj hA'
      | false =>
        have e : (fun i j : Fin S.dvMap.length => b.hObj i j) =
            fun i j : Fin S.dvMap.length => a.hObj i j := by
          funext i j
          rw [d6 hod, c6]
          exact add_zero _
        rw [e]
        exact isHess_of_eq ht.hObj fun y => (add_zero _).symm
    · have := isHess_add ht.hConstr (isHess_smul (∑ q : Fin S.nConstr, S.lagMult q *
        share S.constrMap x.1.celltarg x.1.influence q) hV')
      have e : (fun i j : Fin S.dvMap.length => b.hConstr i j) =
          fun i j : Fin S.dvMap.length => a.hConstr i j + (∑ q : Fin S.nConstr, S.lagMult q *
            share S.constrMap x.1.celltarg x.1.influence q) *
              scat2 S.dvMap p.dvs p.vol.2.2.val i j := by
        funext i j
        rw [d3, c3, lagFactor_eq S.lagMult S.nConstr hts]
        simp only [hsh]
      rw [e]
      refine isHess_of_eq this fun y => ?_
      rw [Finset.sum_mul, ← Finset.sum_add_distrib]
      exact Finset.sum_congr rfl fun q _ => by ring
  · intro i
    rw [d7, c7, Bool.or_eq_true, decide_eq_true_eq]
    refine or_congr Iff.rfl ⟨?_, ?_⟩
    · rintro ⟨s, h1, h2⟩
      exact ⟨s, hsub s h1, h2, ((hu s).mp h1).2⟩
    · rintro ⟨s, h1, h2, h3⟩
      exact ⟨s, (hu s).mpr ⟨h1, h3⟩, h2⟩
  · intro q
    rw [d8, c8, Bool.or_eq_true, Bool.and_eq_true, decide_eq_true_eq, decide_eq_true_eq, hmem]
    refine or_congr Iff.rfl (and_congr ⟨fun hne => ?_, ?_⟩ Iff.rfl)
    · obtain ⟨s, hs⟩ := List.exists_mem_of_ne_nil _ hne
      exact ⟨s, (hu s).mp hs⟩
    · rintro ⟨s, h1, h2⟩ h3
      have := (hu s).mpr ⟨h1, h2⟩
      rw [h3] at this
      cases this

/-- The loop over a list of triangles. -/
theorem calcAll_ok {E : Env} {R : Rails} {d : ℤ → ℝ} {S : Setup} {epsS : ℝ} (hv : ValidMap S)
    (hf : Full S) {m : Method} (hm : ∀ h, m = .differences h → h ≠ 0) (isObj isDeriv : Bool)
    {l : List Piece} (h : ∀ x ∈ l, Sound E R d S epsS x)
    (hs : isDeriv = false → ∀ x ∈ l, ∀ s ∈ S.dvMap, ∀ i, ¬ (x.2 i).Uses s)
    (hod : isObj = true → isDeriv = true) (a : Acc) :
    ∃ b, calcAll E S true m epsS 0 0 isObj isDeriv (l.map Prod.fst) a = .ok b ∧
      (∀ {obj fo fc}, Tracks d S a obj fo fc →
        Tracks d S b (obj + if isObj then (l.map fun x => areaOf R 0 x.2 d).sum else 0)
          (fun y => fo y + if isObj then objOf R epsS d S.dvMap l y else 0)
          (fun q y => fc q y + constrOf R d S l q y)) ∧
      (∀ {fo fc}, Tracks2 d S a fo fc → (∀ x ∈ l, ∀ i, Straight S.dvMap (x.2 i)) →
        Tracks2 d S b (fun y => fo y + if isObj then objOf R epsS d S.dvMap l y else 0)
          (fun q y => fc q y + constrOf R d S l q y)) ∧
      (∀ i, b.isDvAct i = true ↔ a.isDvAct i = true ∨
        ∃ s ∈ S.dvMap, S.dvMap.idxOf s = i ∧ ∃ x ∈ l, ∃ k, (x.2 k).Uses s) ∧
      (∀ q : ℕ, b.isConstrAct q = true ↔ a.isConstrAct q = true ∨
        ∃ x ∈ l, (∃ s ∈ S.dvMap, ∃ k, (x.2 k).Uses s) ∧
          ∃ c ∈ x.1.celltarg, (c, (q : ℤ)) ∈ S.constrMap) := by
  induction l generalizing a with
  | nil =>
    refine ⟨a, rfl, fun ht => ?_, fun ht _ => ?_, fun i => by simp, fun q => by simp⟩ <;>
    simpa [objOf, constrOf] using ht
  | cons x l ih =>
    obtain ⟨b, e1, t1, t2, t3, t4⟩ := calcTriangle_ok (h x (by simp)) hv hf hm isObj isDeriv
      (fun he => hs he x (by simp)) a
    obtain ⟨c, e2, u1, u2, u3, u4⟩ := ih (fun y hy => h y (by simp [hy]))
      (fun he y hy => hs he y (by simp [hy])) b
    have eo : ∀ (fo : (Fin S.dvMap.length → ℝ) → ℝ), (fun y => (fo y +
        if isObj then areaOf R epsS x.2 (move d S.dvMap y) else 0) +
        if isObj then objOf R epsS d S.dvMap l y else 0) = fun y => fo y +
        if isObj then objOf R epsS d S.dvMap (x :: l) y else 0 := by
      intro fo
      funext y
      cases isObj
      · simp
      · simp [objOf, add_assoc]
    have ec : ∀ (fc : ℤ → (Fin S.dvMap.length → ℝ) → ℝ), (fun (q : ℤ) y => (fc q y +
        share S.constrMap x.1.celltarg x.1.influence q * -volumeOf R x.2 (move d S.dvMap y)) +
        constrOf R d S l q y) = fun q y => fc q y + constrOf R d S (x :: l) q y := by
      intro fc
      funext q y
      simp [constrOf, add_assoc]
    refine ⟨c, by rw [List.map_cons, calcAll, e1]; exact e2, fun {obj fo fc} ht => ?_,
      fun {fo fc} ht hst => ?_, fun i => ?_, fun q => ?_⟩
    · have := u1 (t1 ht hod)
      rw [eo, ec] at this
      convert this using 1
      cases isObj
      · simp
      · simp [add_assoc]
    · have := u2 (t2 ht hod (hst x (by simp))) fun y hy => hst y (by simp [hy])
      rwa [eo, ec] at this
    · rw [u3, t3, or_assoc]
      refine or_congr Iff.rfl ⟨?_, ?_⟩
      · rintro (⟨s, h1, h2, h3⟩ | ⟨s, h1, h2, y, hy, h3⟩)
        · exact ⟨s, h1, h2, x, by simp, h3⟩
        · exact ⟨s, h1, h2, y, by simp [hy], h3⟩
      · rintro ⟨s, h1, h2, y, hy, h3⟩
        obtain rfl | hy := List.mem_cons.mp hy
        · exact .inl ⟨s, h1, h2, h3⟩
        · exact .inr ⟨s, h1, h2, y, hy, h3⟩
    · rw [u4, t4, or_assoc]
      simp only [List.mem_cons, exists_eq_or_imp]

/-- C80.  After `CalculateTriangulation`, with `UseFullMath`, `obj` is the area of the surface of the
snake and `dObj` its gradient; `constr` are the volumes in the cells and `dConstr` their
gradients; the Hessians are those of the area and of the constraints with their multipliers if no
centroid moves.  The active variables are those some triangle depends on. -/
theorem C80_partial {E : Env} {R : Rails} {d : ℤ → ℝ} {S : Setup} {epsS : ℝ} (hv : ValidMap S)
    (hf : Full S) {m : Method} (hm : ∀ h, m = .differences h → h ≠ 0) {dyna inter stat : List Piece}
    (h : ∀ x ∈ dyna ++ inter ++ stat, Sound E R d S epsS x)
    (hs : ∀ x ∈ stat, ∀ s ∈ S.dvMap, ∀ i, ¬ (x.2 i).Uses s) :
    ∃ a, calcTriangulation E S true m epsS 0 0 (dyna.map Prod.fst) (inter.map Prod.fst)
        (stat.map Prod.fst) = .ok a ∧
      a.obj = (dyna.map fun x => areaOf R 0 x.2 d).sum ∧
      IsGrad (objOf R epsS d S.dvMap dyna) (fun i => a.dObj i) (here d S.dvMap) ∧
      (∀ q : ℕ, a.constr q = constrOf R d S (dyna ++ inter ++ stat) q (here d S.dvMap) ∧
        IsGrad (constrOf R d S (dyna ++ inter ++ stat) q) (fun i => a.dConstr q i) (here d S.dvMap)) ∧
      ((∀ x ∈ dyna ++ inter, ∀ i, Straight S.dvMap (x.2 i)) →
        IsHess (objOf R epsS d S.dvMap dyna) (fun i j => a.hObj i j) (here d S.dvMap) ∧
        IsHess (fun y => ∑ q : Fin S.nConstr, S.lagMult q *
            constrOf R d S (dyna ++ inter ++ stat) q y)
          (fun i j => a.hConstr i j) (here d S.dvMap)) ∧
      (∀ i, a.isDvAct i = true ↔ ∃ s ∈ S.dvMap, S.dvMap.idxOf s = i ∧
        ∃ x ∈ dyna ++ inter ++ stat, ∃ k, (x.2 k).Uses s) ∧
      (∀ q : ℕ, a.isConstrAct q = true ↔ ∃ x ∈ dyna ++ inter ++ stat,
        (∃ s ∈ S.dvMap, ∃ k, (x.2 k).Uses s) ∧ ∃ c ∈ x.1.celltarg, (c, (q : ℤ)) ∈ S.constrMap) := by
  obtain ⟨a, e1, s1, s2, s3, s4⟩ := calcAll_ok hv hf hm true true (l := dyna)
    (fun x hx => h x (by simp [hx])) (by simp) (by simp) Acc.zero
  obtain ⟨b, e2, t1, t2, t3, t4⟩ := calcAll_ok hv hf hm false true (l := inter)
    (fun x hx => h x (by simp [hx])) (by simp) (by simp) a
  obtain ⟨c, e3, u1, u2, u3, u4⟩ := calcAll_ok hv hf hm false false (l := stat)
    (fun x hx => h x (by simp [hx])) (fun _ => hs) (by simp) b
  have h0 : Tracks d S Acc.zero 0 (fun _ => 0) (fun _ _ => 0) :=
    ⟨rfl, fun _ => rfl, IsGrad.const _, fun _ => IsGrad.const _⟩
  have h02 : Tracks2 d S Acc.zero (fun _ => 0) (fun _ _ => 0) :=
    ⟨⟨fun _ _ => 0, .of_forall fun _ => IsGrad.const _, fun _ => IsGrad.const _⟩,
      ⟨fun _ _ => 0, .of_forall fun _ => by simpa using IsGrad.const _, fun _ => IsGrad.const _⟩⟩
  have ec : (fun (q : ℤ) y => 0 + constrOf R d S dyna q y + constrOf R d S inter q y +
      constrOf R d S stat q y) = fun (q : ℤ) y => constrOf R d S (dyna ++ inter ++ stat) q y := by
    funext q y
    simp [constrOf, add_assoc]
  have k1 := u1 (t1 (s1 h0))
  simp only [if_true, Bool.false_eq_true, if_false, add_zero, zero_add] at k1
  refine ⟨c, ?_, k1.obj, k1.dObj, fun q => ?_, fun hst => ?_, fun i => ?_, fun q => ?_⟩
  · rw [calcTriangulation, e1]
    simp only [Except.bind]
    rw [e2]
    exact e3
  · have e := congrFun ec q
    simp only [zero_add] at e
    have g1 := k1.constr q
    have g2 := k1.dConstr q
    rw [e] at g2
    exact ⟨g1.trans (congrFun e _), g2⟩
  · have k2 := u2 (t2 (s2 h02 fun x hx => hst x (by simp [hx])) fun x hx => hst x (by simp [hx]))
      fun x hx i => .inr fun s hm => hs x hx s hm i
    rw [ec] at k2
    simp only [if_true, Bool.false_eq_true, if_false, add_zero, zero_add] at k2
    exact ⟨k2.hObj, k2.hConstr⟩
  · rw [u3, t3, s3]
    simp only [Acc.zero, Bool.false_eq_true, false_or, List.mem_append, or_and_right, exists_or,
      and_or_left]
  · rw [u4, t4, s4]
    simp only [Acc.zero, Bool.false_eq_true, false_or, List.mem_append, or_and_right, exists_or]

/-- C80: a variable that is not active, and is left out of the step, has no effect. -/
theorem C80_inactive {E : Env} {R : Rails} {d : ℤ → ℝ} {S : Setup} {epsS : ℝ} (hv : ValidMap S)
    (hf : Full S) {m : Method} (hm : ∀ h, m = .differences h → h ≠ 0) {dyna inter stat : List Piece}
    (h : ∀ x ∈ dyna ++ inter ++ stat, Sound E R d S epsS x)
    (hs : ∀ x ∈ stat, ∀ s ∈ S.dvMap, ∀ i, ¬ (x.2 i).Uses s) {a : Acc}
    (ha : calcTriangulation E S true m epsS 0 0 (dyna.map Prod.fst) (inter.map Prod.fst)
        (stat.map Prod.fst) = .ok a) (i : Fin S.dvMap.length) (hi : a.isDvAct i = false) :
    (∀ y z : Fin S.dvMap.length → ℝ, (∀ j, j ≠ i → y j = z j) →
      objOf R epsS d S.dvMap dyna y = objOf R epsS d S.dvMap dyna z ∧
      ∀ q, constrOf R d S (dyna ++ inter ++ stat) q y = constrOf R d S (dyna ++ inter ++ stat) q z) ∧
      a.dObj i = 0 ∧ ∀ q, a.dConstr q i = 0 := by
  obtain ⟨a', e, -, g1, g2, -, h5, -⟩ := C80_partial hv hf hm h hs
  rw [ha] at e
  cases e
  have hpos : ∀ x ∈ dyna ++ inter ++ stat, ∀ k, ∀ y z : Fin S.dvMap.length → ℝ,
      (∀ j, j ≠ i → y j = z j) →
      (x.2 k).pos R (move d S.dvMap y) = (x.2 k).pos R (move d S.dvMap z) := by
    intro x hx k y z hyz
    refine pos_congr fun s hs' => ?_
    unfold move
    split
    · next hm' =>
      apply hyz
      intro he
      have : a.isDvAct i = true :=
        (h5 i).mpr ⟨s, hm', congrArg Fin.val he, x, hx, k, hs'⟩
      rw [hi] at this
      cases this
    · rfl
  have hall : ∀ y z : Fin S.dvMap.length → ℝ, (∀ j, j ≠ i → y j = z j) →
      objOf R epsS d S.dvMap dyna y = objOf R epsS d S.dvMap dyna z ∧
      ∀ q, constrOf R d S (dyna ++ inter ++ stat) q y =
        constrOf R d S (dyna ++ inter ++ stat) q z := by
    intro y z hyz
    constructor
    · refine congrArg List.sum (List.map_congr_left fun x hx => ?_)
      have := fun k => hpos x (by simp [hx]) k y z hyz
      simp only [areaOf, this]
    · intro q
      refine congrArg List.sum (List.map_congr_left fun x hx => ?_)
      have := fun k => hpos x hx k y z hyz
      simp only [volumeOf, this]
  have hz : ∀ {f : (Fin S.dvMap.length → ℝ) → ℝ} {g : Fin S.dvMap.length → ℝ},
      (∀ y z, (∀ j, j ≠ i → y j = z j) → f y = f z) → IsGrad f g (here d S.dvMap) → g i = 0 := by
    intro f g hfi hg
    have hg' : IsGrad (fun y => f (Function.update y i (here d S.dvMap i))) (fun j => if j = i then 0
        else g j) (here d S.dvMap) := by
      have := IsGrad.comp (x := here d S.dvMap)
        (c := fun y j => Function.update y i (here d S.dvMap i) j) (S := f) (s := g)
        (C := fun j k => if j = i then 0 else if k = j then 1 else 0)
        (by rwa [Function.update_eq_self])
        (fun j => by
          by_cases hj : j = i
          · subst hj
            simpa using IsGrad.const _
          · simpa [hj] using IsGrad.coord j)
      refine this.congr fun k => ?_
      by_cases hk : k = i
      · rw [if_pos hk]
        refine Finset.sum_eq_zero fun j _ => ?_
        by_cases hj : j = i
        · simp [hj]
        · rw [if_neg hj, if_neg fun h' => hj (h'.symm.trans hk), mul_zero]
      · rw [if_neg hk, Finset.sum_eq_single k]
        · simp [hk]
        · intro j _ hj
          by_cases hji : j = i
          · simp [hji]
          · rw [if_neg hji, if_neg (Ne.symm hj), mul_zero]
        · simp
    have := (isGrad_of_eq hg' fun y => hfi _ y fun j hj => by simp [hj]).unique hg
    have := congrFun this i
    simpa using this.symm
  exact ⟨hall, hz (fun y z hyz => (hall y z hyz).1) g1,
    fun q => hz (fun y z hyz => (hall y z hyz).2 q) (g2 q).2⟩

/-- One triangle between two nodes and a snaxel that moves up the `z` axis. -/
def tRails (c : ℝ) : Rails where
  node i := if i = 1 then ![c, 0, 0] else if i = 2 then ![0, 1, 0] else if i = 3 then ![0, 0, 1]
    else ![0, 0, 0]
  start _ := 0
  stop _ := 3

def tEnv (c : ℝ) : Env where
  meshVert i := .ok ((tRails c).node i)
  snakeVert s := .ok ((tRails c).snaxel (fun _ => 0) s)
  snax _ := .ok (0, 3)
  trivert _ := .error .throws
  trisurf _ := .error .throws
  snakeSurf _ := .error .throws
  snakeConn _ := .error .throws

def tPiece : Piece :=
  (⟨![1, 1, 2], ![1, 2, 10], [7], [1]⟩, ![.corner (.node 1), .corner (.node 2), .corner (.snaxel 10)])

/-- One variable and one constraint; `keep` says which entries are added. -/
noncomputable def tSetup (keep : ℝ → Prop) : Setup where
  dvMap := [10]
  constrMap := [(7, 0)]
  nConstr := 1
  lagMult _ := 1
  keepC := keep
  keepO := keep
  decC := Classical.decPred _
  decO := Classical.decPred _

theorem normSq_nonneg' (p : Fin 3 → ℝ) : 0 ≤ normSq p := by
  simp only [normSq, dotProduct, Fin.sum_univ_three]
  nlinarith [mul_self_nonneg (p 0), mul_self_nonneg (p 1), mul_self_nonneg (p 2)]

theorem tSound (c : ℝ) (keep : ℝ → Prop) :
    Sound (tEnv c) (tRails c) (fun _ => 0) (tSetup keep) 1 tPiece where
  describes i := by
    match i with
    | 0 => exact .node 1 rfl
    | 1 => exact .node 2 rfl
    | 2 => exact .snaxel 10 ⟨⟨rfl, rfl, rfl⟩, rfl⟩
  area := by
    unfold areaOf triAreaReg
    refine (div_pos (Real.sqrt_pos.mpr ?_) two_pos).ne'
    refine add_pos_of_nonneg_of_pos ?_ one_pos
    exact normSq_nonneg' _
  influence := le_rfl

theorem tValid (keep : ℝ → Prop) : ValidMap (tSetup keep) := by
  intro p hp
  simp only [tSetup, List.mem_singleton] at hp
  subst hp
  right
  simp [tSetup]

/-- The hypotheses of C80 can be met, and the constraint then depends on the snaxel. -/
example : ∃ a, calcTriangulation (tEnv 1) (tSetup fun _ => True) true .exact 1 0 0 [tPiece.1] [] [] =
    .ok a ∧ a.isDvAct 0 = true ∧ a.isConstrAct 0 = true := by
  obtain ⟨a, h1, -, -, -, -, h6, h7⟩ := C80_partial (E := tEnv 1) (R := tRails 1) (d := fun _ => 0)
    (epsS := 1) (tValid fun _ => True) ⟨fun _ => trivial, fun _ => trivial⟩ (m := .exact) (by simp)
    (dyna := [tPiece]) (inter := []) (stat := [])
    (fun x hx => by
      have : x = tPiece := by simpa using hx
      exact this ▸ tSound 1 _) (by simp)
  refine ⟨a, h1, (h6 0).mpr ⟨10, by simp [tSetup], by simp [tSetup], tPiece, by simp, 2, rfl⟩,
    (h7 0).mpr ⟨tPiece, by simp, ⟨10, by simp [tSetup], 2, rfl⟩, 7, by simp [tPiece], by simp [tSetup]⟩⟩

/-- C80 as stated, for the entries that are kept with sparse matrices. -/
def C80_statement (tol : ℝ) : Prop :=
  ∀ (E : Env) (R : Rails) (d : ℤ → ℝ) (S : Setup) (epsS : ℝ) (l : List Piece), ValidMap S →
    S.keepC = notZero tol → S.keepO = notZero tol → (∀ x ∈ l, Sound E R d S epsS x) →
    ∃ a, calcTriangulation E S true .exact epsS 0 0 (l.map Prod.fst) [] [] = .ok a ∧
      ∀ q : ℕ, IsGrad (constrOf R d S l q) (fun i => a.dConstr q i) (here d S.dvMap)

/-- C80 as stated is false: derivatives below the tolerance are left out one by one. -/
theorem C80_violated {tol : ℝ} (ht : 0 < tol) : ¬ C80_statement tol := by
  intro h
  obtain ⟨a, h1, h2⟩ := h (tEnv tol) (tRails tol) (fun _ => 0) (tSetup (notZero tol)) 1 [tPiece]
    (tValid _) rfl rfl fun x hx => by
      have : x = tPiece := by simpa using hx
      exact this ▸ tSound tol _
  have hv : ∀ y : Fin [(10 : ℤ)].length → ℝ, -volumeOf (tRails tol) tPiece.2
      (move (fun _ => 0) [10] y) = -tol / 6 * y 0 := by
    intro y
    simp [tPiece, volumeOf, Pt.pos, Corner.pos, tRails, Rails.snaxel, along, move, coneVolume, triple,
      crossProduct]
    ring
  have hl : IsGrad (fun y : Fin [(10 : ℤ)].length → ℝ => -tol / 6 * y 0) (fun _ => -tol / 6)
      (here (fun _ => 0) [10]) := by
    refine ((IsGrad.const _).mul (IsGrad.coord 0)).congr fun i => ?_
    simp [Fin.fin_one_eq_zero i]
  have hg : IsGrad (constrOf (tRails tol) (fun _ => 0) (tSetup (notZero tol)) [tPiece] (0 : ℕ))
      (fun _ => -tol / 6) (here (fun _ => 0) [10]) := by
    refine isGrad_of_eq hl fun y => ?_
    refine (hv y).symm.trans ?_
    simp [constrOf, share, tPiece, tSetup]
  have hu := congrFun ((h2 0).unique hg) (0 : Fin [(10 : ℤ)].length)
  have h0 : a.dConstr 0 0 = 0 := by
    obtain ⟨p, e1, hn, hm, -, -, gV, -⟩ := trianglePart_ok (tSound tol (notZero tol)).describes [10]
      (m := .exact) (by simp) 1 (tSound tol (notZero tol)).area
    have hd : p.dvs = [10] := eq_singleton_of hn ((hm 10).mpr ⟨by simp, 2, rfl⟩) fun s hs => by
      simpa using ((hm s).mp hs).1
    have hk : ∀ k < p.dvs.length, ¬ notZero tol (p.vol.2.1.val 0 k) := by
      obtain ⟨dvs, v, A⟩ := p
      simp only at hd gV
      subst hd
      have := congrFun (gV.unique (isGrad_of_eq hl fun y => (hv y).symm))
      intro k hk
      have := this ⟨k, hk⟩
      simp only at this
      simp only [notZero, not_not, this, sub_zero]
      rw [neg_div, abs_neg, abs_of_pos (by positivity)]
      linarith
    have hk' := @addGrad_none (notZero tol) (tSetup (notZero tol)).decC [10] p.dvs 1 (p.vol.2.1.val 0)
      (fun _ => 0) hk
    have et : targets [((7 : ℤ), (0 : ℤ))] [7] [1] = .ok [(0, 1)] := by
      simp [targets, Except.map]
    have e3 : calcTriangle (tEnv tol) (tSetup (notZero tol)) true .exact 1 0 0 true true tPiece.1
        Acc.zero = (addConstrs (tSetup (notZero tol)) true p [(0, 1)] Acc.zero).map fun a =>
          addActive (tSetup (notZero tol)) p [(0, 1)] (addObj (tSetup (notZero tol)) true p a) := by
      unfold calcTriangle
      change ((trianglePart (tEnv tol) [10] true .exact 1 0 0 tPiece.1).bind fun p => _) = _
      rw [e1]
      change ((targets [((7 : ℤ), (0 : ℤ))] [7] [1]).bind fun ts => _) = _
      rw [et]
      rfl
    simp only [calcTriangulation, List.map_cons, List.map_nil, calcAll, e3] at h1
    rw [addConstrs, if_neg (by norm_num), if_neg (by simp [tSetup])] at h1
    simp only [addConstrs, Except.map, Except.bind] at h1
    cases h1
    exact congrFun hk' 0
  have : a.dConstr 0 0 = -tol / 6 := hu
  rw [h0] at this
  linarith

end RSVS.Props
