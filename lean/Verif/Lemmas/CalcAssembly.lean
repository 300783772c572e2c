import Verif.Props.CalcTriangle

/-! # Sums over the triangles -/

namespace RSVS.Calc

open RSVS.Spec RSVS.Props RSVS.Math

/-- Where the entries of a gradient go. -/
def scat (dvMap dvs : List Int) (g : Nat → ℝ) (i : Nat) : ℝ :=
  ∑ k : Fin dvs.length, if i = place dvMap dvs k then g k else 0

def scat2 (dvMap dvs : List Int) (h : Nat → Nat → ℝ) (i j : Nat) : ℝ :=
  ∑ k : Fin dvs.length, ∑ l : Fin dvs.length,
    if i = place dvMap dvs l ∧ j = place dvMap dvs k then h l k else 0

theorem foldl_add {α β : Type} (f : (β → ℝ) → α → β → ℝ) (u : α → β → ℝ)
    (hf : ∀ v a b, f v a b = v b + u a b) (l : List α) (v : β → ℝ) (b : β) :
    l.foldl f v b = v b + (l.map fun a => u a b).sum := by
  induction l generalizing v with
  | nil => simp
  | cons a l ih => rw [List.foldl_cons, ih, hf, List.map_cons, List.sum_cons, add_assoc]

theorem foldl_add2 {α β γ : Type} (f : (β → γ → ℝ) → α → β → γ → ℝ) (u : α → β → γ → ℝ)
    (hf : ∀ v a b c, f v a b c = v b c + u a b c) (l : List α) (v : β → γ → ℝ) (b : β) (c : γ) :
    l.foldl f v b c = v b c + (l.map fun a => u a b c).sum := by
  induction l generalizing v with
  | nil => simp
  | cons a l ih => rw [List.foldl_cons, ih, hf, List.map_cons, List.sum_cons, add_assoc]

theorem sum_range_map (n : ℕ) (f : ℕ → ℝ) : ((List.range n).map f).sum = ∑ k : Fin n, f k := by
  rw [← List.sum_ofFn, List.ofFn_eq_map, ← List.map_coe_finRange_eq_range, List.map_map]
  rfl

theorem addGrad_eq (keep : ℝ → Prop) [DecidablePred keep] (hk : ∀ x, keep x) (dvMap dvs : List Int)
    (w : ℝ) (g v : Nat → ℝ) (i : Nat) :
    addGrad keep dvMap dvs w g v i = v i + w * scat dvMap dvs g i := by
  unfold addGrad
  rw [foldl_add _ (fun k i => if i = place dvMap dvs k then w * g k else 0), sum_range_map]
  · simp only [scat, Finset.mul_sum, mul_ite, mul_zero]
  · intro v k b
    simp only [hk, if_true, addAt]
    split <;> simp

theorem addGrad_none (keep : ℝ → Prop) [DecidablePred keep] (dvMap dvs : List Int) (w : ℝ)
    (g v : Nat → ℝ) (hk : ∀ k < dvs.length, ¬ keep (g k)) : addGrad keep dvMap dvs w g v = v := by
  unfold addGrad
  have : ∀ l : List ℕ, (∀ k ∈ l, k < dvs.length) → ∀ v : ℕ → ℝ,
      l.foldl (fun v k => if keep (g k) then addAt v (place dvMap dvs k) (w * g k) else v) v = v := by
    intro l hl
    induction l with
    | nil => exact fun v => rfl
    | cons k l ih =>
      intro v
      rw [List.foldl_cons, if_neg (hk k (hl k (by simp))), ih fun k hk => hl k (by simp [hk])]
  exact this _ (fun k hk => List.mem_range.mp hk) v

theorem addHess_eq (keep : ℝ → Prop) [DecidablePred keep] (hk : ∀ x, keep x) (dvMap dvs : List Int)
    (w : ℝ) (h m : Nat → Nat → ℝ) (i j : Nat) :
    addHess keep dvMap dvs w h m i j = m i j + w * scat2 dvMap dvs h i j := by
  unfold addHess
  rw [foldl_add2 _ (fun k i j => ∑ l : Fin dvs.length,
    if i = place dvMap dvs l ∧ j = place dvMap dvs k then w * h l k else 0), sum_range_map]
  · simp only [scat2, Finset.mul_sum, mul_ite, mul_zero]
  · intro m k b c
    rw [foldl_add2 _ (fun l i j =>
      if i = place dvMap dvs l ∧ j = place dvMap dvs k then w * h l k else 0), sum_range_map]
    intro m l b c
    simp only [hk, if_true, addAt2]
    by_cases h1 : b = place dvMap dvs l
    · by_cases h2 : c = place dvMap dvs k <;> simp [h1, h2, addAt]
    · simp [h1]

/-- The factor of constraint `q` in a list of targets. -/
def factor (ts : List (Int × ℝ)) (q : Int) : ℝ := (ts.map fun t => if t.1 = q then t.2 else 0).sum

theorem targets_ok (cm : List (Int × Int)) (cells : List Int) (w : List ℝ)
    (h : cells.length ≤ w.length) :
    ∃ ts, targets cm cells w = .ok ts ∧ (∀ q, factor ts q = share cm cells w q) ∧
      ∀ q, (∃ t ∈ ts, t.1 = q) ↔ ∃ c ∈ cells, (c, q) ∈ cm := by
  induction cells generalizing w with
  | nil => exact ⟨[], by cases w <;> rfl, fun q => by simp [factor, share], by simp⟩
  | cons c cs ih =>
    cases w with
    | nil => simp at h
    | cons w ws =>
      obtain ⟨ts, e, h1, h2⟩ := ih ws (by simpa using h)
      refine ⟨((cm.filter (·.1 = c)).map fun p => (p.2, w)) ++ ts, by rw [targets, e]; rfl, fun q => ?_,
        fun q => ?_⟩
      · have hc : ((((cm.filter (·.1 = c)).map fun p => (p.2, w))).map
            fun t => if t.1 = q then t.2 else 0).sum = w * (cm.count (c, q) : ℝ) := by
          clear h1 h2 e ih
          induction cm with
          | nil => simp
          | cons p cm ih =>
            rw [List.count_cons]
            by_cases hp : p.1 = c
            · by_cases hq : p.2 = q
              · have : p = (c, q) := Prod.ext hp hq
                simp only [List.filter_cons, decide_true, if_true, List.map_cons, List.sum_cons,
                  ih, this, beq_self_eq_true]
                push_cast
                ring
              · have : (p == (c, q)) = false := by
                  simp only [beq_eq_false_iff_ne, ne_eq, Prod.ext_iff, not_and]
                  exact fun _ => hq
                simp [-List.map_map, hp, hq, ih, this]
            · have : (p == (c, q)) = false := by
                simp only [beq_eq_false_iff_ne, ne_eq, Prod.ext_iff, not_and]
                exact fun h => absurd h hp
              simp [-List.map_map, hp, ih, this]
        rw [factor, List.map_append, List.sum_append, hc]
        have := h1 q
        unfold factor at this
        rw [this]
        simp [share]
      · constructor
        · rintro ⟨t, ht, rfl⟩
          rw [List.mem_append] at ht
          obtain ht | ht := ht
          · obtain ⟨p, hp, rfl⟩ := List.mem_map.mp ht
            rw [List.mem_filter] at hp
            have hc : p.1 = c := by simpa using hp.2
            exact ⟨c, by simp, by rw [← hc]; exact hp.1⟩
          · obtain ⟨x, hx, hx'⟩ := (h2 t.1).mp ⟨t, ht, rfl⟩
            exact ⟨x, by simp [hx], hx'⟩
        · rintro ⟨x, hx, hx'⟩
          obtain rfl | hx := List.mem_cons.mp hx
          · refine ⟨(q, w), List.mem_append_left _ (List.mem_map.mpr ⟨(x, q), ?_, rfl⟩), rfl⟩
            exact List.mem_filter.mpr ⟨hx', by simp⟩
          · obtain ⟨t, ht, h'⟩ := (h2 q).mpr ⟨x, hx, hx'⟩
            exact ⟨t, List.mem_append_right _ ht, h'⟩

/-- The factor of the Hessian in a list of targets. -/
def lagFactor (lag : Nat → ℝ) (ts : List (Int × ℝ)) : ℝ :=
  (ts.map fun t => if t.1 = -1 then 0 else t.2 * lag t.1.toNat).sum

theorem lagFactor_eq (lag : Nat → ℝ) (n : ℕ) {ts : List (Int × ℝ)}
    (h : ∀ t ∈ ts, t.1 = -1 ∨ 0 ≤ t.1 ∧ t.1 < n) :
    lagFactor lag ts = ∑ q : Fin n, lag q * factor ts q := by
  unfold lagFactor factor
  induction ts with
  | nil => simp
  | cons t ts ih =>
    have := ih fun t ht => h t (by simp [ht])
    simp only [List.map_cons, List.sum_cons, mul_add, Finset.sum_add_distrib]
    rw [this]
    congr 1
    obtain h1 | ⟨h1, h2⟩ := h t (by simp)
    · rw [if_pos h1]
      symm
      refine Finset.sum_eq_zero fun q _ => ?_
      rw [if_neg (by omega), mul_zero]
    · rw [if_neg (by omega), Finset.sum_eq_single ⟨t.1.toNat, by omega⟩]
      · rw [if_pos (by simp [h1]), mul_comm]
      · intro q _ hq
        rw [if_neg ?_, mul_zero]
        intro he
        apply hq
        apply Fin.ext
        simp only
        omega
      · simp

theorem scat2_mul (dvMap dvs : List Int) (h : Nat → Nat → ℝ) (c : ℝ) (i j : Nat) :
    scat2 dvMap dvs (fun a b => h a b * c) i j = scat2 dvMap dvs h i j * c := by
  simp only [scat2, Finset.sum_mul, ite_mul, zero_mul]

theorem addConstrs_eq (S : Setup) (hk : ∀ x, S.keepC x) (isDeriv : Bool) (p : Part)
    {ts : List (Int × ℝ)} (h : ∀ t ∈ ts, t.1 = -1 ∨ 0 ≤ t.1 ∧ t.1 < S.nConstr) (a : Acc) :
    addConstrs S isDeriv p ts a = .ok { a with
      constr := fun q => a.constr q + factor ts q * p.vol.1
      dConstr := fun q i => a.dConstr q i +
        if isDeriv then factor ts q * scat S.dvMap p.dvs (p.vol.2.1.val 0) i else 0
      hConstr := fun i j => a.hConstr i j +
        if isDeriv then lagFactor S.lagMult ts * scat2 S.dvMap p.dvs p.vol.2.2.val i j else 0 } := by
  induction ts generalizing a with
  | nil => cases isDeriv <;> simp [addConstrs, factor, lagFactor]
  | cons t ts ih =>
    obtain ⟨q, w⟩ := t
    have ih := ih fun t ht => h t (by simp [ht])
    rw [addConstrs]
    obtain h1 | ⟨h1, h2⟩ := h (q, w) (by simp)
    · simp only at h1
      rw [if_pos h1, ih]
      subst h1
      congr 1
      have hf : ∀ r : ℕ, factor ((-1, w) :: ts) r = factor ts r := fun r => by
        simp only [factor, List.map_cons, List.sum_cons]
        rw [if_neg (by omega), zero_add]
      simp only [hf, lagFactor, List.map_cons, List.sum_cons, if_true, zero_add]
    · simp only at h1 h2
      rw [if_neg (by omega), if_neg (by omega)]
      simp only
      rw [ih]
      congr 1
      have hf : ∀ r : ℕ, factor ((q, w) :: ts) r = (if r = q.toNat then w else 0) + factor ts r :=
        fun r => by
          simp only [factor, List.map_cons, List.sum_cons]
          congr 1
          by_cases hr : q = r
          · rw [if_pos hr, if_pos (by omega)]
          · rw [if_neg hr, if_neg (by omega)]
      have hl : lagFactor S.lagMult ((q, w) :: ts) = w * S.lagMult q.toNat + lagFactor S.lagMult ts := by
        simp only [lagFactor, List.map_cons, List.sum_cons]
        rw [if_neg (by omega)]
      have hc : addAt a.constr q.toNat (w * p.vol.1) = fun r => a.constr r +
          (if r = q.toNat then w else 0) * p.vol.1 := by
        funext r
        simp only [addAt]
        split <;> simp
      cases isDeriv with
      | false =>
        simp only [Bool.false_eq_true, if_false, hf, add_zero, hc]
        congr 1
        funext r
        ring
      | true =>
        simp only [if_true, hf, hl, hc]
        congr 1
        · funext r
          ring
        · funext r i
          by_cases hr : r = q.toNat
          · rw [if_pos hr, if_pos hr, @addGrad_eq S.keepC S.decC hk]
            ring
          · rw [if_neg hr, if_neg hr]
            ring
        · funext i j
          rw [@addHess_eq S.keepC S.decC hk, scat2_mul]
          ring

/-- Position in the whole list of an active variable. -/
def seat {dvMap dvs : List Int} (h : ∀ s ∈ dvs, s ∈ dvMap) (k : Fin dvs.length) : Fin dvMap.length :=
  ⟨dvMap.idxOf (dvs.get k), List.idxOf_lt_length_of_mem (h _ (List.get_mem ..))⟩

theorem place_seat {dvMap dvs : List Int} (h : ∀ s ∈ dvs, s ∈ dvMap) (k : Fin dvs.length) :
    place dvMap dvs k = seat h k := by
  simp [place, seat]

theorem here_seat (d : ℤ → ℝ) {dvMap dvs : List Int} (h : ∀ s ∈ dvs, s ∈ dvMap) :
    (fun k => here d dvMap (seat h k)) = here d dvs := by
  funext k
  unfold here seat
  congr 1
  exact List.getElem_idxOf (List.idxOf_lt_length_of_mem (h _ (List.get_mem ..)))

theorem pos_seat (R : Rails) (d : ℤ → ℝ) {dvMap dvs : List Int} (h : ∀ s ∈ dvs, s ∈ dvMap) {p : Pt}
    (hp : ∀ s, p.Uses s → s ∈ dvMap → s ∈ dvs) (y : Fin dvMap.length → ℝ) :
    p.pos R (move d dvs fun k => y (seat h k)) = p.pos R (move d dvMap y) := by
  refine pos_congr fun s hs => ?_
  unfold move
  by_cases hm : s ∈ dvMap
  · rw [dif_pos hm, dif_pos (hp s hs hm)]
    refine congrArg y (Fin.ext ?_)
    simp [seat]
  · rw [dif_neg hm, dif_neg fun h' => hm (h s h')]

variable {dvMap dvs : List Int} {F : (Fin dvMap.length → ℝ) → ℝ} {f : (Fin dvs.length → ℝ) → ℝ}
  {d : ℤ → ℝ}

theorem seat_grad (h : ∀ s ∈ dvs, s ∈ dvMap) (hF : ∀ y, f (fun k => y (seat h k)) = F y) {g : ℕ → ℝ}
    (hg : IsGrad f (fun k => g k) (here d dvs)) :
    IsGrad F (fun i => scat dvMap dvs g i) (here d dvMap) := by
  have e := here_seat d h
  rw [← e] at hg
  have := IsGrad.comp (x := here d dvMap) (c := fun y k => y (seat h k)) hg
    fun k => IsGrad.coord (seat h k)
  refine isGrad_of_eq (this.congr fun i => ?_) hF
  unfold scat
  refine Finset.sum_congr rfl fun k _ => ?_
  rw [place_seat h]
  by_cases hk : i = seat h k
  · simp [hk]
  · rw [if_neg hk, if_neg fun h' => hk (Fin.ext h'), mul_zero]

theorem seat_hess (h : ∀ s ∈ dvs, s ∈ dvMap) (hF : ∀ y, f (fun k => y (seat h k)) = F y)
    {H : ℕ → ℕ → ℝ} (hh : IsHess f (fun k l => H k l) (here d dvs)) :
    IsHess F (fun i j => scat2 dvMap dvs H i j) (here d dvMap) := by
  have e := here_seat d h
  rw [← e] at hh
  obtain ⟨G, hG, hG2⟩ := hh
  have := IsHess.comp (x := here d dvMap) (c := fun y k => y (seat h k)) hG.self_of_nhds ⟨G, hG, hG2⟩
    (fun k => IsGrad.coord (seat h k))
    (fun k => ⟨_, .of_forall fun y => IsGrad.coord (seat h k), fun _ => IsGrad.const _⟩)
  refine isHess_of_eq ?_ hF
  convert this using 3 with i j
  unfold scat2
  simp only [mul_zero, Finset.sum_const_zero, zero_add]
  rw [Finset.sum_comm]
  refine Finset.sum_congr rfl fun k _ => Finset.sum_congr rfl fun l _ => ?_
  rw [place_seat h, place_seat h]
  by_cases h1 : i = seat h k
  · by_cases h2 : j = seat h l
    · simp [h1, h2]
    · rw [if_neg fun h' => h2 (Fin.ext h'.2), if_neg h2, mul_zero]
  · rw [if_neg fun h' => h1 (Fin.ext h'.1), if_neg h1, zero_mul, zero_mul]

end RSVS.Calc
