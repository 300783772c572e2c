import Mathlib.Data.List.GetD
import Mathlib.Data.List.Range
import Mathlib.Algebra.BigOperators.Intervals
import Verif.Lemmas.Geometry

/-! # Lemmas on centres and normals -/

set_option linter.unusedSectionVars false

namespace RSVS.Geo

open Spec

variable {K : Type} [Field K] [LinearOrder K] [IsStrictOrderedRing K]

/-! ### Centre of a volume -/

/-- What is summed by `centreStep`. -/
def centreTerm (len : P3 K → K) (e : P3 K × P3 K) : P3 K × K :=
  (fun i => e.1 i + e.2 i, len (fun i => e.1 i - e.2 i))

theorem centreStep_eq (len : P3 K → K) (s : P3 K × K) (e : P3 K × P3 K) :
    centreStep len s e = (fun i => s.1 i + (centreTerm len e).1 i * (centreTerm len e).2,
      s.2 + (centreTerm len e).2) := by
  have hd : (fun i => 0 + e.1 i - e.2 i : P3 K) = fun i => e.1 i - e.2 i := by funext i; ring
  unfold centreStep centreTerm
  simp only [hd]
  refine Prod.ext ?_ rfl
  funext i; simp only; ring

theorem centreVolu_eq (len : P3 K → K) (es : List (P3 K × P3 K)) (i : Fin 3) :
    centreVolu len es i = 2 * mean (es.map (midWeight len)) i := by
  have hf : centreStep len = fun s e => (fun i => s.1 i + (centreTerm len e).1 i * (centreTerm len e).2,
      s.2 + (centreTerm len e).2) := by funext s e; exact centreStep_eq len s e
  have h2 : ∀ es : List (P3 K × P3 K), ((es.map (centreTerm len)).map (fun x => x.1 i * x.2)).sum =
      2 * ((es.map (midWeight len)).map (fun x => x.1 i * x.2)).sum := by
    intro es
    induction es with
    | nil => simp
    | cons e es ih =>
      simp only [List.map_cons, List.sum_cons, ih, mul_add, centreTerm, midWeight]
      ring
  have h3 : (es.map (centreTerm len)).map (·.2) = (es.map (midWeight len)).map (·.2) := by
    simp [List.map_map, Function.comp_def, centreTerm, midWeight]
  unfold centreVolu mean
  rw [hf, foldl_sums]
  simp only [zero_add]
  rw [h2, h3]
  ring

theorem midWeight_shift (len : P3 K → K) (t : P3 K) (es : List (P3 K × P3 K)) :
    (shiftEdges t es).map (midWeight len) =
      (es.map (midWeight len)).map (fun x => ((fun i => x.1 i + t i : P3 K), x.2)) := by
  unfold shiftEdges
  simp only [List.map_map]
  apply List.map_congr_left
  intro e _
  unfold midWeight
  simp only [Function.comp_def]
  refine Prod.ext ?_ ?_
  · funext i; simp only; ring
  · simp only; congr 1; funext i; ring

theorem midWeight_total_shift (len : P3 K → K) (t : P3 K) (es : List (P3 K × P3 K)) :
    ((shiftEdges t es).map (midWeight len)).map (·.2) = (es.map (midWeight len)).map (·.2) := by
  rw [midWeight_shift]; simp [List.map_map, Function.comp_def]

theorem mid_inBounds (len : P3 K → K) (es : List (P3 K × P3 K)) (e : P3 K × P3 K) (he : e ∈ es) :
    InBounds es (midWeight len e).1 := by
  intro i lo hi h
  have := h e he
  simp only [midWeight]
  constructor <;> linarith [this.1, this.2.1, this.2.2.1, this.2.2.2]

theorem mean_inBounds {len : P3 K → K} (hn : ∀ v, 0 ≤ len v) (es : List (P3 K × P3 K))
    (hs : 0 < ((es.map (midWeight len)).map (·.2)).sum) :
    InBounds es (mean (es.map (midWeight len))) := by
  intro i lo hi h
  apply mean_bounds _ i lo hi _ hs
  · intro x hx
    obtain ⟨e, he, rfl⟩ := List.mem_map.mp hx
    exact mid_inBounds len es e he i lo hi h
  · intro x hx
    obtain ⟨e, he, rfl⟩ := List.mem_map.mp hx
    exact hn _

/-! ### Pseudo centroids -/

theorem edgeGeom_eq {len : P3 K → K} (hl : IsLen len) (e : P3 K × P3 K) :
    edgeGeom len e = midWeight len e := by
  unfold edgeGeom midWeight
  refine Prod.ext ?_ ?_
  · funext i; simp only; ring
  · simp only
    rw [len_swap hl]
    congr 1; funext i; ring

theorem surfFold_eq {len : P3 K → K} (hl : IsLen len) (es : List (P3 K × P3 K)) :
    es.foldl (surfStep len) (fun _ => 0, 0) =
      (fun i => ((es.map (midWeight len)).map (fun x => x.1 i * x.2)).sum,
        ((es.map (midWeight len)).map (·.2)).sum) := by
  have hf : surfStep len = fun (s : P3 K × K) e =>
      (fun i => s.1 i + (midWeight len e).1 i * (midWeight len e).2, s.2 + (midWeight len e).2) := by
    funext s e; unfold surfStep; rw [edgeGeom_eq hl]
  rw [hf, foldl_sums]
  simp

theorem total_nonneg {len : P3 K → K} (hl : IsLen len) (es : List (P3 K × P3 K)) :
    0 ≤ ((es.map (midWeight len)).map (·.2)).sum := by
  apply List.sum_nonneg
  intro x hx
  obtain ⟨y, hy, rfl⟩ := List.mem_map.mp hx
  obtain ⟨e, _, rfl⟩ := List.mem_map.mp hy
  exact (hl _).1

theorem surfCentroid_snd {len : P3 K → K} (hl : IsLen len) (eps : K) (es : List (P3 K × P3 K)) :
    (surfCentroid len eps es).2 = ((es.map (midWeight len)).map (·.2)).sum := by
  unfold surfCentroid
  rw [surfFold_eq hl]
  simp only
  split
  · cases es <;> rfl
  · rfl

theorem surfCentroid_far {len : P3 K → K} (hl : IsLen len) {eps : K} (es : List (P3 K × P3 K))
    (h : eps ≤ ((es.map (midWeight len)).map (·.2)).sum) :
    (surfCentroid len eps es).1 = mean (es.map (midWeight len)) := by
  unfold surfCentroid
  rw [surfFold_eq hl]
  simp only
  rw [if_neg]
  · funext i; simp only [mean]; ring
  · simp only [nearZero, sub_zero, decide_eq_true_eq, not_lt]
    rw [abs_of_nonneg (total_nonneg hl es)]; exact h

theorem surfCentroid_near {len : P3 K → K} (hl : IsLen len) {eps : K} (e : P3 K × P3 K)
    (es : List (P3 K × P3 K)) (h : (((e :: es).map (midWeight len)).map (·.2)).sum < eps) :
    (surfCentroid len eps (e :: es)).1 = (midWeight len e).1 := by
  unfold surfCentroid
  rw [surfFold_eq hl]
  simp only
  rw [if_pos, edgeGeom_eq hl]
  simp only [nearZero, sub_zero, decide_eq_true_eq]
  rw [abs_of_nonneg (total_nonneg hl _)]; exact h

theorem surfCentroid_inBounds {len : P3 K → K} (hl : IsLen len) {eps : K} (he : 0 < eps)
    (es : List (P3 K × P3 K)) (hne : es ≠ []) : InBounds es (surfCentroid len eps es).1 := by
  rcases lt_or_ge (((es.map (midWeight len)).map (·.2)).sum) eps with h | h
  · cases es with
    | nil => exact absurd rfl hne
    | cons e es => rw [surfCentroid_near hl e es h]; exact mid_inBounds len _ e List.mem_cons_self
  · rw [surfCentroid_far hl es h]
    exact mean_inBounds (fun v => (hl v).1) es (lt_of_lt_of_le he h)

theorem surfCentroid_shift {len : P3 K → K} (hl : IsLen len) {eps : K} (he : 0 < eps) (t : P3 K)
    (es : List (P3 K × P3 K)) (hne : es ≠ []) (i : Fin 3) :
    (surfCentroid len eps (shiftEdges t es)).1 i = (surfCentroid len eps es).1 i + t i := by
  rcases lt_or_ge (((es.map (midWeight len)).map (·.2)).sum) eps with h | h
  · cases es with
    | nil => exact absurd rfl hne
    | cons e es =>
      rw [surfCentroid_near hl e es h]
      have hs : (((shiftEdges t (e :: es)).map (midWeight len)).map (·.2)).sum < eps := by
        rw [midWeight_total_shift]; exact h
      have := surfCentroid_near hl (eps := eps) _ _ hs
      refine (congrFun this i).trans ?_
      simp only [midWeight]; ring
  · rw [surfCentroid_far hl es h, surfCentroid_far hl _ (by rw [midWeight_total_shift]; exact h),
      midWeight_shift, mean_shift]
    exact ne_of_gt (lt_of_lt_of_le he h)

variable [FloorRing K]

theorem toInt_nonneg {x : K} (h : 0 ≤ x) : (0 : K) ≤ (toInt x : K) := by
  unfold toInt; rw [if_pos h]; exact_mod_cast Int.floor_nonneg.mpr h

theorem toInt_int (n : Int) : toInt (n : K) = n := by
  unfold toInt; split <;> simp

/-- What is summed by `voluStep`. -/
def voluTerm (len : P3 K → K) (eps : K) (es : List (P3 K × P3 K)) : P3 K × K :=
  ((surfCentroid len eps es).1, (toInt (surfCentroid len eps es).2 : K))

theorem voluFold_eq (len : P3 K → K) (eps : K) (ss : List (List (P3 K × P3 K))) :
    ss.foldl (voluStep len eps) (fun _ => 0, 0) =
      (fun i => ((ss.map (voluTerm len eps)).map (fun x => x.1 i * x.2)).sum,
        ((ss.map (voluTerm len eps)).map (·.2)).sum) := by
  have hf : voluStep len eps = fun (s : P3 K × K) e =>
      (fun i => s.1 i + (voluTerm len eps e).1 i * (voluTerm len eps e).2,
        s.2 + (voluTerm len eps e).2) := rfl
  rw [hf, foldl_sums]
  simp

theorem voluTerm_nonneg {len : P3 K → K} (hl : IsLen len) (eps : K) (es : List (P3 K × P3 K)) :
    0 ≤ (voluTerm len eps es).2 := by
  unfold voluTerm
  rw [surfCentroid_snd hl]
  exact toInt_nonneg (total_nonneg hl es)

theorem voluTotal_nonneg {len : P3 K → K} (hl : IsLen len) (eps : K)
    (ss : List (List (P3 K × P3 K))) : 0 ≤ ((ss.map (voluTerm len eps)).map (·.2)).sum := by
  apply List.sum_nonneg
  intro x hx
  obtain ⟨y, hy, rfl⟩ := List.mem_map.mp hx
  obtain ⟨e, _, rfl⟩ := List.mem_map.mp hy
  exact voluTerm_nonneg hl eps e

theorem voluCentroid_far {len : P3 K → K} (hl : IsLen len) {eps : K}
    (ss : List (List (P3 K × P3 K))) (h : eps ≤ ((ss.map (voluTerm len eps)).map (·.2)).sum) :
    voluCentroid len eps ss = mean (ss.map (voluTerm len eps)) := by
  unfold voluCentroid
  rw [voluFold_eq]
  simp only
  rw [if_neg]
  · funext i; simp only [mean]; ring
  · simp only [nearZero, sub_zero, decide_eq_true_eq, not_lt]
    rw [abs_of_nonneg (voluTotal_nonneg hl eps ss)]; exact h

theorem voluCentroid_near {len : P3 K → K} (hl : IsLen len) {eps : K} (es : List (P3 K × P3 K))
    (ss : List (List (P3 K × P3 K)))
    (h : (((es :: ss).map (voluTerm len eps)).map (·.2)).sum < eps) :
    voluCentroid len eps (es :: ss) = (surfCentroid len eps es).1 := by
  unfold voluCentroid
  rw [voluFold_eq]
  simp only
  rw [if_pos]
  simp only [nearZero, sub_zero, decide_eq_true_eq]
  rw [abs_of_nonneg (voluTotal_nonneg hl eps _)]; exact h

theorem inBounds_mono {es fs : List (P3 K × P3 K)} {p : P3 K} (h : ∀ e ∈ es, e ∈ fs)
    (hp : InBounds es p) : InBounds fs p :=
  fun i lo hi hb => hp i lo hi (fun e he => hb e (h e he))

theorem voluCentroid_inBounds {len : P3 K → K} (hl : IsLen len) {eps : K} (he : 0 < eps)
    (ss : List (List (P3 K × P3 K))) (hne : ss ≠ []) (hne' : ∀ es ∈ ss, es ≠ []) :
    InBounds ss.flatten (voluCentroid len eps ss) := by
  have hin : ∀ es ∈ ss, InBounds ss.flatten (surfCentroid len eps es).1 := fun es hes =>
    inBounds_mono (fun e h => List.mem_flatten.mpr ⟨es, hes, h⟩)
      (surfCentroid_inBounds hl he es (hne' es hes))
  rcases lt_or_ge (((ss.map (voluTerm len eps)).map (·.2)).sum) eps with h | h
  · cases ss with
    | nil => exact absurd rfl hne
    | cons es ss => rw [voluCentroid_near hl es ss h]; exact hin es List.mem_cons_self
  · rw [voluCentroid_far hl ss h]
    intro i lo hi hb
    apply mean_bounds _ i lo hi _ (lt_of_lt_of_le he h)
    · intro x hx
      obtain ⟨es, hes, rfl⟩ := List.mem_map.mp hx
      exact hin es hes i lo hi hb
    · intro x hx
      obtain ⟨es, hes, rfl⟩ := List.mem_map.mp hx
      exact voluTerm_nonneg hl eps es

theorem voluTerm_shift {len : P3 K → K} (hl : IsLen len) {eps : K} (he : 0 < eps) (t : P3 K)
    (ss : List (List (P3 K × P3 K))) (hne' : ∀ es ∈ ss, es ≠ []) :
    (ss.map (shiftEdges t)).map (voluTerm len eps) =
      (ss.map (voluTerm len eps)).map (fun x => ((fun i => x.1 i + t i : P3 K), x.2)) := by
  simp only [List.map_map]
  apply List.map_congr_left
  intro es hes
  refine Prod.ext ?_ ?_
  · funext i; exact surfCentroid_shift hl he t es (hne' es hes) i
  · simp only [Function.comp_def, voluTerm]
    rw [surfCentroid_snd hl, surfCentroid_snd hl, midWeight_total_shift]

theorem voluCentroid_shift {len : P3 K → K} (hl : IsLen len) {eps : K} (he : 0 < eps) (t : P3 K)
    (ss : List (List (P3 K × P3 K))) (hne : ss ≠ []) (hne' : ∀ es ∈ ss, es ≠ []) (i : Fin 3) :
    voluCentroid len eps (ss.map (shiftEdges t)) i = voluCentroid len eps ss i + t i := by
  have hts := voluTerm_shift hl he t ss hne'
  have htot : (((ss.map (shiftEdges t)).map (voluTerm len eps)).map (·.2)).sum =
      ((ss.map (voluTerm len eps)).map (·.2)).sum := by
    rw [hts]; simp [List.map_map, Function.comp_def]
  rcases lt_or_ge (((ss.map (voluTerm len eps)).map (·.2)).sum) eps with h | h
  · cases ss with
    | nil => exact absurd rfl hne
    | cons es ss =>
      rw [voluCentroid_near hl es ss h]
      have := voluCentroid_near hl (eps := eps) (shiftEdges t es) (ss.map (shiftEdges t))
        (by rw [← List.map_cons, htot]; exact h)
      rw [List.map_cons, this]
      exact surfCentroid_shift hl he t es (hne' es List.mem_cons_self) i
  · rw [voluCentroid_far hl ss h, voluCentroid_far hl _ (by rw [htot]; exact h), hts, mean_shift]
    exact ne_of_gt (lt_of_lt_of_le he h)

omit [FloorRing K]

/-! ### Pseudo normals -/

theorem normalFold_eq (len : P3 K → K) (f : Nat → P3 K) (l : List Nat) (s : P3 K × K) :
    l.foldl (fun (s : P3 K × K) jj => (fun i => s.1 i + f jj i, s.2 + len (f jj))) s =
      (fun i => s.1 i + (l.map (fun j => f j i)).sum, s.2 + (l.map (fun j => len (f j))).sum) := by
  induction l generalizing s with
  | nil => simp
  | cons a l ih =>
    rw [List.foldl_cons, ih]
    simp only [List.map_cons, List.sum_cons]
    refine Prod.ext ?_ ?_
    · funext i; simp only; ring
    · simp only; ring

theorem normalSums_eq (len : P3 K → K) (v : Nat → P3 K) (n : Nat) :
    normalSums len v n = (fun i => ((List.range n).map (fun j => normalTerm v n j i)).sum,
      ((List.range n).map (fun j => len (normalTerm v n j))).sum) := by
  unfold normalSums
  rw [normalFold_eq]
  simp

theorem normalTerm_shift (v : Nat → P3 K) (t : P3 K) (n j : Nat) :
    normalTerm (fun k i => v k i + t i) n j = normalTerm v n j := by
  unfold normalTerm
  refine ext3 ?_ ?_ ?_ <;> simp only [cross_zero, cross_one, cross_two] <;> ring

theorem normalTerm_plane (v : Nat → P3 K) (n j : Nat) :
    normalTerm v n j = planeNormal (v j) (v ((j + n - 1) % n)) (v ((j + 1) % n)) := by
  refine ext3 ?_ ?_ ?_ <;>
    simp only [normalTerm, cross_zero, cross_one, cross_two, normal_zero, normal_one, normal_two] <;>
    ring

theorem sum_inner (l : List Nat) (f : Nat → P3 K) (c : K) (d : P3 K) :
    inner (fun i => (l.map (fun j => f j i)).sum * c) d =
      (l.map (fun j => inner (f j) d)).sum * c := by
  induction l with
  | nil => simp [inner_eq]
  | cons a l ih =>
    simp only [inner_eq, List.map_cons, List.sum_cons] at ih ⊢
    linear_combination ih

theorem pseudoNormal_planar (len : P3 K → K) (vs : List (P3 K)) (n : P3 K) (hn : n ≠ 0) (d : K)
    (hd : ∀ v ∈ vs, inner n v = d) (p q : P3 K) (hp : p ∈ vs) (hq : q ∈ vs) :
    inner (pseudoNormal len vs) (fun i => p i - q i) = 0 := by
  unfold pseudoNormal
  simp only [normalSums_eq]
  rw [sum_inner]
  rw [List.sum_eq_zero, zero_mul]
  intro x hx
  obtain ⟨j, hj, rfl⟩ := List.mem_map.mp hx
  have hj := List.mem_range.mp hj
  have hpos : 0 < vs.length := by omega
  have hm : ∀ k, k < vs.length → vs.getD k (fun _ => 0) ∈ vs := by
    intro k hk
    rw [List.getD_eq_getElem _ _ hk]
    exact List.getElem_mem hk
  rw [normalTerm_plane]
  have m1 := hm j hj
  have m2 := hm _ (Nat.mod_lt (j + vs.length - 1) hpos)
  have m3 := hm _ (Nat.mod_lt (j + 1) hpos)
  have key : ∀ s ∈ vs, inner (planeNormal (vs.getD j (fun _ => 0))
      (vs.getD ((j + vs.length - 1) % vs.length) (fun _ => 0))
      (vs.getD ((j + 1) % vs.length) (fun _ => 0))) (fun i => s i - vs.getD j (fun _ => 0) i) = 0 :=
    fun s hs => (coplanar_iff _ _ _ _).mpr ⟨n, hn, d, hd _ m1, hd _ m2, hd _ m3, hd _ hs⟩
  have kp := key p hp
  have kq := key q hq
  rw [inner_sub] at kp kq ⊢
  linarith

theorem pseudoNormal_shift (len : P3 K → K) (vs : List (P3 K)) (t : P3 K) :
    pseudoNormal len (vs.map (fun v i => v i + t i)) = pseudoNormal len vs := by
  have h : ∀ j ∈ List.range vs.length,
      normalTerm (fun k => (vs.map (fun v i => v i + t i)).getD k (fun _ => 0)) vs.length j =
        normalTerm (fun k => vs.getD k (fun _ => 0)) vs.length j := by
    intro j hj
    have hj := List.mem_range.mp hj
    have hpos : 0 < vs.length := by omega
    have hg : ∀ k, k < vs.length → (vs.map (fun v i => v i + t i)).getD k (fun _ => 0) =
        fun i => vs.getD k (fun _ => 0) i + t i := by
      intro k hk
      rw [List.getD_eq_getElem _ _ (by simpa using hk), List.getD_eq_getElem _ _ hk]
      simp
    refine Eq.trans ?_ (normalTerm_shift _ t _ _)
    unfold normalTerm
    simp only [hg j hj, hg _ (Nat.mod_lt (j + 1) hpos), hg _ (Nat.mod_lt (j + vs.length - 1) hpos)]
  unfold pseudoNormal
  simp only [normalSums_eq, List.length_map]
  have h1 : ∀ i, (List.range vs.length).map (fun j =>
      normalTerm (fun k => (vs.map (fun v i => v i + t i)).getD k (fun _ => 0)) vs.length j i) =
      (List.range vs.length).map (fun j => normalTerm (fun k => vs.getD k (fun _ => 0)) vs.length j i) :=
    fun i => List.map_congr_left (fun j hj => by rw [h j hj])
  have h2 : (List.range vs.length).map (fun j =>
      len (normalTerm (fun k => (vs.map (fun v i => v i + t i)).getD k (fun _ => 0)) vs.length j)) =
      (List.range vs.length).map (fun j =>
        len (normalTerm (fun k => vs.getD k (fun _ => 0)) vs.length j)) :=
    List.map_congr_left (fun j hj => by rw [h j hj])
  funext i
  rw [h1, h2]

theorem sum_range_flip (n : Nat) (f : Nat → K) :
    ((List.range n).map (fun j => f (n - 1 - j))).sum = ((List.range n).map f).sum := by
  have : (List.range n).map (fun j => f (n - 1 - j)) = ((List.range n).map f).reverse := by
    apply List.ext_getElem
    · simp
    · intro k h1 h2
      simp
  rw [this, List.sum_reverse]

theorem pseudoNormal_reverse {len : P3 K → K} (hl : IsLen len) (vs : List (P3 K)) (i : Fin 3) :
    pseudoNormal len vs.reverse i = - pseudoNormal len vs i := by
  have h : ∀ j ∈ List.range vs.length,
      normalTerm (fun k => vs.reverse.getD k (fun _ => 0)) vs.length j =
        fun i => - normalTerm (fun k => vs.getD k (fun _ => 0)) vs.length (vs.length - 1 - j) i := by
    intro j hj
    have hj := List.mem_range.mp hj
    have hpos : 0 < vs.length := by omega
    have hg : ∀ k, k < vs.length → vs.reverse.getD k (fun _ => 0) =
        vs.getD (vs.length - 1 - k) (fun _ => 0) := by
      intro k hk
      rw [List.getD_eq_getElem _ _ (by simpa using hk), List.getD_eq_getElem _ _ (by omega)]
      simp
    have e1 : vs.length - 1 - (j + 1) % vs.length =
        (vs.length - 1 - j + vs.length - 1) % vs.length := by
      rcases Nat.lt_or_ge (j + 1) vs.length with h | h
      · rw [Nat.mod_eq_of_lt h, show vs.length - 1 - j + vs.length - 1 =
          (vs.length - 2 - j) + vs.length by omega, Nat.add_mod_right, Nat.mod_eq_of_lt (by omega)]
        omega
      · have : j + 1 = vs.length := by omega
        rw [this, Nat.mod_self, show vs.length - 1 - j + vs.length - 1 = vs.length - 1 by omega,
          Nat.mod_eq_of_lt (by omega)]
        omega
    have e2 : vs.length - 1 - (j + vs.length - 1) % vs.length =
        (vs.length - 1 - j + 1) % vs.length := by
      rcases Nat.eq_zero_or_pos j with h | h
      · subst h
        rw [show 0 + vs.length - 1 = vs.length - 1 by omega, Nat.mod_eq_of_lt (by omega),
          show vs.length - 1 - 0 + 1 = vs.length by omega, Nat.mod_self]
        omega
      · rw [show j + vs.length - 1 = (j - 1) + vs.length by omega, Nat.add_mod_right,
          Nat.mod_eq_of_lt (by omega : j - 1 < vs.length),
          Nat.mod_eq_of_lt (by omega : vs.length - 1 - j + 1 < vs.length)]
        omega
    unfold normalTerm
    simp only [hg j hj, hg _ (Nat.mod_lt (j + 1) hpos), hg _ (Nat.mod_lt (j + vs.length - 1) hpos),
      e1, e2]
    refine ext3 ?_ ?_ ?_ <;> simp only [cross_zero, cross_one, cross_two] <;> ring
  unfold pseudoNormal
  simp only [normalSums_eq, List.length_reverse]
  have h1 : (List.range vs.length).map (fun j =>
      normalTerm (fun k => vs.reverse.getD k (fun _ => 0)) vs.length j i) =
      (List.range vs.length).map (fun j => (fun a =>
        - normalTerm (fun k => vs.getD k (fun _ => 0)) vs.length a i) (vs.length - 1 - j)) :=
    List.map_congr_left (fun j hj => by rw [h j hj])
  have h2 : (List.range vs.length).map (fun j =>
      len (normalTerm (fun k => vs.reverse.getD k (fun _ => 0)) vs.length j)) =
      (List.range vs.length).map (fun j => (fun a =>
        len (normalTerm (fun k => vs.getD k (fun _ => 0)) vs.length a)) (vs.length - 1 - j)) :=
    List.map_congr_left (fun j hj => by rw [h j hj]; exact len_neg hl _)
  rw [h1, h2,
    sum_range_flip vs.length (fun a =>
      - normalTerm (fun k => vs.getD k (fun _ => 0)) vs.length a i),
    sum_range_flip vs.length (fun a =>
      len (normalTerm (fun k => vs.getD k (fun _ => 0)) vs.length a))]
  have h3 : ∀ l : List Nat, (l.map (fun a =>
      - normalTerm (fun k => vs.getD k (fun _ => 0)) vs.length a i)).sum =
      - (l.map (fun a => normalTerm (fun k => vs.getD k (fun _ => 0)) vs.length a i)).sum := by
    intro l
    induction l with
    | nil => simp
    | cons a l ih => simp only [List.map_cons, List.sum_cons, ih]; ring
  rw [h3]; ring

theorem pseudoNormal_triangle {len : P3 K → K} (hl : IsLen len) (p q r : P3 K) (i : Fin 3) :
    pseudoNormal len [p, q, r] i =
      - planeNormal p q r i / len (planeNormal p q r) := by
  have h : ∀ j ∈ List.range 3,
      normalTerm (fun k => [p, q, r].getD k (fun _ => 0)) 3 j = fun i => - planeNormal p q r i := by
    intro j hj
    have hj := List.mem_range.mp hj
    have : j = 0 ∨ j = 1 ∨ j = 2 := by omega
    rcases this with rfl | rfl | rfl <;>
      refine ext3 ?_ ?_ ?_ <;>
      simp [normalTerm, cross_zero, cross_one, cross_two, normal_zero, normal_one, normal_two] <;>
      ring
  unfold pseudoNormal
  simp only [normalSums_eq, List.length_cons, List.length_nil, zero_add, Nat.reduceAdd]
  have h1 : (List.range 3).map (fun j =>
      normalTerm (fun k => [p, q, r].getD k (fun _ => 0)) 3 j i) =
      (List.range 3).map (fun _ => - planeNormal p q r i) :=
    List.map_congr_left (fun j hj => by rw [h j hj])
  have h2 : (List.range 3).map (fun j =>
      len (normalTerm (fun k => [p, q, r].getD k (fun _ => 0)) 3 j)) =
      (List.range 3).map (fun _ => len (planeNormal p q r)) :=
    List.map_congr_left (fun j hj => by rw [h j hj]; exact len_neg hl _)
  rw [h1, h2]
  simp only [List.map_const', List.length_range, List.sum_replicate, nsmul_eq_mul]
  rcases eq_or_ne (len (planeNormal p q r)) 0 with h0 | h0
  · rw [h0]; simp
  · field_simp

end RSVS.Geo
