import Mathlib.Tactic.Linarith
import Mathlib.Tactic.Ring
import Mathlib.Tactic.FinCases
import Mathlib.Tactic.FieldSimp
import Mathlib.Tactic.NormNum
import Mathlib.Data.Fin.VecNotation
import Mathlib.Algebra.Order.Ring.Rat
import Mathlib.Data.Rat.Cast.Order
import Verif.Model.Ray
import Verif.Spec.Ray

/-!
# C104: rays are ended on the box
-/

namespace RSVS.Props

open RSVS.Ray RSVS.Spec RSVS.Geo

variable {K : Type} [Field K] [LinearOrder K] [IsStrictOrderedRing K]

/-- The parameter of one pair of sides. -/
def sideAt (lo hi dir orig : P3 K) (i : Fin 3) : K := min ((lo i - orig i) / dir i) ((hi i - orig i) / dir i)

theorem slab_zero {lo hi dir orig : P3 K} {i : Fin 3} (h : lo i ≤ orig i ∧ orig i ≤ hi i) (hd : dir i = 0) (l : Val K) : slab lo hi dir orig i l = l := by
  have h1 : quot (lo i - orig i) (dir i) = .nan ∨ quot (lo i - orig i) (dir i) = .ninf := by
    unfold quot
    rw [if_pos hd]
    by_cases e : lo i - orig i = 0
    · exact Or.inl (if_pos e)
    · right
      rw [if_neg e, if_pos]
      exact lt_of_le_of_ne (by linarith [h.1]) e
  have h2 : quot (hi i - orig i) (dir i) = .nan ∨ quot (hi i - orig i) (dir i) = .pinf := by
    unfold quot
    rw [if_pos hd]
    by_cases e : hi i - orig i = 0
    · exact Or.inl (if_pos e)
    · right
      rw [if_neg e, if_neg]
      linarith [h.2]
  unfold slab
  rcases h1 with h1 | h1 <;> rcases h2 with h2 | h2 <;> rw [h1, h2] <;> cases l <;> rfl

omit [IsStrictOrderedRing K] in
theorem slab_fin {lo hi dir orig : P3 K} {i : Fin 3} (hd : dir i ≠ 0) (l : K) :
    slab lo hi dir orig i (.fin l) = .fin (max l (sideAt lo hi dir orig i)) ∧ slab lo hi dir orig i .ninf = .fin (sideAt lo hi dir orig i) := by
  have hm : vmin (quot (lo i - orig i) (dir i)) (quot (hi i - orig i) (dir i)) = .fin (sideAt lo hi dir orig i) := by
    unfold quot vmin sideAt
    rw [if_neg hd, if_neg hd]
    simp only [Val.lt, decide_eq_true_eq]
    split_ifs with h
    · rw [min_eq_right h.le]
    · rw [min_eq_left (not_lt.mp h)]
  unfold slab
  rw [hm]
  constructor
  · unfold vmax
    simp only [Val.lt, decide_eq_true_eq]
    split_ifs with h
    · rw [max_eq_right h.le]
    · rw [max_eq_left (not_lt.mp h)]
  · rfl

/-- What is known after some of the pairs of sides. -/
def After (lo hi dir orig : P3 K) (I : Fin 3 → Prop) (v : Val K) : Prop :=
  (v = .ninf ∧ ∀ i, I i → dir i = 0) ∨
    ∃ l, v = .fin l ∧ (∀ i, I i → dir i ≠ 0 → sideAt lo hi dir orig i ≤ l) ∧ ∃ i, I i ∧ dir i ≠ 0 ∧ l = sideAt lo hi dir orig i

theorem after_slab {lo hi dir orig : P3 K} (h : InBox lo hi orig) {I : Fin 3 → Prop} {v : Val K} (hv : After lo hi dir orig I v) (i : Fin 3) :
    After lo hi dir orig (fun j => I j ∨ j = i) (slab lo hi dir orig i v) := by
  by_cases hd : dir i = 0
  · rw [slab_zero (h i) hd]
    rcases hv with ⟨rfl, hz⟩ | ⟨l, rfl, hl, j, hj, hjd, hjl⟩
    · refine Or.inl ⟨rfl, ?_⟩
      rintro k (hk | rfl)
      · exact hz k hk
      · exact hd
    · refine Or.inr ⟨l, rfl, ?_, j, Or.inl hj, hjd, hjl⟩
      rintro k (hk | rfl) hk'
      · exact hl k hk hk'
      · exact absurd hd hk'
  · rcases hv with ⟨rfl, hz⟩ | ⟨l, rfl, hl, j, hj, hjd, hjl⟩
    · rw [(slab_fin hd 0).2]
      refine Or.inr ⟨_, rfl, ?_, i, Or.inr rfl, hd, rfl⟩
      rintro k (hk | rfl) hk'
      · exact absurd (hz k hk) hk'
      · exact le_refl _
    · rw [(slab_fin hd l).1]
      refine Or.inr ⟨_, rfl, ?_, ?_⟩
      · rintro k (hk | rfl) hk'
        · exact le_trans (hl k hk hk') (le_max_left _ _)
        · exact le_max_right _ _
      · rcases le_total l (sideAt lo hi dir orig i) with q | q
        · exact ⟨i, Or.inr rfl, hd, max_eq_right q⟩
        · exact ⟨j, Or.inl hj, hjd, by rw [max_eq_left q]; exact hjl⟩

theorem side_cases {lo hi dir orig : P3 K} (h : InBox lo hi orig) (i : Fin 3) (hd : dir i ≠ 0) :
    (0 < dir i ∧ sideAt lo hi dir orig i * dir i = lo i - orig i) ∨ (dir i < 0 ∧ sideAt lo hi dir orig i * dir i = hi i - orig i) := by
  obtain ⟨h1, h2⟩ := h i
  rcases lt_or_gt_of_ne hd with q | q
  · right
    refine ⟨q, ?_⟩
    unfold sideAt
    rw [min_eq_right, div_mul_cancel₀ _ hd]
    exact (div_le_div_right_of_neg q).mpr (by linarith)
  · left
    refine ⟨q, ?_⟩
    unfold sideAt
    rw [min_eq_left, div_mul_cancel₀ _ hd]
    exact (div_le_div_iff_of_pos_right q).mpr (by linarith)

theorem side_nonpos {lo hi dir orig : P3 K} (h : InBox lo hi orig) (i : Fin 3) (hd : dir i ≠ 0) : sideAt lo hi dir orig i ≤ 0 := by
  obtain ⟨h1, h2⟩ := h i
  by_contra hc
  push Not at hc
  rcases side_cases h i hd with ⟨q, e⟩ | ⟨q, e⟩
  · have := mul_pos hc q; linarith
  · have := mul_neg_of_pos_of_neg hc q; linarith

/-- C104: for a ray that starts in the box, its direction pointing back into the box, the ray is ended where the line leaves the box. -/
theorem project_ray {lo hi dir orig : P3 K} (h : InBox lo hi orig) (hd : ∃ i, dir i ≠ 0) :
    ∃ l, projectRay lo hi dir orig 0 = .fin l ∧ LeavesAt lo hi orig (fun i => -dir i) (fun i => l * dir i + orig i) (-l) := by
  have h0 : After lo hi dir orig (fun _ => False) .ninf := Or.inl ⟨rfl, fun _ f => f.elim⟩
  have h3 := after_slab h (after_slab h (after_slab h h0 0) 1) 2
  have hall : ∀ i : Fin 3, ((False ∨ i = 0) ∨ i = 1) ∨ i = 2 := by decide
  rcases h3 with ⟨-, hz⟩ | ⟨l, hl, hmax, j, -, hjd, hjl⟩
  · obtain ⟨i, hi⟩ := hd
    exact absurd (hz i (hall i)) hi
  · have hl0 : l ≤ 0 := by rw [hjl]; exact side_nonpos h j hjd
    refine ⟨l, ?_, by linarith, fun i => by ring, ⟨?_, j, ?_⟩, ?_⟩
    · unfold projectRay
      rw [hl]
      unfold vmin
      simp only [Val.lt, decide_eq_true_eq]
      rw [if_neg (not_lt.mpr hl0)]
    · intro i
      obtain ⟨h1, h2⟩ := h i
      by_cases hdi : dir i = 0
      · simp only [hdi]; exact ⟨by linarith, by linarith⟩
      · have hm := hmax i (hall i) hdi
        rcases side_cases h i hdi with ⟨q, e⟩ | ⟨q, e⟩
        · have := mul_le_mul_of_nonneg_right hm q.le
          have := mul_nonpos_of_nonpos_of_nonneg hl0 q.le
          constructor <;> linarith
        · have := mul_le_mul_of_nonpos_right hm q.le
          have := mul_nonneg_of_nonpos_of_nonpos hl0 q.le
          constructor <;> linarith
    · rcases side_cases h j hjd with ⟨q, e⟩ | ⟨q, e⟩
      · left; rw [hjl]; linarith
      · right; rw [hjl]; linarith
    · intro u hu hin
      obtain ⟨h1, h2⟩ := hin j
      simp only at h1 h2
      rcases side_cases h j hjd with ⟨q, e⟩ | ⟨q, e⟩
      · have := mul_lt_mul_of_pos_right hu q
        rw [hjl] at this; linarith
      · have := mul_lt_mul_of_neg_right hu q
        rw [hjl] at this; linarith

/-- C104, full statement for the rays of a Voronoi diagram: each ray is ended where it leaves the box. -/
def C104_rays_statement (K : Type) [Field K] [LinearOrder K] : Prop :=
  ∀ lo hi dir orig : P3 K, (∀ i, lo i < hi i) → (∃ i, dir i ≠ 0) → ∃ p t, rayEnd lo hi dir orig = some p ∧ LeavesAt lo hi orig (fun i => -dir i) p t

/-- C104 for rays that start in the box.  Missing: rays that start outside of it. -/
theorem C104_rays_partial {lo hi dir orig : P3 K} (h : InBox lo hi orig) (hd : ∃ i, dir i ≠ 0) :
    ∃ p t, rayEnd lo hi dir orig = some p ∧ LeavesAt lo hi orig (fun i => -dir i) p t := by
  obtain ⟨l, hl, hp⟩ := project_ray h hd
  exact ⟨_, _, by unfold rayEnd; rw [hl], hp⟩

/-- C104: between a vertex in the box and one outside, the new vertex is on their edge where it leaves the box, and the test on the
parameter passes. -/
theorem C104_border {lo hi cin cout : P3 K} (hin : InBox lo hi cin) (hout : ¬ InBox lo hi cout) :
    ∃ p t, placeBorder cin cout lo hi = .ok (some p) ∧ t < 1 ∧ LeavesAt lo hi cin (fun i => cout i - cin i) p t := by
  have hd : ∃ i, (fun i => cin i - cout i) i ≠ 0 := by
    by_contra hc
    push Not at hc
    apply hout
    have : cout = cin := funext fun i => by have := hc i; linarith
    rw [this]; exact hin
  obtain ⟨l, hl, hp⟩ := project_ray hin hd
  have hneg : (fun i => -(cin i - cout i)) = fun i => cout i - cin i := funext fun i => by ring
  rw [hneg] at hp
  have h1 : -l < 1 := by
    by_contra hc
    push Not at hc
    apply hout
    intro i
    obtain ⟨a1, a2⟩ := hin i
    obtain ⟨b1, b2⟩ := hp.2.2.1.1 i
    have e := hp.2.1 i
    simp only at e b1 b2
    rw [e] at b1 b2
    constructor
    · by_contra hlt
      push Not at hlt
      have : cout i - cin i < 0 := by linarith
      have := mul_le_mul_of_nonpos_right hc this.le
      linarith
    · by_contra hlt
      push Not at hlt
      have : 0 < cout i - cin i := by linarith
      have := mul_le_mul_of_nonneg_right hc this.le
      linarith
  have h0 := hp.1
  have h1001 : (1 : K) < 1001 / 1000 := by norm_num
  refine ⟨fun i => (cin i - cout i) * l + cin i, -l, ?_, h1, ?_⟩
  · unfold placeBorder
    simp only
    rw [hl]
    simp only
    rw [if_neg (by push Not; exact ⟨by linarith, by linarith⟩)]
  · have : (fun i => l * (fun i => cin i - cout i) i + cin i) = fun i => (cin i - cout i) * l + cin i := funext fun i => by ring
    rw [← this]
    exact hp

/-- C104: a vertex that is placed is on the edge, up to a thousandth of its length, wherever the two vertices are. -/
theorem C104_on_edge {lo hi cin cout p : P3 K} (h : placeBorder cin cout lo hi = .ok (some p)) :
    ∃ t, 0 ≤ t ∧ t ≤ 1001 / 1000 ∧ ∀ i, p i = cin i + t * (cout i - cin i) := by
  unfold placeBorder at h
  simp only at h
  split at h
  · rename_i l _
    split_ifs at h with hc
    push Not at hc
    obtain rfl := Option.some.inj (Except.ok.inj h)
    exact ⟨-l, by linarith [hc.1], by linarith [hc.2], fun i => by ring⟩
  · exact absurd (Except.ok.inj h) (by simp)
  · simp at h

omit [Field K] [IsStrictOrderedRing K] in
theorem low_fold (j : Fin 3) : ∀ (l : List (P3 K)) (a : WithTop K),
    l.foldl (fun a p => lowStep a (p j)) a ≤ a ∧ (∀ p ∈ l, l.foldl (fun a p => lowStep a (p j)) a ≤ (p j : WithTop K)) ∧
      (l.foldl (fun a p => lowStep a (p j)) a = a ∨ ∃ p ∈ l, l.foldl (fun a p => lowStep a (p j)) a = (p j : WithTop K))
  | [], a => ⟨le_refl _, by simp, Or.inl rfl⟩
  | p :: l, a => by
    obtain ⟨h1, h2, h3⟩ := low_fold j l (lowStep a (p j))
    have ha : lowStep a (p j) ≤ a ∧ lowStep a (p j) ≤ (p j : WithTop K) ∧ (lowStep a (p j) = a ∨ lowStep a (p j) = (p j : WithTop K)) := by
      unfold lowStep
      split_ifs with h
      · exact ⟨le_refl _, h, Or.inl rfl⟩
      · exact ⟨(not_le.mp h).le, le_refl _, Or.inr rfl⟩
    rw [List.foldl_cons]
    refine ⟨h1.trans ha.1, ?_, ?_⟩
    · intro q hq
      rcases List.mem_cons.mp hq with rfl | hq
      · exact h1.trans ha.2.1
      · exact h2 q hq
    · rcases h3 with h3 | ⟨q, hq, h3⟩
      · rcases ha.2.2 with e | e
        · exact Or.inl (h3.trans e)
        · exact Or.inr ⟨p, by simp, h3.trans e⟩
      · exact Or.inr ⟨q, by simp [hq], h3⟩

omit [Field K] [IsStrictOrderedRing K] in
theorem high_fold (j : Fin 3) : ∀ (l : List (P3 K)) (a : WithBot K),
    a ≤ l.foldl (fun a p => highStep a (p j)) a ∧ (∀ p ∈ l, (p j : WithBot K) ≤ l.foldl (fun a p => highStep a (p j)) a) ∧
      (l.foldl (fun a p => highStep a (p j)) a = a ∨ ∃ p ∈ l, l.foldl (fun a p => highStep a (p j)) a = (p j : WithBot K))
  | [], a => ⟨le_refl _, by simp, Or.inl rfl⟩
  | p :: l, a => by
    obtain ⟨h1, h2, h3⟩ := high_fold j l (highStep a (p j))
    have ha : a ≤ highStep a (p j) ∧ (p j : WithBot K) ≤ highStep a (p j) ∧ (highStep a (p j) = a ∨ highStep a (p j) = (p j : WithBot K)) := by
      unfold highStep
      split_ifs with h
      · exact ⟨le_refl _, h, Or.inl rfl⟩
      · exact ⟨(not_le.mp h).le, le_refl _, Or.inr rfl⟩
    rw [List.foldl_cons]
    refine ⟨ha.1.trans h1, ?_, ?_⟩
    · intro q hq
      rcases List.mem_cons.mp hq with rfl | hq
      · exact ha.2.1.trans h1
      · exact h2 q hq
    · rcases h3 with h3 | ⟨q, hq, h3⟩
      · rcases ha.2.2 with e | e
        · exact Or.inl (h3.trans e)
        · exact Or.inr ⟨p, by simp, h3.trans e⟩
      · exact Or.inr ⟨q, by simp [hq], h3⟩

omit [Field K] [IsStrictOrderedRing K] in
/-- C104: for at least one point the box is finite, holds all points, and each of its sides has a point. -/
theorem C104_box [Field K] (points : List (P3 K)) (h : points ≠ []) : ∃ lo hi : P3 K, (∀ j, (boundBox points).1 j = (lo j : WithTop K) ∧ (boundBox points).2 j = (hi j : WithBot K)) ∧
    (∀ p ∈ points, InBox lo hi p) ∧ ∀ j, (∃ p ∈ points, p j = lo j) ∧ ∃ p ∈ points, p j = hi j := by
  obtain ⟨p0, r, rfl⟩ := List.exists_cons_of_ne_nil h
  have key : ∀ j, ∃ a b : K, (boundBox (p0 :: r)).1 j = (a : WithTop K) ∧ (boundBox (p0 :: r)).2 j = (b : WithBot K) ∧
      (∃ p ∈ p0 :: r, p j = a) ∧ ∃ p ∈ p0 :: r, p j = b := by
    intro j
    obtain ⟨-, hl2, hl3⟩ := low_fold j (p0 :: r) ⊤
    obtain ⟨-, hh2, hh3⟩ := high_fold j (p0 :: r) ⊥
    have hl : ∃ p ∈ p0 :: r, (boundBox (p0 :: r)).1 j = (p j : WithTop K) := by
      rcases hl3 with e | e
      · have := hl2 p0 (by simp)
        rw [e] at this
        exact absurd (top_le_iff.mp this) (WithTop.coe_ne_top)
      · exact e
    have hh : ∃ p ∈ p0 :: r, (boundBox (p0 :: r)).2 j = (p j : WithBot K) := by
      rcases hh3 with e | e
      · have := hh2 p0 (by simp)
        rw [e] at this
        exact absurd (le_bot_iff.mp this) (WithBot.coe_ne_bot)
      · exact e
    obtain ⟨p, hp, ep⟩ := hl
    obtain ⟨q, hq, eq⟩ := hh
    exact ⟨p j, q j, ep, eq, ⟨p, hp, rfl⟩, ⟨q, hq, rfl⟩⟩
  choose lo hi h1 h2 h3 h4 using key
  refine ⟨lo, hi, fun j => ⟨h1 j, h2 j⟩, ?_, fun j => ⟨h3 j, h4 j⟩⟩
  intro p hp j
  have a := (low_fold j (p0 :: r) ⊤).2.1 p hp
  have b := (high_fold j (p0 :: r) ⊥).2.1 p hp
  have a' : (boundBox (p0 :: r)).1 j ≤ (p j : WithTop K) := a
  have b' : (p j : WithBot K) ≤ (boundBox (p0 :: r)).2 j := b
  rw [h1] at a'
  rw [h2] at b'
  exact ⟨WithTop.coe_le_coe.mp a', WithBot.coe_le_coe.mp b'⟩

/-- C104, negation: a ray that starts outside of the box and goes away from it is ended where it starts, outside of the box. -/
theorem C104_violated : ¬ C104_rays_statement ℚ := by
  intro h
  obtain ⟨p, t, hp, -, -, ⟨hb, -⟩, -⟩ := h ![0, 0, 0] ![1, 1, 1] ![-1, 0, 0] ![2, 1 / 2, 1 / 2] (by decide +kernel) ⟨0, by decide +kernel⟩
  have he : ∃ q, rayEnd (![0, 0, 0] : P3 ℚ) ![1, 1, 1] ![-1, 0, 0] ![2, 1 / 2, 1 / 2] = some q ∧ q 0 = 2 := by
    have : projectRay (![0, 0, 0] : P3 ℚ) ![1, 1, 1] ![-1, 0, 0] ![2, 1 / 2, 1 / 2] 0 = .fin 0 := by decide +kernel
    unfold rayEnd
    rw [this]
    exact ⟨_, rfl, by simp⟩
  obtain ⟨q, hq, hq0⟩ := he
  rw [hq] at hp
  obtain rfl := Option.some.inj hp
  have := (hb 0).2
  rw [hq0] at this
  simp at this

/-- The hypotheses of `C104_rays_partial` and of `C104_border` hold for points of the unit box. -/
example : InBox (![0, 0, 0] : P3 ℚ) ![1, 1, 1] ![1 / 2, 1 / 3, 1 / 4] ∧ ¬ InBox (![0, 0, 0] : P3 ℚ) ![1, 1, 1] ![2, 3, 1 / 4] ∧
    projectRay (![0, 0, 0] : P3 ℚ) ![1, 1, 1] ![1, -1, 0] ![1 / 2, 1 / 3, 1 / 4] 0 = .fin (-(1 / 2)) := by
  refine ⟨?_, ?_, by decide +kernel⟩
  · unfold InBox; decide +kernel
  · unfold InBox; decide +kernel

end RSVS.Props
