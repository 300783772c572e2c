import Verif.Lemmas.Orient
import Verif.Lemmas.VertNormal
import Verif.Props.Order

/-!
# Lemmas for the normal at a vertex: rotation and sign
-/

namespace RSVS.VertNormal

open RSVS RSVS.Mesh RSVS.Geo RSVS.Spec RSVS.Props

variable {K : Type} [Field K] [LinearOrder K] [IsStrictOrderedRing K]

/-! ### Rotation of the points -/

theorem fanPairs_rotate (pts : List (P3 K)) (n : Nat) : fanPairs (pts.rotate n) = (fanPairs pts).rotate n := by
  unfold fanPairs
  rw [List.rotate_rotate, Nat.add_comm n 1, ← List.rotate_rotate]
  exact (List.zipWith_rotate_distrib _ _ _ n (by simp)).symm

theorem filter_rotate {α : Type} (p : α → Bool) (l : List α) (n : Nat) : ∃ k, (l.rotate n).filter p = (l.filter p).rotate k := by
  rw [List.rotate_eq_drop_append_take_mod, List.filter_append]
  refine ⟨((l.take (n % l.length)).filter p).length, ?_⟩
  conv_rhs => rw [← List.take_append_drop (n % l.length) l, List.filter_append]
  rw [List.take_append_drop, List.rotate_append_length_eq]

theorem turning_rotate {len : P3 K → K} {ang : P3 K → P3 K → K} {c : P3 K} (fs : List (P3 K × P3 K)) (k : Nat) :
    turning len ang c (fs.rotate k) = turning len ang c fs := by
  unfold turning
  rw [List.rotate_rotate, Nat.add_comm k 1, ← List.rotate_rotate]
  have : (List.zip ((fs.rotate 1).rotate k) (fs.rotate k)) = (List.zip (fs.rotate 1) fs).rotate k :=
    (List.zipWith_rotate_distrib _ _ _ k (by simp)).symm
  rw [this]
  exact ((List.rotate_perm _ k).map _).sum_eq

theorem angleMean_perm {len : P3 K → K} {ang : P3 K → P3 K → K} {c : P3 K} {fs gs : List (P3 K × P3 K)} (h : fs.Perm gs) :
    angleMean len ang c fs = angleMean len ang c gs := by
  funext i
  unfold angleMean
  rw [(h.map _).sum_eq, (h.map (cornerAngle ang c)).sum_eq]

/-! ### The sign of the mean -/

theorem inner_sum (d : P3 K) (g : P3 K × P3 K → P3 K) : ∀ l : List (P3 K × P3 K),
    Spec.inner d (fun i => (l.map fun q => g q i).sum) = (l.map fun q => Spec.inner d (g q)).sum
  | [] => by simp [Spec.inner]
  | q :: l => by
    have := inner_sum d g l
    simp only [Spec.inner, List.map_cons, List.sum_cons, mul_add, Finset.sum_add_distrib] at this ⊢
    rw [this]

theorem inner_smul (d x : P3 K) (a : K) : Spec.inner d (fun i => a * x i) = a * Spec.inner d x := by
  unfold Spec.inner
  rw [Finset.mul_sum]
  exact Finset.sum_congr rfl fun i _ => by ring

theorem sum_pos_of {α : Type} (f : α → K) : ∀ l : List α, l ≠ [] → (∀ x ∈ l, 0 < f x) → 0 < (l.map f).sum
  | [], h, _ => absurd rfl h
  | [a], _, h => by simpa using h a
  | a :: b :: l, _, h => by
    rw [List.map_cons, List.sum_cons]
    exact add_pos (h a (by simp)) (sum_pos_of f (b :: l) (by simp) fun x hx => h x (by simp [hx]))

/-- The mean is on the side of `d` on which all the normals are. -/
theorem mean_side {len : P3 K → K} {ang : P3 K → P3 K → K} {c d : P3 K} {σ : K} {fs : List (P3 K × P3 K)} (h0 : fs ≠ [])
    (hlen : ∀ q ∈ fs, 0 < len (cornerNormal c q.1 q.2)) (hang : ∀ q ∈ fs, 0 < cornerAngle ang c q)
    (hd : ∀ q ∈ fs, 0 < σ * Spec.inner d (cornerNormal c q.1 q.2)) : 0 < σ * Spec.inner d (angleMean len ang c fs) := by
  have e : angleMean len ang c fs = fun i => (1 / (fs.map (cornerAngle ang c)).sum) *
      (fs.map fun q => (fun q i => (cornerAngle ang c q / len (cornerNormal c q.1 q.2)) * cornerNormal c q.1 q.2 i) q i).sum := by
    funext i
    unfold angleMean
    rw [one_div, inv_mul_eq_div]
    congr 2
    refine List.map_congr_left fun q _ => ?_
    unfold cornerUnit
    ring
  rw [e, inner_smul d (fun i => (fs.map fun q =>
    (fun q i => (cornerAngle ang c q / len (cornerNormal c q.1 q.2)) * cornerNormal c q.1 q.2 i) q i).sum), inner_sum]
  have h1 : 0 < (fs.map (cornerAngle ang c)).sum := sum_pos_of _ _ h0 hang
  rw [mul_left_comm]
  refine mul_pos (by positivity) ?_
  rw [← List.sum_map_mul_left]
  refine sum_pos_of _ _ h0 fun q hq => ?_
  rw [inner_smul d (cornerNormal c q.1 q.2), mul_left_comm]
  exact mul_pos (div_pos (hang q hq) (hlen q hq)) (hd q hq)

theorem len_zero {len : P3 K → K} (hl : IsLen len) {x : P3 K} (h : len x = 0) : x = 0 := by
  have := (hl x).2
  rw [h, mul_zero] at this
  unfold Spec.inner at this
  funext i
  have h0 : ∀ j ∈ Finset.univ, 0 ≤ x j * x j := fun j _ => mul_self_nonneg _
  exact mul_self_eq_zero.1 ((Finset.sum_eq_zero_iff_of_nonneg h0).1 this.symm i (Finset.mem_univ i))

theorem len_neg {len : P3 K → K} (hl : IsLen len) (x y : P3 K) (h : Spec.inner x x = Spec.inner y y) : len x = len y := by
  have h1 := hl x
  have h2 := hl y
  exact (mul_self_inj_of_nonneg h1.1 h2.1).1 (by rw [h1.2, h2.2, h])

theorem unit_len {len : P3 K → K} (hl : IsLen len) {x : P3 K} (h : len x ≠ 0) (s : K) (hs : s * s = 1) :
    len (fun i => s * unit len x i) = 1 := by
  have h1 := hl (fun i => s * unit len x i)
  have h2 := hl x
  refine (mul_self_inj_of_nonneg h1.1 zero_le_one).1 ?_
  rw [h1.2, mul_one]
  unfold unit
  have : Spec.inner (fun i => s * (x i / len x)) (fun i => s * (x i / len x)) = (s * s) * (Spec.inner x x / (len x * len x)) := by
    simp only [Spec.inner, Fin.sum_univ_three]
    field_simp
  rw [this, hs, ← h2.2, div_self (mul_ne_zero h h), one_mul]

/-! ### The choice of the sign -/

theorem flip_ok {l : List Int} (hn : l.Nodup) (h3 : 3 ≤ l.length) {e1 e2 a b : Int} (hab : a ≠ b) (h0 : a = 0 ∨ b = 0) (inner : Bool) :
    (Follows l e1 e2 → normalShouldFlip l e1 e2 [a, b] inner = .ok ((if b = 0 then -1 else 1) * if inner then -1 else 1)) ∧
    (Follows l e2 e1 → normalShouldFlip l e1 e2 [a, b] inner = .ok ((if b = 0 then 1 else -1) * if inner then -1 else 1)) := by
  obtain ⟨g1, g2⟩ := C24_direction l hn h3 e1 e2
  refine ⟨fun h => ?_, fun h => ?_⟩
  · unfold normalShouldFlip
    rw [g1 h]
    rcases h0 with rfl | rfl
    · cases inner <;> simp [hab, hab.symm]
    · cases inner <;> simp [hab]
  · unfold normalShouldFlip
    rw [g2 h]
    rcases h0 with rfl | rfl
    · cases inner <;> simp [hab, hab.symm]
    · cases inner <;> simp [hab]

end RSVS.VertNormal
