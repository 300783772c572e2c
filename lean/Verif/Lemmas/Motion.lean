import Verif.Spec.SnakeMotion
import Verif.Lemmas.Hash
import Mathlib.Data.List.Induction
import Mathlib.Tactic.Linarith
import Mathlib.Tactic.Ring
import Mathlib.Tactic.FieldSimp
import Mathlib.Tactic.NormNum
import Mathlib.Tactic.Positivity

/-! Helper lemmas on the motion of snaxels. -/

namespace RSVS

set_option linter.unusedSectionVars false

open RSVS.Spec

variable {K : Type} [Field K] [LinearOrder K] [IsStrictOrderedRing K]

theorem dStep_neg (v dt lim : K) (h : 0 ≤ lim) : dStep (-v) dt lim = -dStep v dt lim := by
  unfold dStep
  have e : -v * dt = -(v * dt) := by ring
  rw [e]
  split_ifs <;> first | rfl | (exfalso; linarith) | linarith

theorem dStep_abs_le (v dt lim : K) (h : 0 ≤ lim) : |dStep v dt lim| ≤ lim := by
  unfold dStep
  split_ifs with h1 h2
  · rw [abs_of_nonneg h]
  · rw [abs_neg, abs_of_nonneg h]
  · rw [abs_le]; exact ⟨by linarith, by linarith⟩

theorem dStep_mono {v w dt lim : K} (_h : 0 ≤ lim) (hv : v * dt ≤ w * dt) :
    dStep v dt lim ≤ dStep w dt lim := by
  unfold dStep
  split_ifs <;> linarith

theorem dStep_lip {v w dt lim : K} (_h : 0 ≤ lim) (hv : v * dt ≤ w * dt) :
    dStep w dt lim - dStep v dt lim ≤ w * dt - v * dt := by
  unfold dStep
  split_ifs <;> linarith

/-- Clamp to [0,1]. -/
theorem clamp_mono {x y : K} (h : x ≤ y) : min (max x 0) 1 ≤ min (max y 0) 1 :=
  min_le_min (max_le_max h le_rfl) le_rfl

theorem clamp_lip {x y c : K} (hc : 0 ≤ c) (h : x ≤ y + c) :
    min (max x 0) 1 ≤ min (max y 0) 1 + c := by
  rcases le_total x 0 with hx | hx <;> rcases le_total y 0 with hy | hy <;>
  rcases le_total x 1 with hx1 | hx1 <;> rcases le_total y 1 with hy1 | hy1 <;>
  simp only [max_eq_left, max_eq_right, min_eq_left, min_eq_right, hx, hy, hx1, hy1, zero_le_one] <;>
  linarith

theorem updateD_mem (d v dt lim : K) : 0 ≤ updateD d v dt lim ∧ updateD d v dt lim ≤ 1 := by
  unfold updateD
  exact ⟨le_min (le_max_right _ _) zero_le_one, min_le_right _ _⟩

theorem updateD_dist {d v dt lim : K} (h0 : 0 ≤ d) (h1 : d ≤ 1) (hl : 0 ≤ lim) :
    |updateD d v dt lim - d| ≤ lim := by
  have hs := abs_le.1 (dStep_abs_le v dt lim hl)
  unfold updateD
  rw [abs_le]
  constructor
  · rw [neg_le_sub_iff_le_add]
    rcases le_total (max (d + dStep v dt lim) 0) 1 with h | h
    · rw [min_eq_left h]
      have := le_max_left (d + dStep v dt lim) 0
      linarith
    · rw [min_eq_right h]; linarith
  · have h2 : min (max (d + dStep v dt lim) 0) 1 ≤ max (d + dStep v dt lim) 0 := min_le_left _ _
    rcases le_total (d + dStep v dt lim) 0 with h | h
    · rw [max_eq_right h] at h2 ⊢; linarith
    · rw [max_eq_left h] at h2 ⊢; linarith

theorem updateD_up {d v dt lim : K} (h1 : d ≤ 1) (hl : 0 ≤ lim) (h : 0 ≤ v * dt) :
    d ≤ updateD d v dt lim := by
  have : 0 ≤ dStep v dt lim := by
    unfold dStep; split_ifs <;> linarith
  unfold updateD
  exact le_min (le_trans (by linarith) (le_max_left _ _)) h1

theorem updateD_down {d v dt lim : K} (h0 : 0 ≤ d) (hl : 0 ≤ lim) (h : v * dt ≤ 0) :
    updateD d v dt lim ≤ d := by
  have : dStep v dt lim ≤ 0 := by
    unfold dStep; split_ifs <;> linarith
  unfold updateD
  exact le_trans (min_le_left _ _) (max_le (by linarith) h0)

theorem updateD_exact {d v dt lim : K} (h : |v * dt| ≤ lim) (h0 : 0 ≤ d + v * dt) (h1 : d + v * dt ≤ 1) :
    updateD d v dt lim = d + v * dt := by
  rw [abs_le] at h
  have : dStep v dt lim = v * dt := by
    unfold dStep; split_ifs <;> first | rfl | (exfalso; linarith)
  unfold updateD
  rw [this, max_eq_left h0, min_eq_left h1]

/-! ### position and velocity measured from one vertex of the edge -/

theorem clamp_flip (x : K) : 1 - min (max x 0) 1 = min (max (1 - x) 0) 1 := by
  rcases le_total x 0 with hx | hx <;> rcases le_total x 1 with hx1 | hx1 <;>
  rcases le_total (1 - x) 0 with hy | hy <;> rcases le_total (1 - x) 1 with hy1 | hy1 <;>
  simp only [max_eq_left, max_eq_right, min_eq_left, min_eq_right, hx, hx1, hy, hy1, zero_le_one,
    sub_zero] <;> linarith

theorem posFrom_update (A : Int) (s : Snax K) (dt lim : K) (hl : 0 ≤ lim) :
    posFrom A { s with d := updateD s.d s.v dt lim } =
      updateD (posFrom A s) (velFrom A s) dt lim := by
  unfold posFrom velFrom
  dsimp only
  split_ifs with h
  · rfl
  · unfold updateD
    rw [clamp_flip, dStep_neg _ _ _ hl]
    congr 2; ring

/-- Contact time in terms of positions and velocities measured from one vertex. -/
def contactTime (eps pa va pb vb : K) : K :=
  if |pb - pa| < eps then 0 else if |vb - va| < eps then -1 else -(pb - pa) / (vb - va)

theorem impactDt_eq (eps : K) (A B : Int) (a b : Snax K) (ha : OnEdge A B a) (hb : OnEdge A B b) :
    impactDt eps a b =
      contactTime eps (posFrom A a) (velFrom A a) (posFrom A b) (velFrom A b) := by
  obtain ⟨hne, ha⟩ := ha
  obtain ⟨_, hb⟩ := hb
  unfold impactDt contactTime posFrom velFrom approxEq
  have hBA : ¬ B = A := fun h => hne h.symm
  rcases ha with ⟨ha, _⟩ | ⟨ha, _⟩ <;> rcases hb with ⟨hb, _⟩ | ⟨hb, _⟩ <;>
    simp only [ha, hb, hne, hBA, if_true, if_false, decide_eq_true_eq, sub_zero, mul_zero, zero_add,
      add_zero, one_mul, mul_one]
  · have e1 : (1 : K) + (1 + -2) * b.d - a.d = 1 - b.d - a.d := by ring
    have e2 : ((1 : K) + -2) * b.v - a.v = -b.v - a.v := by ring
    rw [e1, e2]
  · have e1 : (1 : K) + (1 + -2) * b.d - a.d = -(b.d - (1 - a.d)) := by ring
    have e2 : ((1 : K) + -2) * b.v - a.v = -(b.v - -a.v) := by ring
    rw [e1, e2, abs_neg, abs_neg, neg_div_neg_eq]
  · have e1 : (1 : K) - b.d - (1 - a.d) = -(b.d - a.d) := by ring
    have e2 : -b.v - -a.v = -(b.v - a.v) := by ring
    rw [e1, e2, abs_neg, abs_neg, neg_div_neg_eq, neg_div]

theorem impactDt_symm (eps : K) (a b : Snax K) : impactDt eps a b = impactDt eps b a := by
  unfold impactDt approxEq
  by_cases h : a.fromvert = b.fromvert
  · have h' : b.fromvert = a.fromvert := h.symm
    simp only [h, if_true, mul_zero, zero_add, add_zero, one_mul, sub_zero]
    rw [abs_sub_comm b.d a.d, abs_sub_comm b.v a.v]
    have : -(b.d - a.d) / (b.v - a.v) = -(a.d - b.d) / (a.v - b.v) := by
      rw [← neg_sub a.d b.d, ← neg_sub a.v b.v, neg_div_neg_eq]
    rw [this]
  · have h' : ¬ b.fromvert = a.fromvert := fun hh => h hh.symm
    simp only [h, h', if_false, mul_one]
    have e1 : (1 : K) + (1 + -2) * b.d - a.d = 1 + (1 + -2) * a.d - b.d := by ring
    have e2 : ((1 : K) + -2) * b.v - a.v = (1 + -2) * a.v - b.v := by ring
    rw [e1, e2]

theorem no_pass_core {eps pa va pb vb dt lim : K} (hdt : 0 ≤ dt) (hl : 0 ≤ lim)
    (hlim : 0 ≤ contactTime eps pa va pb vb → dt ≤ contactTime eps pa va pb vb) (hp : pa ≤ pb) :
    updateD pa va dt lim ≤ updateD pb vb dt lim ∨
      (|vb - va| < eps ∧ updateD pa va dt lim ≤ updateD pb vb dt lim + eps * dt) := by
  unfold contactTime at hlim
  by_cases hv : va ≤ vb
  · left
    apply clamp_mono
    have := dStep_mono (v := va) (w := vb) (dt := dt) hl (mul_le_mul_of_nonneg_right hv hdt)
    linarith
  · have hv' : vb < va := not_le.1 hv
    have hmul : vb * dt ≤ va * dt := mul_le_mul_of_nonneg_right hv'.le hdt
    have hlip := dStep_lip (v := vb) (w := va) (dt := dt) hl hmul
    split_ifs at hlim with h1 h2
    · left
      have h0 : dt = 0 := le_antisymm (hlim le_rfl) hdt
      subst h0
      apply clamp_mono
      unfold dStep
      simp only [mul_zero]
      linarith
    · right
      refine ⟨h2, ?_⟩
      have hb : va - vb < eps := by
        rw [abs_lt] at h2; linarith
      have heps : 0 ≤ eps := le_trans (abs_nonneg _) h2.le
      apply clamp_lip (mul_nonneg heps hdt)
      have : (va - vb) * dt ≤ eps * dt := mul_le_mul_of_nonneg_right hb.le hdt
      nlinarith
    · left
      have hneg : vb - va < 0 := by linarith
      have hq : 0 ≤ -(pb - pa) / (vb - va) :=
        div_nonneg_of_nonpos (by linarith) hneg.le
      have h3 := hlim hq
      rw [le_div_iff_of_neg hneg] at h3
      apply clamp_mono
      nlinarith

/-! ### minimum over contact times -/

theorem Spec.MinOver.refl (d0 : K) {S : K → Prop} (hS : ∀ t, ¬ S t) : MinOver d0 S d0 :=
  ⟨le_rfl, fun t ht => absurd ht (hS t), Or.inl rfl⟩

theorem Spec.MinOver.trans {d0 d1 d2 : K} {S T U : K → Prop} (h1 : MinOver d0 S d1) (h2 : MinOver d1 T d2)
    (hU : ∀ t, U t ↔ S t ∨ T t) : MinOver d0 U d2 := by
  refine ⟨le_trans h2.1 h1.1, ?_, ?_⟩
  · intro t ht h0
    rcases (hU t).1 ht with h | h
    · exact le_trans h2.1 (h1.2.1 t h h0)
    · exact h2.2.1 t h h0
  · rcases h2.2.2 with h | ⟨h, h0⟩
    · rcases h1.2.2 with h' | ⟨h', h0⟩
      · left; rw [h, h']
      · right; rw [h]; exact ⟨(hU _).2 (Or.inl h'), h0⟩
    · right; exact ⟨(hU _).2 (Or.inr h), h0⟩

theorem Spec.MinOver.congr {d0 d : K} {S T : K → Prop} (h : MinOver d0 S d) (hST : ∀ t, S t ↔ T t) :
    MinOver d0 T d :=
  ⟨h.1, fun t ht => h.2.1 t ((hST t).2 ht), h.2.2.imp id (fun ⟨a, b⟩ => ⟨(hST _).1 a, b⟩)⟩

theorem minOver_limit (d0 t : K) : MinOver d0 (fun u => u = t) (if d0 > t then t else d0) ∨ t < 0 := by
  by_cases ht : 0 ≤ t
  · left
    split_ifs with h
    · exact ⟨h.le, fun u hu _ => by rw [hu], Or.inr ⟨rfl, ht⟩⟩
    · exact ⟨le_rfl, fun u hu _ => by rw [hu]; exact not_lt.1 h, Or.inl rfl⟩
  · right; exact not_le.1 ht

theorem minOver_skip {d0 t : K} (ht : ¬ t ≥ 0) : MinOver d0 (fun u => u = t) d0 :=
  ⟨le_rfl, fun _ hu h0 => absurd (hu ▸ h0) ht, Or.inl rfl⟩

theorem timeStepInner_spec (eps : K) (at_ : Nat → Snax K) (a : Nat) :
    ∀ (r : List Nat) (dt : Nat → K), (a :: r).Nodup →
      MinOver (dt a) (fun t => ∃ b ∈ r, t = impactDt eps (at_ a) (at_ b))
        (timeStepInner eps at_ a r dt a) ∧
      (∀ b ∈ r, MinOver (dt b) (fun t => t = impactDt eps (at_ a) (at_ b))
        (timeStepInner eps at_ a r dt b)) ∧
      (∀ x, x ≠ a → x ∉ r → timeStepInner eps at_ a r dt x = dt x) := by
  intro r
  induction r with
  | nil =>
    intro dt _
    exact ⟨MinOver.refl _ (by simp), by simp, fun x _ _ => rfl⟩
  | cons b r ih =>
    intro dt hn
    have hab : a ≠ b := by
      intro h; subst h; simp at hn
    have hn' : (a :: r).Nodup := by
      simp only [List.nodup_cons, List.mem_cons, not_or] at hn ⊢
      exact ⟨hn.1.2, hn.2.2⟩
    have hbr : b ∉ r := by
      simp only [List.nodup_cons] at hn; exact hn.2.1
    unfold timeStepInner
    dsimp only
    split_ifs with ht
    · obtain ⟨i1, i2, i3⟩ := ih (limitAt (limitAt dt a _) b (impactDt eps (at_ a) (at_ b))) hn'
      have ea : limitAt (limitAt dt a (impactDt eps (at_ a) (at_ b))) b
          (impactDt eps (at_ a) (at_ b)) a =
          if dt a > impactDt eps (at_ a) (at_ b) then impactDt eps (at_ a) (at_ b) else dt a := by
        simp [limitAt, hab]
      have eb : limitAt (limitAt dt a (impactDt eps (at_ a) (at_ b))) b
          (impactDt eps (at_ a) (at_ b)) b =
          if dt b > impactDt eps (at_ a) (at_ b) then impactDt eps (at_ a) (at_ b) else dt b := by
        simp [limitAt, hab.symm]
      have eo : ∀ x, x ≠ a → x ≠ b → limitAt (limitAt dt a (impactDt eps (at_ a) (at_ b))) b
          (impactDt eps (at_ a) (at_ b)) x = dt x := by
        intro x h1 h2; simp [limitAt, h1, h2]
      refine ⟨?_, ?_, ?_⟩
      · rw [ea] at i1
        rcases minOver_limit (dt a) (impactDt eps (at_ a) (at_ b)) with h | h
        · refine h.trans i1 ?_
          intro t
          constructor
          · rintro ⟨c, hc, rfl⟩
            rcases List.mem_cons.1 hc with rfl | hc
            · exact Or.inl rfl
            · exact Or.inr ⟨c, hc, rfl⟩
          · rintro (rfl | ⟨c, hc, rfl⟩)
            · exact ⟨b, by simp, rfl⟩
            · exact ⟨c, by simp [hc], rfl⟩
        · exact absurd ht (not_le.2 h)
      · intro c hc
        rcases List.mem_cons.1 hc with rfl | hc
        · rw [i3 c hab.symm hbr, eb]
          rcases minOver_limit (dt c) (impactDt eps (at_ a) (at_ c)) with h | h
          · exact h
          · exact absurd ht (not_le.2 h)
        · have hca : c ≠ a := by
            rintro rfl; simp only [List.nodup_cons] at hn'; exact hn'.1 hc
          have hcb : c ≠ b := fun h => hbr (h ▸ hc)
          have := i2 c hc
          rw [eo c hca hcb] at this
          exact this
      · intro x hxa hx
        simp only [List.mem_cons, not_or] at hx
        rw [i3 x hxa hx.2, eo x hxa hx.1]
    · obtain ⟨i1, i2, i3⟩ := ih dt hn'
      refine ⟨?_, ?_, ?_⟩
      · refine (minOver_skip ht).trans i1 ?_
        intro t
        constructor
        · rintro ⟨c, hc, rfl⟩
          rcases List.mem_cons.1 hc with rfl | hc
          · exact Or.inl rfl
          · exact Or.inr ⟨c, hc, rfl⟩
        · rintro (rfl | ⟨c, hc, rfl⟩)
          · exact ⟨b, by simp, rfl⟩
          · exact ⟨c, by simp [hc], rfl⟩
      · intro c hc
        rcases List.mem_cons.1 hc with rfl | hc
        · rw [i3 c hab.symm hbr]
          exact minOver_skip ht
        · exact i2 c hc
      · intro x hxa hx
        simp only [List.mem_cons, not_or] at hx
        exact i3 x hxa hx.2

theorem timeStepOnEdge_spec (eps : K) (at_ : Nat → Snax K) :
    ∀ (l : List Nat) (dt : Nat → K), l.Nodup →
      (∀ x ∈ l, MinOver (dt x) (fun t => ∃ y ∈ l, y ≠ x ∧ t = impactDt eps (at_ x) (at_ y))
        (timeStepOnEdge eps at_ l dt x)) ∧
      (∀ x, x ∉ l → timeStepOnEdge eps at_ l dt x = dt x) := by
  intro l
  induction l with
  | nil => intro dt _; exact ⟨by simp, fun x _ => rfl⟩
  | cons a r ih =>
    intro dt hn
    obtain ⟨j1, j2, j3⟩ := timeStepInner_spec eps at_ a r dt hn
    obtain ⟨har, hr⟩ := List.nodup_cons.1 hn
    obtain ⟨i1, i2⟩ := ih (timeStepInner eps at_ a r dt) hr
    unfold timeStepOnEdge
    refine ⟨?_, ?_⟩
    · intro x hx
      rcases List.mem_cons.1 hx with rfl | hx
      · rw [i2 x har]
        refine j1.congr ?_
        intro t
        constructor
        · rintro ⟨b, hb, rfl⟩
          exact ⟨b, by simp [hb], by rintro rfl; exact har hb, rfl⟩
        · rintro ⟨b, hb, hne, rfl⟩
          rcases List.mem_cons.1 hb with rfl | hb
          · exact absurd rfl hne
          · exact ⟨b, hb, rfl⟩
      · refine (j2 x hx).trans (i1 x hx) ?_
        intro t
        constructor
        · rintro ⟨b, hb, hne, rfl⟩
          rcases List.mem_cons.1 hb with rfl | hb
          · exact Or.inl (impactDt_symm _ _ _)
          · exact Or.inr ⟨b, hb, hne, rfl⟩
        · rintro (rfl | ⟨b, hb, hne, rfl⟩)
          · exact ⟨a, by simp, by rintro rfl; exact har hx, impactDt_symm _ _ _⟩
          · exact ⟨b, by simp [hb], hne, rfl⟩
    · intro x hx
      simp only [List.mem_cons, not_or] at hx
      rw [i2 x hx.2, j3 x hx.1 hx.2]

/-- The contact times of snaxel `x` with the other snaxels of its edge. -/
def EdgeContacts (eps : K) (n : Nat) (at_ : Nat → Snax K) (x : Nat) (t : K) : Prop :=
  ∃ y, y < n ∧ y ≠ x ∧ (at_ y).edgeind = (at_ x).edgeind ∧ t = impactDt eps (at_ x) (at_ y)

theorem timeStepLoop_spec (eps : K) (n : Nat) (at_ : Nat → Snax K) (subs : Int → List Nat) (d0 : K)
    (hsub : ∀ e, (subs e).Nodup ∧ ∀ p, p ∈ subs e ↔ p < n ∧ (at_ p).edgeind = e) :
    ∀ (todo : List Nat) (dt : Nat → K) (done : Nat → Bool), (∀ i ∈ todo, i < n) →
      (∀ x, x < n → (done x = true → MinOver d0 (EdgeContacts eps n at_ x) (dt x)) ∧
        (done x = false → dt x = d0) ∧
        (∀ y, y < n → (at_ y).edgeind = (at_ x).edgeind → done y = done x)) →
      ∃ dt', timeStepLoop eps at_ subs todo dt done = .ok dt' ∧
        ∀ x, x < n → (done x = true ∨ x ∈ todo → MinOver d0 (EdgeContacts eps n at_ x) (dt' x)) := by
  intro todo
  induction todo with
  | nil =>
    intro dt done _ hinv
    exact ⟨dt, rfl, fun x hx h => (hinv x hx).1 (h.resolve_right (by simp))⟩
  | cons i r ih =>
    intro dt done hlt hinv
    have hi : i < n := hlt i (by simp)
    have hr : ∀ j ∈ r, j < n := fun j hj => hlt j (by simp [hj])
    unfold timeStepLoop
    by_cases hd : done i = true
    · rw [if_pos hd]
      obtain ⟨dt', h1, h2⟩ := ih dt done hr hinv
      refine ⟨dt', h1, fun x hx h => h2 x hx ?_⟩
      rcases h with h | h
      · exact Or.inl h
      · rcases List.mem_cons.1 h with rfl | h
        · exact Or.inl hd
        · exact Or.inr h
    · have hdf : done i = false := by simpa using hd
      rw [if_neg hd]
      dsimp only
      obtain ⟨hn, hmem⟩ := hsub (at_ i).edgeind
      have himem : i ∈ subs (at_ i).edgeind := (hmem i).2 ⟨hi, rfl⟩
      by_cases h1 : (subs (at_ i).edgeind).length = 1
      · rw [if_pos h1]
        have honly : ∀ y, y < n → (at_ y).edgeind = (at_ i).edgeind → y = i := by
          intro y hy he
          obtain ⟨z, hz⟩ := List.length_eq_one_iff.1 h1
          have hy' := (hmem y).2 ⟨hy, he⟩
          rw [hz] at hy' himem
          simp at hy' himem
          rw [hy', himem]
        obtain ⟨dt', e1, e2⟩ := ih dt (fun x => if x = i then true else done x) hr (by
          intro x hx
          by_cases hxi : x = i
          · subst hxi
            refine ⟨fun _ => ?_, by simp, ?_⟩
            · rw [(hinv x hx).2.1 hdf]
              refine MinOver.refl _ ?_
              rintro t ⟨y, hy, hne, he, _⟩
              exact hne (honly y hy he)
            · intro y hy he; rw [honly y hy he]
          · simp only [hxi, if_false]
            refine ⟨(hinv x hx).1, (hinv x hx).2.1, ?_⟩
            intro y hy he
            by_cases hyi : y = i
            · subst hyi; exact absurd (honly x hx he.symm) hxi
            · simp only [hyi, if_false]; exact (hinv x hx).2.2 y hy he)
        refine ⟨dt', e1, fun x hx h => e2 x hx ?_⟩
        rcases h with h | h
        · left; by_cases hxi : x = i <;> simp [hxi, h]
        · rcases List.mem_cons.1 h with rfl | h
          · left; simp
          · exact Or.inr h
      · rw [if_neg h1]
        have h2 : (subs (at_ i).edgeind).length > 1 := by
          have : 0 < (subs (at_ i).edgeind).length := List.length_pos_of_mem himem
          omega
        rw [if_pos h2]
        obtain ⟨t1, t2⟩ := timeStepOnEdge_spec eps at_ (subs (at_ i).edgeind) dt hn
        obtain ⟨dt', e1, e2⟩ := ih (timeStepOnEdge eps at_ (subs (at_ i).edgeind) dt)
          (fun x => if x ∈ subs (at_ i).edgeind then true else done x) hr (by
          intro x hx
          by_cases hxm : x ∈ subs (at_ i).edgeind
          · have hxe := ((hmem x).1 hxm).2
            simp only [hxm, if_true]
            refine ⟨fun _ => ?_, by simp, ?_⟩
            · have hxd : done x = false := by
                rw [(hinv i hi).2.2 x hx hxe]; exact hdf
              have := t1 x hxm
              rw [(hinv x hx).2.1 hxd] at this
              refine this.congr ?_
              intro t
              constructor
              · rintro ⟨y, hy, hne, rfl⟩
                obtain ⟨hy1, hy2⟩ := (hmem y).1 hy
                exact ⟨y, hy1, hne, by rw [hy2, hxe], rfl⟩
              · rintro ⟨y, hy, hne, he, rfl⟩
                exact ⟨y, (hmem y).2 ⟨hy, by rw [he, hxe]⟩, hne, rfl⟩
            · intro y hy he
              have : y ∈ subs (at_ i).edgeind := (hmem y).2 ⟨hy, by rw [he, hxe]⟩
              simp [this]
          · simp only [hxm, if_false]
            rw [t2 x hxm]
            refine ⟨(hinv x hx).1, (hinv x hx).2.1, ?_⟩
            intro y hy he
            have : y ∉ subs (at_ i).edgeind := by
              intro hh
              exact hxm ((hmem x).2 ⟨hx, by rw [← he]; exact ((hmem y).1 hh).2⟩)
            simp only [this, if_false]
            exact (hinv x hx).2.2 y hy he)
        refine ⟨dt', e1, fun x hx h => e2 x hx ?_⟩
        rcases h with h | h
        · left; by_cases hxi : x ∈ subs (at_ i).edgeind <;> simp [hxi, h]
        · rcases List.mem_cons.1 h with rfl | h
          · left; simp [himem]
          · exact Or.inr h

theorem Spec.MinOver.congr_nonneg {d0 d : K} {S T : K → Prop} (h : MinOver d0 S d)
    (hST : ∀ t, 0 ≤ t → (S t ↔ T t)) : MinOver d0 T d :=
  ⟨h.1, fun t ht h0 => h.2.1 t ((hST t h0).2 ht) h0, h.2.2.imp id (fun ⟨a, b⟩ => ⟨(hST _ b).1 a, b⟩)⟩

theorem Spec.MinOver.unique {d0 d d' : K} {S : K → Prop} (h : MinOver d0 S d) (h' : MinOver d0 S d') : d = d' := by
  apply le_antisymm
  · rcases h'.2.2 with e | ⟨e, h0⟩
    · rw [e]; exact h.1
    · exact h.2.1 _ e h0
  · rcases h.2.2 with e | ⟨e, h0⟩
    · rw [e]; exact h'.1
    · exact h'.2.1 _ e h0

theorem isContact_iff (eps : K) (heps : 0 < eps) (A : Int) (a b : Snax K) (t : K) (ht : 0 ≤ t) :
    IsContact eps A a b t ↔ t = contactTime eps (posFrom A a) (velFrom A a) (posFrom A b) (velFrom A b) := by
  unfold IsContact contactTime
  by_cases h1 : |posFrom A b - posFrom A a| < eps
  · rw [if_pos h1]
    constructor
    · rintro (⟨_, h⟩ | ⟨h, _⟩)
      · exact h
      · exact absurd h1 (not_lt.2 h)
    · intro h; exact Or.inl ⟨h1, h⟩
  · rw [if_neg h1]
    by_cases h2 : |velFrom A b - velFrom A a| < eps
    · rw [if_pos h2]
      constructor
      · rintro (⟨h, _⟩ | ⟨_, h, _⟩)
        · exact absurd h h1
        · exact absurd h2 (not_lt.2 h)
      · intro h; rw [h] at ht; norm_num at ht
    · rw [if_neg h2]
      have hne : velFrom A b - velFrom A a ≠ 0 := by
        intro h0; rw [h0, abs_zero] at h2; exact h2 heps
      rw [eq_div_iff hne]
      constructor
      · rintro (⟨h, _⟩ | ⟨_, _, h⟩)
        · exact absurd h h1
        · linarith
      · intro h
        exact Or.inr ⟨not_lt.1 h1, not_lt.1 h2, by linarith⟩

theorem approx_contact (eps : K) (A B : Int) (heps : 0 < eps) (heps1 : eps < 1) (a b : Snax K) (ha : OnEdge A B a)
    (hb : OnEdge A B b) :
    approxEq eps (impactDt eps a b) 0 = true ↔ ∃ t, |t| < eps ∧ IsContact eps A a b t := by
  rw [impactDt_eq eps A B a b ha hb]
  unfold approxEq
  simp only [sub_zero, decide_eq_true_eq]
  unfold IsContact contactTime
  by_cases h1 : |posFrom A b - posFrom A a| < eps
  · rw [if_pos h1, abs_zero]
    exact ⟨fun _ => ⟨0, by rw [abs_zero]; exact heps, Or.inl ⟨h1, rfl⟩⟩, fun _ => heps⟩
  · rw [if_neg h1]
    by_cases h2 : |velFrom A b - velFrom A a| < eps
    · rw [if_pos h2]
      constructor
      · intro h
        rw [abs_neg, abs_one] at h
        exact absurd h (not_lt.2 heps1.le)
      · rintro ⟨t, _, ⟨h, _⟩ | ⟨_, h, _⟩⟩
        · exact absurd h h1
        · exact absurd h2 (not_lt.2 h)
    · rw [if_neg h2]
      have hne : velFrom A b - velFrom A a ≠ 0 := by
        intro h0; rw [h0, abs_zero] at h2; exact h2 heps
      constructor
      · intro h
        refine ⟨_, h, Or.inr ⟨not_lt.1 h1, not_lt.1 h2, ?_⟩⟩
        field_simp
        ring
      · rintro ⟨t, ht, ⟨h, _⟩ | ⟨_, _, h⟩⟩
        · exact absurd h h1
        · have : t = -(posFrom A b - posFrom A a) / (velFrom A b - velFrom A a) := by
            rw [eq_div_iff hne]; linarith
          rw [← this]; exact ht

/-! ### impact reports -/

theorem mem_impactPairs (eps : K) (a : Snax K) (i j : Int) : ∀ l : List (Snax K),
    (i, j) ∈ impactPairs eps a l ↔ ∃ b ∈ l, (a.orderedge - b.orderedge).natAbs = 1 ∧
      approxEq eps (impactDt eps a b) 0 = true ∧ ((i, j) = (a.index, b.index) ∨ (i, j) = (b.index, a.index))
  | [] => by simp [impactPairs]
  | b :: r => by
      unfold impactPairs
      rw [List.mem_append, mem_impactPairs eps a i j r]
      constructor
      · rintro (h | ⟨c, hc, h⟩)
        · split_ifs at h with hh
          · exact ⟨b, by simp, hh.1, hh.2, by simpa using h⟩
          · simp at h
        · exact ⟨c, by simp [hc], h⟩
      · rintro ⟨c, hc, h1, h2, h3⟩
        rcases List.mem_cons.1 hc with rfl | hc
        · left; rw [if_pos ⟨h1, h2⟩]; simpa using h3
        · exact Or.inr ⟨c, hc, h1, h2, h3⟩

/-- `a` occurs before `b` in the list. -/
def Before (l : List (Snax K)) (a b : Snax K) : Prop := ∃ u v, l = u ++ a :: v ∧ b ∈ v

theorem pair_mem {l : List (Snax K)} {a b : Snax K} (h : Before l a b) : a ∈ l ∧ b ∈ l := by
  obtain ⟨u, v, rfl, hb⟩ := h
  exact ⟨by simp, by simp [hb]⟩

theorem pair_of_mem {l : List (Snax K)} {a b : Snax K} (ha : a ∈ l) (hb : b ∈ l) (hne : a ≠ b) :
    Before l a b ∨ Before l b a := by
  obtain ⟨u, v, rfl⟩ := List.append_of_mem ha
  rcases List.mem_append.1 hb with h | h
  · right
    obtain ⟨u1, u2, rfl⟩ := List.append_of_mem h
    exact ⟨u1, u2 ++ a :: v, by simp, by simp⟩
  · left
    refine ⟨u, v, rfl, ?_⟩
    rcases List.mem_cons.1 h with rfl | h
    · exact absurd rfl hne
    · exact h

theorem mem_detectImpactLoop (eps : K) (n : Nat) (i j : Int) : ∀ l : List (Snax K),
    (i, j) ∈ detectImpactLoop eps n l ↔
      (∃ a b, Before l a b ∧ (a.orderedge - b.orderedge).natAbs = 1 ∧
        approxEq eps (impactDt eps a b) 0 = true ∧ ((i, j) = (a.index, b.index) ∨ (i, j) = (b.index, a.index))) ∨
      ∃ a ∈ l, (i, j) ∈ impactEnd eps n a
  | [] => by
      simp only [detectImpactLoop, List.not_mem_nil, false_and, exists_false, or_false, false_iff, not_exists]
      rintro a b ⟨⟨u, v, h, _⟩, _⟩
      simp at h
  | c :: r => by
      unfold detectImpactLoop
      rw [List.mem_append, List.mem_append, mem_impactPairs, mem_detectImpactLoop eps n i j r]
      constructor
      · rintro ((⟨b, hb, h⟩ | h) | (⟨a, b, ⟨u, v, rfl, hb⟩, h⟩ | ⟨a, ha, h⟩))
        · exact Or.inl ⟨c, b, ⟨[], r, rfl, hb⟩, h⟩
        · exact Or.inr ⟨c, by simp, h⟩
        · exact Or.inl ⟨a, b, ⟨c :: u, v, rfl, hb⟩, h⟩
        · exact Or.inr ⟨a, by simp [ha], h⟩
      · rintro (⟨a, b, ⟨u, v, hu, hb⟩, h⟩ | ⟨a, ha, h⟩)
        · cases u with
          | nil =>
            simp only [List.nil_append, List.cons.injEq] at hu
            obtain ⟨rfl, rfl⟩ := hu
            exact Or.inl (Or.inl ⟨b, hb, h⟩)
          | cons x u =>
            simp only [List.cons_append, List.cons.injEq] at hu
            obtain ⟨rfl, rfl⟩ := hu
            exact Or.inr (Or.inl ⟨a, b, ⟨u, v, rfl, hb⟩, h⟩)
        · rcases List.mem_cons.1 ha with rfl | ha
          · exact Or.inl (Or.inr h)
          · exact Or.inr (Or.inr ⟨a, ha, h⟩)

/-! ### shape-conserving default time step -/

theorem defaultDt_le (eps dist : K) : ∀ (l : List (Snax K)) (dt : K),
    defaultDt eps dist dt l ≤ dt ∧ ∀ s ∈ l, s.v > eps → defaultDt eps dist dt l ≤ dist / |s.v|
  | [], dt => ⟨le_rfl, by simp⟩
  | s :: r, dt => by
      unfold defaultDt
      dsimp only
      obtain ⟨h1, h2⟩ := defaultDt_le eps dist r
        (if s.v > eps then (if dist / |s.v| < dt then dist / |s.v| else dt) else dt)
      have hle : (if s.v > eps then (if dist / |s.v| < dt then dist / |s.v| else dt) else dt) ≤ dt := by
        split_ifs with ha hb
        · exact hb.le
        · exact le_rfl
        · exact le_rfl
      refine ⟨le_trans h1 hle, ?_⟩
      intro a ha hv
      rcases List.mem_cons.1 ha with rfl | ha
      · refine le_trans h1 ?_
        rw [if_pos hv]
        split_ifs with hb
        · exact le_rfl
        · exact not_lt.1 hb
      · exact h2 a ha hv

theorem defaultDt_nonneg {eps dist : K} (hd : 0 ≤ dist) : ∀ (l : List (Snax K)) (dt : K), 0 ≤ dt →
    0 ≤ defaultDt eps dist dt l
  | [], _, h => h
  | s :: r, dt, h => by
      unfold defaultDt
      apply defaultDt_nonneg hd
      split_ifs
      · exact div_nonneg hd (abs_nonneg _)
      · exact h
      · exact h

theorem defaultDt_minOver (eps dist : K) (hd : 0 ≤ dist) : ∀ (l : List (Snax K)) (dt : K),
    MinOver dt (fun t => ∃ s ∈ l, s.v > eps ∧ t = dist / |s.v|) (defaultDt eps dist dt l)
  | [], dt => MinOver.refl dt (by simp)
  | s :: r, dt => by
      unfold defaultDt
      dsimp only
      have ih := defaultDt_minOver eps dist hd r
        (if s.v > eps then (if dist / |s.v| < dt then dist / |s.v| else dt) else dt)
      have h1 : MinOver dt (fun t => s.v > eps ∧ t = dist / |s.v|)
          (if s.v > eps then (if dist / |s.v| < dt then dist / |s.v| else dt) else dt) := by
        split_ifs with a b
        · exact ⟨b.le, fun t ht _ => by rw [ht.2], Or.inr ⟨⟨a, rfl⟩, div_nonneg hd (abs_nonneg _)⟩⟩
        · exact ⟨le_rfl, fun t ht _ => by rw [ht.2]; exact not_lt.1 b, Or.inl rfl⟩
        · exact MinOver.refl _ (fun t ht => a ht.1)
      refine h1.trans ih ?_
      intro t
      constructor
      · rintro ⟨x, hx, h⟩
        rcases List.mem_cons.1 hx with rfl | hx
        · exact Or.inl h
        · exact Or.inr ⟨x, hx, h⟩
      · rintro (h | ⟨x, hx, h⟩)
        · exact ⟨s, by simp, h⟩
        · exact ⟨x, by simp [hx], h⟩

/-! ### order validation -/

theorem orderPos_eq_lowPos (s : Snax K) (h : s.fromvert ≠ s.tovert) : orderPos s = lowPos s := by
  unfold orderPos lowPos posFrom
  rcases lt_or_gt_of_ne h with h1 | h1
  · rw [if_neg (not_lt.2 h1.le), min_eq_left h1.le, if_pos rfl]
  · rw [if_pos h1, min_eq_right h1.le, if_neg h]

theorem countP_range {α : Type} (g : α → Bool) (l : List α) :
    (List.range l.length).countP (fun q => ((l[q]?).map g).getD false) = l.countP g := by
  induction l using List.reverseRecOn with
  | nil => rfl
  | append_singleton l x ih =>
    rw [List.length_append, List.length_singleton, List.range_succ, List.countP_append, List.countP_append, ← ih]
    congr 1
    · apply List.countP_congr
      intro q hq
      rw [List.mem_range] at hq
      rw [List.getElem?_append_left hq]
    · simp [List.countP_cons]

/-- Counting over the listed positions is counting over the elements. -/
theorem countP_positions (l : List (Snax K)) (ps : List Nat) (hn : ps.Nodup) (sel : Snax K → Bool)
    (hps : ∀ q, q ∈ ps ↔ ∃ t, l[q]? = some t ∧ sel t = true) (f : Nat → Bool) (g : Snax K → Bool)
    (hfg : ∀ q t, l[q]? = some t → sel t = true → (f q = g t))
    (hg : ∀ t, g t = true → sel t = true) : ps.countP f = l.countP g := by
  have hperm : ps.Perm ((List.range l.length).filter (fun q => ((l[q]?).map sel).getD false)) := by
    rw [List.perm_ext_iff_of_nodup hn (List.nodup_range.filter _)]
    intro q
    rw [hps q, List.mem_filter, List.mem_range]
    constructor
    · rintro ⟨t, ht, hs⟩
      exact ⟨(List.getElem?_eq_some_iff.1 ht).1, by simp [ht, hs]⟩
    · rintro ⟨hq, h⟩
      rw [List.getElem?_eq_getElem hq] at h
      exact ⟨l[q], List.getElem?_eq_getElem hq, by simpa using h⟩
  rw [hperm.countP_eq, List.countP_filter]
  have hl := (countP_range g l).symm
  rw [hl]
  apply List.countP_congr
  intro q hq
  rw [List.mem_range] at hq
  simp only [List.getElem?_eq_getElem hq, Option.map_some, Option.getD_some, Bool.and_eq_true]
  constructor
  · rintro ⟨h1, h2⟩
    rw [← hfg q _ (List.getElem?_eq_getElem hq) h2]; exact h1
  · intro h
    have := hg _ h
    exact ⟨by rw [hfg q _ (List.getElem?_eq_getElem hq) this]; exact h, this⟩

theorem orderPos_eq_posFrom {A B : Int} (hAB : A < B) (s : Snax K) (hs : OnEdge A B s) :
    orderPos s = posFrom A s := by
  unfold orderPos posFrom
  rcases hs.2 with ⟨h1, h2⟩ | ⟨h1, h2⟩
  · rw [h1, h2]; simp [not_lt.2 hAB.le]
  · rw [h1, h2]; simp [hAB, hAB.ne']

theorem validateOne_pos {A B : Int} (hAB : A < B) (this temp : Snax K) (d : K)
    (h1 : OnEdge A B this) (h2 : OnEdge A B temp) :
    posFrom A { this with d := validateOne this d temp } =
      if this.index = temp.index then posFrom A { this with d := d }
      else if this.orderedge < temp.orderedge then min (posFrom A { this with d := d }) (posFrom A temp)
      else max (posFrom A { this with d := d }) (posFrom A temp) := by
  have hBA : ¬ B = A := fun h => h1.1 h.symm
  have hAB' : ¬ A = B := h1.1
  have hBA' : ¬ B < A := not_lt.2 hAB.le
  by_cases hi : this.index = temp.index
  · simp [validateOne, hi]
  by_cases ho : this.orderedge < temp.orderedge
  · rcases h1.2 with ⟨a1, a2⟩ | ⟨a1, a2⟩ <;> rcases h2.2 with ⟨b1, b2⟩ | ⟨b1, b2⟩ <;>
    · simp only [posFrom, validateOne, hi, ho, a1, b1, b2, hAB, hBA', hAB', hBA, ne_eq,
        not_false_eq_true, not_true_eq_false, if_true, if_false, decide_true, decide_false,
        Bool.xor_true, Bool.not_true, Bool.not_false, Bool.true_and, Bool.false_and,
        Bool.false_eq_true, decide_eq_true_eq]
      split_ifs with hc
      all_goals first
        | (rw [min_eq_left (by linarith)]; done)
        | (rw [min_eq_right (by linarith)]; done)
        | (rw [min_eq_left (by linarith)]; ring)
        | (rw [min_eq_right (by linarith)]; ring)
  · rcases h1.2 with ⟨a1, a2⟩ | ⟨a1, a2⟩ <;> rcases h2.2 with ⟨b1, b2⟩ | ⟨b1, b2⟩ <;>
    · simp only [posFrom, validateOne, hi, ho, a1, b1, b2, hAB, hBA', hAB', hBA, ne_eq,
        not_false_eq_true, not_true_eq_false, if_true, if_false, decide_true, decide_false,
        Bool.xor_false, Bool.not_true, Bool.not_false, Bool.true_and, Bool.false_and,
        Bool.false_eq_true, decide_eq_true_eq]
      split_ifs with hc
      all_goals first
        | (rw [max_eq_left (by linarith)]; done)
        | (rw [max_eq_right (by linarith)]; done)
        | (rw [max_eq_left (by linarith)]; ring)
        | (rw [max_eq_right (by linarith)]; ring)

end RSVS
