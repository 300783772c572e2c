import Mathlib.Tactic.FieldSimp
import Mathlib.Tactic.Linarith
import Mathlib.Tactic.LinearCombination
import Verif.Lemmas.EdgeMetric
import Verif.Lemmas.Geometry
import Verif.Model.SphereStep
import Verif.Spec.SphereStep

/-!
# Lemmas about placing spawned snaxels on a sphere
-/

namespace RSVS.Sphere

open RSVS.Geo RSVS.Spec

variable {K : Type} [Field K] [LinearOrder K] [IsStrictOrderedRing K] {root : K → K}

/-- The discriminant of the line and the sphere. -/
def disc (line off : P3 K) (r : K) : K :=
  (2 * inner line off) * (2 * inner line off) - 4 * inner line line * (inner off off - r * r)

theorem onSphere_iff (line off : P3 K) (r s : K) : OnSphere off r line s ↔
    inner line line * (s * s) + 2 * inner line off * s + (inner off off - r * r) = 0 := by
  unfold OnSphere
  simp only [inner_eq]
  constructor <;> intro h <;> linear_combination h

theorem inner_self_pos {l : P3 K} (h : l ≠ 0) : 0 < inner l l := by
  rw [inner_eq]
  have h0 := mul_self_nonneg (l 0)
  have h1 := mul_self_nonneg (l 1)
  have h2 := mul_self_nonneg (l 2)
  by_contra hc
  have k0 : l 0 * l 0 = 0 := by linarith
  have k1 : l 1 * l 1 = 0 := by linarith
  have k2 : l 2 * l 2 = 0 := by linarith
  apply h
  apply ext3
  exacts [mul_self_eq_zero.mp k0, mul_self_eq_zero.mp k1, mul_self_eq_zero.mp k2]

theorem intersect_two (hr : IsRoot root) {eps : K} {line off : P3 K} {r : K} (hl : line ≠ 0) (h : eps ≤ disc line off r)
    (heps : 0 < eps) :
    ∃ q, 0 ≤ q ∧ q * q = disc line off r ∧ intersect eps root line off r =
      .two ((-(2 * inner line off) - q) * (1 / (2 * inner line line))) ((-(2 * inner line off) + q) * (1 / (2 * inner line line))) := by
  have hd : 0 ≤ disc line off r := heps.le.trans h
  refine ⟨root (disc line off r), (hr _ hd).1, (hr _ hd).2, ?_⟩
  unfold intersect
  simp only [dot_eq]
  rw [if_neg (by rw [not_lt]; exact hd), if_neg (inner_self_pos hl).ne', if_neg]
  · rfl
  · rw [sub_zero, not_lt]
    exact h.trans (le_abs_self _)

omit [IsStrictOrderedRing K] in
theorem sgn_pos {x : K} (h : 0 < x) : sgn x = 1 := by unfold sgn; rw [if_pos h, if_neg (not_lt.mpr h.le)]; rfl

omit [IsStrictOrderedRing K] in
theorem sgn_neg {x : K} (h : x < 0) : sgn x = -1 := by unfold sgn; rw [if_neg (not_lt.mpr h.le), if_pos h]; rfl

/-- From inside of the sphere the value is the forward one or the error value. -/
theorem pick_inside (hr : IsRoot root) {eps : K} {line off : P3 K} {r : K} (hl : line ≠ 0) (heps : 0 < eps)
    (h : eps ≤ disc line off r) (hin : inner off off < r * r) (err : K) :
    ∃ p, pick err (intersect eps root line off r) = .ok (.val p) ∧
      (0 ≤ inner line off → 0 < p ∧ OnSphere off r line p) ∧ (inner line off < 0 → p = err) := by
  obtain ⟨q, h1, h2, h3⟩ := intersect_two hr hl h heps
  have ha := inner_self_pos hl
  set a := inner line line with hadef
  set b := inner line off with hbdef
  have hc : inner off off - r * r < 0 := by linarith
  have hq : (2 * b) * (2 * b) < q * q := by
    rw [h2]; unfold disc; rw [← hadef, ← hbdef]; nlinarith
  have hq1 : 2 * b < q := by by_contra hcon; nlinarith
  have hq2 : -(2 * b) < q := by by_contra hcon; nlinarith
  have hinv : 0 < 1 / (2 * a) := by positivity
  have hx : (-(2 * b) - q) * (1 / (2 * a)) < 0 := mul_neg_of_neg_of_pos (by linarith) hinv
  have hy : 0 < (-(2 * b) + q) * (1 / (2 * a)) := mul_pos (by linarith) hinv
  rw [h3]
  unfold pick
  simp only
  rw [sgn_neg hx, sgn_pos hy, if_neg (by decide), if_neg (by decide)]
  refine ⟨_, rfl, fun hb => ?_, fun hb => ?_⟩
  · rw [if_pos]
    · refine ⟨hy, ?_⟩
      rw [onSphere_iff, ← hadef, ← hbdef]
      have h2' : q * q = (2 * b) * (2 * b) - 4 * a * (inner off off - r * r) := h2
      field_simp
      linear_combination h2'
    · rw [abs_of_pos hy, abs_of_neg hx]
      have := mul_nonneg hb hinv.le
      nlinarith
  · rw [if_neg]
    rw [abs_of_pos hy, abs_of_neg hx, not_le]
    have := mul_neg_of_neg_of_pos hb hinv
    nlinarith

omit [IsStrictOrderedRing K] in
theorem maxFold (f : P3 K → K) (lines : List (P3 K)) : ∀ a : K, a ≤ lines.foldl (fun a l => max (f l) a) a ∧
    (∀ l ∈ lines, f l ≤ lines.foldl (fun a l => max (f l) a) a) ∧
    (lines.foldl (fun a l => max (f l) a) a = a ∨ ∃ l ∈ lines, lines.foldl (fun a l => max (f l) a) a = f l) := by
  induction lines with
  | nil => intro a; simp
  | cons l lines ih =>
    intro a
    obtain ⟨h1, h2, h3⟩ := ih (max (f l) a)
    rw [List.foldl_cons]
    refine ⟨(le_max_right _ _).trans h1, ?_, ?_⟩
    · intro x hx
      rcases List.mem_cons.mp hx with rfl | hx
      · exact (le_max_left _ _).trans h1
      · exact h2 x hx
    · rcases h3 with h3 | ⟨x, hx, h3⟩
      · rcases max_choice (f l) a with h | h
        · exact .inr ⟨l, by simp, h3.trans h⟩
        · exact .inl (h3.trans h)
      · exact .inr ⟨x, by simp [hx], h3⟩

omit [IsStrictOrderedRing K] in
theorem maxNew_vals (ps : List K) : 0 ≤ maxNew (ps.map Pick.val) ∧ (∀ p ∈ ps, p ≤ maxNew (ps.map Pick.val)) ∧
    (maxNew (ps.map Pick.val) = 0 ∨ ∃ p ∈ ps, maxNew (ps.map Pick.val) = p) := by
  have key : ∀ a : K, a ≤ ps.foldl max a ∧ (∀ p ∈ ps, p ≤ ps.foldl max a) ∧ (ps.foldl max a = a ∨ ∃ p ∈ ps, ps.foldl max a = p) := by
    induction ps with
    | nil => intro a; simp
    | cons x ps ih =>
      intro a
      obtain ⟨h1, h2, h3⟩ := ih (max a x)
      rw [List.foldl_cons]
      refine ⟨(le_max_left _ _).trans h1, ?_, ?_⟩
      · intro y hy
        rcases List.mem_cons.mp hy with rfl | hy
        · exact (le_max_right _ _).trans h1
        · exact h2 y hy
      · rcases h3 with h3 | ⟨y, hy, h3⟩
        · rcases max_choice a x with h | h
          · exact .inl (h3.trans h)
          · exact .inr ⟨x, by simp, h3.trans h⟩
        · exact .inr ⟨y, by simp [hy], h3⟩
  have : maxNew (ps.map Pick.val) = ps.foldl max 0 := by
    unfold maxNew
    rw [List.foldl_map]
  rw [this]
  exact key 0

omit [Field K] [LinearOrder K] [IsStrictOrderedRing K] in
theorem allNeg_vals (ps : List K) : allNeg (ps.map Pick.val) = false := by
  unfold allNeg
  rw [List.any_eq_false]
  intro p hp
  obtain ⟨x, -, rfl⟩ := List.mem_map.mp hp
  simp

end RSVS.Sphere
