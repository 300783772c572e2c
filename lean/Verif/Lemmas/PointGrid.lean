import Mathlib.Tactic.Ring
import Mathlib.Tactic.Linarith
import Mathlib.Tactic.FieldSimp
import Mathlib.Tactic.IntervalCases
import Verif.Model.PointGrid
import Verif.Spec.PointGrid

/-! # Lemmas about the points around a domain -/

namespace RSVS.PointGrid

open RSVS RSVS.Spec

theorem sidePt_boxEnd (lo up : Nat → ℚ) (tol : ℚ) (a j : Nat) (b : Bool) :
    sidePt (lo j) (up j) (if j = a then tol else 0) b = BoxEnd lo up tol a b j := by
  unfold sidePt BoxEnd
  split_ifs <;> ring

theorem cornerPts_eq (lo up : Nat → ℚ) (tol : ℚ) : cornerPts lo up tol = (List.range 4).flatMap fun l =>
    (List.range 8).map fun i =>
      [BoxEnd lo up tol l (bit i 1) 0, BoxEnd lo up tol l (bit i 2) 1, BoxEnd lo up tol l (bit i 4) 2] := by
  unfold cornerPts
  simp [List.range_succ, ← sidePt_boxEnd]

theorem bits3 (b0 b1 b2 : Bool) : ∃ i < 8, bit i 1 = b0 ∧ bit i 2 = b1 ∧ bit i 4 = b2 := by
  revert b0 b1 b2
  decide

theorem bits2 (b0 b1 : Bool) : ∃ i < 4, bit i 1 = b0 ∧ bit i 2 = b1 := by
  revert b0 b1
  decide

theorem mem_cornerPts (lo up : Nat → ℚ) (tol : ℚ) (p : List ℚ) :
    p ∈ cornerPts lo up tol ↔ ∃ b : Nat → Bool, ∃ a < 4, CornerPoint lo up tol b a p := by
  rw [cornerPts_eq]
  simp only [List.mem_flatMap, List.mem_map, List.mem_range, CornerPoint]
  constructor
  · rintro ⟨l, hl, i, -, rfl⟩
    exact ⟨fun j => bit i (2 ^ j), l, hl, rfl⟩
  · rintro ⟨b, a, ha, rfl⟩
    obtain ⟨i, hi, h0, h1, h2⟩ := bits3 (b 0) (b 1) (b 2)
    exact ⟨a, ha, i, hi, by rw [h0, h1, h2]⟩

/-- Membership of the points along the edges. -/
theorem mem_edgePts (lo up : Nat → ℚ) (tol : ℚ) (n : Int) (p : List ℚ) :
    p ∈ edgePts lo up tol n ↔ ∃ ll : Nat, 1 ≤ ll ∧ (ll : Int) < n ∧ ∃ l < 3, ∃ a < 3, a ≠ l ∧ ∃ b : Nat → Bool,
      p.length = 3 ∧ ∀ j < 3, p[j]? = some (if j = l then 1 / (n : ℚ) * ll else BoxEnd lo up tol a (b j) j) := by
  unfold edgePts
  simp only [List.mem_flatMap, List.mem_map, List.mem_range, List.mem_range'_1, sidePt_boxEnd]
  constructor
  · rintro ⟨ll, hll, l, hl, j, hj, i, hi, rfl⟩
    refine ⟨ll, by omega, by omega, l, hl, (l + j + 1) % 3, by omega, by omega,
      fun m => bit i (2 ^ ((m + 3 - (l + 1)) % 3)), by simp, ?_⟩
    intro m hm
    simp [hm]
  · rintro ⟨ll, h1, h2, l, hl, a, ha, hal, b, hlen, hp⟩
    obtain ⟨i, hi, hb0, hb1⟩ := bits2 (b ((l + 1) % 3)) (b ((l + 2) % 3))
    refine ⟨ll, by omega, l, hl, (a + 3 - (l + 1)) % 3, by omega, i, hi, ?_⟩
    apply List.ext_getElem?
    intro m
    by_cases hm : m < 3
    · rw [hp m hm]
      simp only [List.getElem?_map, List.getElem?_range hm, Option.map_some]
      by_cases hml : m = l
      · simp [hml]
      · rw [if_neg hml, if_neg hml]
        have ea : (l + (a + 3 - (l + 1)) % 3 + 1) % 3 = a := by omega
        rw [ea]
        congr 2
        rcases (by omega : m = (l + 1) % 3 ∨ m = (l + 2) % 3) with h | h
        · have e : (m + 3 - (l + 1)) % 3 = 0 := by omega
          rw [e, h]; exact hb0
        · have e : (m + 3 - (l + 1)) % 3 = 1 := by omega
          rw [e, h]; exact hb1
    · rw [List.getElem?_eq_none (by simpa using hm), List.getElem?_eq_none (by omega)]

theorem mapM_ok {α β : Type} (f : α → Res β) (g : α → β) (l : List α) (h : ∀ x ∈ l, f x = .ok (g x)) :
    l.mapM (m := Except Fault) f = .ok (l.map g) := by
  induction l with
  | nil => rfl
  | cons a l ih =>
    rw [List.mapM_cons, h a (by simp), ih fun x hx => h x (by simp [hx])]
    rfl

theorem flatten_get {pts : List (List ℚ)} {k : Nat} (h : ∀ p ∈ pts, p.length = k) (i j : Nat) (hj : j < k)
    (hi : i < pts.length) : pts.flatten[i * k + j]? = (pts[i])[j]? := by
  induction pts generalizing i with
  | nil => simp at hi
  | cons p pts ih =>
    have hp : p.length = k := h p (by simp)
    cases i with
    | zero => simp [List.getElem?_append_left (by omega : j < p.length)]
    | succ i =>
      rw [List.flatten_cons, List.getElem?_append_right (by rw [hp, Nat.succ_mul]; omega)]
      have e : (i + 1) * k + j - p.length = i * k + j := by rw [hp, Nat.succ_mul]; omega
      rw [e, ih (fun q hq => h q (by simp [hq])) i (by simpa using hi)]
      rfl

theorem flatten_length {pts : List (List ℚ)} {k : Nat} (h : ∀ p ∈ pts, p.length = k) :
    pts.flatten.length = pts.length * k := by
  induction pts with
  | nil => simp
  | cons p pts ih =>
    rw [List.flatten_cons, List.length_append, h p (by simp), ih fun q hq => h q (by simp [hq]), List.length_cons,
      Nat.succ_mul]
    omega

theorem vecGet_nat {α : Type} (v : List α) (i : Nat) (x : α) (h : v[i]? = some x) : vecGet v (i : Int) = .ok x := by
  unfold vecGet
  simp [h]

theorem take3_of {p : List ℚ} (h : 3 ≤ p.length) :
    (List.range 3).mapM (m := Except Fault) (fun (j : Nat) => vecGet p (j : Int)) = .ok (p.take 3) := by
  match p, h with
  | a :: b :: c :: p, _ => rfl

end RSVS.PointGrid
