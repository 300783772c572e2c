import Mathlib.Tactic.Linarith
import Mathlib.Tactic.Ring
import Mathlib.Tactic.NormNum
import Mathlib.Tactic.Positivity
import Mathlib.Algebra.Order.AbsoluteValue.Basic
import Verif.Model.VelocityEngine
import Verif.Spec.VelocityEngine

/-! # C131: velocities of a snake without the RSVS -/

namespace RSVS.Props

open RSVS RSVS.Spec RSVS.VelEng

private def nameOf : Engine → String
  | .rsvs => "rsvs"
  | .slow => "random-slow"
  | .random => "random"
  | .unit => "unit"
  | .reflect => "unit-reflect"
  | .fast => "fast"

private theorem name_of_ok {s : String} {e : Engine} (h : engineOf s = .ok e) : s = nameOf e := by
  unfold engineOf at h
  split_ifs at h with h1 h2 h3 h4 h5 h6 <;> (injection h with h; subst h; assumption)

/-- The six names are accepted, each for another choice, and all others refused. -/
theorem C131_names :
    (∀ s, (∃ e, engineOf s = .ok e) ↔ s ∈ ["rsvs", "random-slow", "random", "unit", "unit-reflect", "fast"]) ∧
    (∀ s t e, engineOf s = .ok e → engineOf t = .ok e → s = t) ∧
    (∀ e, ∃ s, engineOf s = .ok e) ∧
    (∀ s, s ∉ ["rsvs", "random-slow", "random", "unit", "unit-reflect", "fast"] → engineOf s = .error .throws) := by
  refine ⟨fun s => ?_, fun s t e hs ht => ?_, fun e => ?_, fun s hs => ?_⟩
  · unfold engineOf
    simp only [List.mem_cons, List.not_mem_nil, or_false]
    split_ifs <;> simp_all
  · rw [name_of_ok hs, name_of_ok ht]
  · cases e
    · exact ⟨"rsvs", by decide⟩
    · exact ⟨"random-slow", by decide⟩
    · exact ⟨"random", by decide⟩
    · exact ⟨"unit", by decide⟩
    · exact ⟨"unit-reflect", by decide⟩
    · exact ⟨"fast", by decide⟩
  · simp only [List.mem_cons, List.not_mem_nil, or_false, not_or] at hs
    unfold engineOf
    simp [hs]

private theorem step_keeps (e : Engine) (r : Nat) (s : Snax) :
    (stepOf e r s).index = s.index ∧ (stepOf e r s).d = s.d := by
  by_cases h : s.isfreeze = 1 <;> cases e <;> simp [stepOf, toMiddle, h]

private theorem step_free (e : Engine) (he : e ≠ .rsvs) (r : Nat) (s : Snax) :
    (stepOf e r s).isfreeze = if s.isfreeze = 1 then 0 else s.isfreeze := by
  cases e <;> first | exact absurd rfl he | (simp only [stepOf, toMiddle]; split_ifs <;> simp_all)

/-- All snaxels keep their number and place; those frozen are released and no other flag changes. -/
theorem C131_released (e : Engine) (he : e ≠ .rsvs) (rand : Nat → Nat) (l : List Snax) :
    (velocities e rand l).map (fun s => (s.index, s.d)) = l.map (fun s => (s.index, s.d)) ∧
    (velocities e rand l).map (·.isfreeze) = l.map (fun s => if s.isfreeze = 1 then 0 else s.isfreeze) ∧
    ∀ s ∈ velocities e rand l, s.isfreeze ≠ 1 := by
  have h2 : (velocities e rand l).map (·.isfreeze) = l.map (fun s => if s.isfreeze = 1 then 0 else s.isfreeze) := by
    apply List.ext_getElem?
    intro i
    simp only [velocities, List.getElem?_map, List.getElem?_mapIdx]
    cases l[i]? with
    | none => rfl
    | some s => simp [step_free e he]
  refine ⟨?_, h2, fun s hs h1 => ?_⟩
  · apply List.ext_getElem?
    intro i
    simp only [velocities, List.getElem?_map, List.getElem?_mapIdx]
    cases l[i]? with
    | none => rfl
    | some s => simp [step_keeps e]
  · have : s.isfreeze ∈ (velocities e rand l).map (·.isfreeze) := List.mem_map_of_mem hs
    rw [h2, h1] at this
    obtain ⟨t, -, ht⟩ := List.mem_map.mp this
    split_ifs at ht with hf
    · exact absurd ht (by decide)
    · exact hf ht

private theorem rand_bound (r : Nat) : (0 : ℚ) ≤ ((r % 1001 : Nat) : ℚ) / 1000 ∧ ((r % 1001 : Nat) : ℚ) / 1000 ≤ 1 := by
  have : r % 1001 ≤ 1000 := by omega
  have h : ((r % 1001 : Nat) : ℚ) ≤ 1000 := by exact_mod_cast this
  exact ⟨by positivity, by linarith⟩

/-- The random choices send a frozen snax to the middle of its edge, with a speed of no more than 0.36 or 0.45 of its
distance from there. -/
theorem C131_middle {e : Engine} (rand : Nat → Nat) (l : List Snax) {i : Nat} {s t : Snax}
    (hs : l[i]? = some s) (ht : (velocities e rand l)[i]? = some t) (hf : s.isfreeze = 1) :
    (e = .slow → TowardsMiddle s.d t.v ∧ |t.v| ≤ 36 / 100 * |1 / 2 - s.d|) ∧
    (e = .random → TowardsMiddle s.d t.v ∧ |t.v| ≤ 45 / 100 * |1 / 2 - s.d|) := by
  simp only [velocities, List.getElem?_mapIdx, hs, Option.map_some, Option.some.injEq] at ht
  obtain ⟨h0, h1⟩ := rand_bound (rand i)
  have gen : ∀ c k : ℚ, 0 < c → c * (3 / 10) ≤ k → t.v = c * ((1 / 2 - s.d) * (3 / 10)) →
      TowardsMiddle s.d t.v ∧ |t.v| ≤ k * |1 / 2 - s.d| := by
    intro c k hc hk hv
    have hv' : t.v = (c * (3 / 10)) * (1 / 2 - s.d) := by rw [hv]; ring
    have hp : 0 < c * (3 / 10) := by positivity
    rw [hv']
    refine ⟨⟨fun h => by nlinarith, fun h => mul_pos hp (by linarith), fun h => by rw [h]; ring⟩, ?_⟩
    rw [abs_mul, abs_of_pos hp]
    exact mul_le_mul_of_nonneg_right hk (abs_nonneg _)
  constructor
  · rintro rfl
    refine gen (2 / 5 * (((rand i % 1001 : Nat) : ℚ) / 1000) + 4 / 5) _ (by positivity) (by linarith) ?_
    rw [← ht]
    simp [stepOf, toMiddle, hf]
  · rintro rfl
    refine gen (((rand i % 1001 : Nat) : ℚ) / 1000 + 1 / 2) _ (by positivity) (by linarith) ?_
    rw [← ht]
    simp [stepOf, toMiddle, hf]

/-- A snax which is not frozen: one for `unit`, four for `fast`, the same for `unit-reflect`; the random choices multiply
by a factor between 0.8 and 1.2 or between 0.5 and 1.5. -/
theorem C131_speed (rand : Nat → Nat) (l : List Snax) {e : Engine} {i : Nat} {s t : Snax}
    (hs : l[i]? = some s) (ht : (velocities e rand l)[i]? = some t) (hf : s.isfreeze ≠ 1) :
    (e = .unit → t.v = 1) ∧ (e = .fast → t.v = 4) ∧ (e = .reflect → t.v = s.v) ∧
    (e = .slow → ∃ f : ℚ, 8 / 10 ≤ f ∧ f ≤ 12 / 10 ∧ t.v = f * s.v) ∧
    (e = .random → ∃ f : ℚ, 5 / 10 ≤ f ∧ f ≤ 15 / 10 ∧ t.v = f * s.v) := by
  simp only [velocities, List.getElem?_mapIdx, hs, Option.map_some, Option.some.injEq] at ht
  obtain ⟨h0, h1⟩ := rand_bound (rand i)
  refine ⟨?_, ?_, ?_, ?_, ?_⟩ <;> rintro rfl <;> rw [← ht]
  · simp [stepOf, hf]
  · simp [stepOf]
  · simp [stepOf, hf]
  · exact ⟨2 / 5 * (((rand i % 1001 : Nat) : ℚ) / 1000) + 4 / 5, by linarith, by linarith, by simp [stepOf, toMiddle, hf]⟩
  · exact ⟨((rand i % 1001 : Nat) : ℚ) / 1000 + 1 / 2, by linarith, by linarith, by simp [stepOf, toMiddle, hf]⟩

/-- A snax frozen at the far end of its edge is not sent past it, unless the choice is `fast`.
Missing: `fast`, for which this is false (`C131_fast_violated`). -/
theorem C131_held_partial {e : Engine} (he : e ≠ .rsvs) (he' : e ≠ .fast) (rand : Nat → Nat) (l : List Snax) {i : Nat}
    {s t : Snax} (hs : l[i]? = some s) (ht : (velocities e rand l)[i]? = some t) (hf : s.isfreeze = 1)
    (hd : 1 ≤ s.d) (hv : 0 ≤ s.v) : t.v ≤ 0 := by
  have hm := C131_middle rand l hs ht hf
  simp only [velocities, List.getElem?_mapIdx, hs, Option.map_some, Option.some.injEq] at ht
  cases e with
  | rsvs => exact absurd rfl he
  | fast => exact absurd rfl he'
  | slow => exact le_of_lt ((hm.1 rfl).1.1 (by linarith))
  | random => exact le_of_lt ((hm.2 rfl).1.1 (by linarith))
  | unit => rw [← ht]; simp [stepOf, hf]
  | reflect =>
    rw [← ht]
    simp only [stepOf, hf, if_true]
    nlinarith

/-- `unit-reflect` turns a frozen snax back with a fifth of its speed, `unit` stops it. -/
theorem C131_reflect (rand : Nat → Nat) (l : List Snax) {e : Engine} {i : Nat} {s t : Snax}
    (hs : l[i]? = some s) (ht : (velocities e rand l)[i]? = some t) (hf : s.isfreeze = 1) :
    (e = .reflect → t.v = -s.v / 5) ∧ (e = .unit → t.v = 0) := by
  simp only [velocities, List.getElem?_mapIdx, hs, Option.map_some, Option.some.injEq] at ht
  constructor <;> rintro rfl <;> rw [← ht]
  · simp only [stepOf, hf, if_true]; ring
  · simp [stepOf, hf]

/-- `fast` sends a frozen snax on with its full speed: the velocity 0 given to it is overwritten. -/
theorem C131_fast_violated : ∃ (l : List Snax) (rand : Nat → Nat) (s t : Snax), l[0]? = some s ∧
    (velocities .fast rand l)[0]? = some t ∧ s.isfreeze = 1 ∧ s.d = 1 ∧ t.v = 4 ∧ t.isfreeze = 0 :=
  ⟨[⟨1, 1, 4, 1⟩], fun _ => 0, _, _, rfl, rfl, rfl, rfl, by norm_num [stepOf], by decide +kernel⟩

/-- A snax at rest never moves again with the random choices or `unit-reflect`, however often the velocities are computed. -/
theorem C131_rest {e : Engine} (he : e = .slow ∨ e = .random ∨ e = .reflect) (rand : Nat → Nat → Nat) (l : List Snax)
    (h : ∀ s ∈ l, s.v = 0 ∧ s.isfreeze ≠ 1) (n : Nat) :
    ∀ s ∈ (List.range n).foldl (fun l k => velocities e (rand k) l) l, s.v = 0 ∧ s.isfreeze ≠ 1 := by
  induction n with
  | zero => simpa using h
  | succ n ih =>
    rw [List.range_succ, List.foldl_append, List.foldl_cons, List.foldl_nil]
    intro t ht
    obtain ⟨i, hi⟩ := List.mem_iff_getElem?.mp ht
    have hr : e ≠ .rsvs := by rintro rfl; simp at he
    have hfree := (C131_released e hr (rand n) _).2.2 t ht
    refine ⟨?_, hfree⟩
    have hi' := hi
    simp only [velocities, List.getElem?_mapIdx, Option.map_eq_some_iff] at hi'
    obtain ⟨s, hs, -⟩ := hi'
    have hs0 := ih s (List.mem_of_getElem? hs)
    obtain ⟨-, -, c3, c4, c5⟩ := C131_speed (rand n) _ hs hi hs0.2
    rcases he with rfl | rfl | rfl
    · obtain ⟨f, -, -, hf⟩ := c4 rfl; rw [hf, hs0.1, mul_zero]
    · obtain ⟨f, -, -, hf⟩ := c5 rfl; rw [hf, hs0.1, mul_zero]
    · rw [c3 rfl, hs0.1]

/-- Afterwards all velocities are finite; finite ones stay; others go towards the middle of the edge; their number is printed. -/
theorem C131_finite {delta : ℚ} (hd : 0 < delta) (l : List SnaxF) :
    (∀ s ∈ (noNan delta l).1, s.v.isSome = true) ∧
    (noNan delta l).1.map (fun s => (s.index, s.d)) = l.map (fun s => (s.index, s.d)) ∧
    (∀ (i : Nat) (s : SnaxF) (v : ℚ), l[i]? = some s → s.v = some v → (noNan delta l).1[i]? = some s) ∧
    (∀ (i : Nat) (s : SnaxF), l[i]? = some s → s.v = none → ∃ (t : SnaxF) (v : ℚ), (noNan delta l).1[i]? = some t ∧ t.v = some v ∧
      TowardsMiddle s.d v ∧ |v| = delta * |1 / 2 - s.d|) ∧
    (noNan delta l).2 = (l.filter fun s => s.v.isNone).length := by
  refine ⟨?_, ?_, ?_, ?_, ?_⟩
  · intro s hs
    obtain ⟨t, -, rfl⟩ := List.mem_map.mp hs
    cases h : t.v <;> simp [h]
  · simp only [noNan, List.map_map]
    apply List.map_congr_left
    intro s _
    simp only [Function.comp_def]
    cases s.v <;> rfl
  · intro i s v hs hv
    simp [noNan, hs, hv]
  · intro i s hs hv
    refine ⟨{ s with v := some ((1 / 2 - s.d) * delta) }, (1 / 2 - s.d) * delta, by
      simp only [noNan, List.getElem?_map, hs, Option.map_some, hv], rfl, ⟨fun h => by nlinarith,
      fun h => mul_pos (by linarith) hd, fun h => by rw [h]; ring⟩, ?_⟩
    rw [abs_mul, abs_of_pos hd, mul_comm]
  · simp [noNan, List.countP_eq_length_filter]

/-- A frozen snax at the end of its edge and a free one. -/
example : ∃ l : List Snax, l[0]? = some ⟨1, 1, 1, 1⟩ ∧ (velocities .random (fun _ => 500) l) = [⟨1, 1, -3 / 20, 0⟩, ⟨2, 1 / 3, 2, 0⟩] :=
  ⟨[⟨1, 1, 1, 1⟩, ⟨2, 1 / 3, 2, 0⟩], rfl, by decide +kernel⟩

example : noNan (1 / 100) [⟨1, 1, none⟩, ⟨2, 0, some 3⟩] = ([⟨1, 1, some (-1 / 200)⟩, ⟨2, 0, some 3⟩], 1) := by
  decide +kernel

end RSVS.Props
