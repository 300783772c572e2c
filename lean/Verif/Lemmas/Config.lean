import Verif.Spec.Config
import Mathlib.Data.List.Basic
import Mathlib.Tactic.Common

/-!
# Lines and templates
-/

namespace RSVS.Config

open RSVS.Spec RSVS.Text

/-- `getline` takes off the first line. -/
theorem getline_spec (s : Str) :
    '\n' ∉ (getline s).1 ∧
    (((getline s).2.2 = true ∧ s = (getline s).1 ∧ (getline s).2.1 = []) ∨
     ((getline s).2.2 = false ∧ s = (getline s).1 ++ '\n' :: (getline s).2.1)) := by
  induction s with
  | nil => exact ⟨by simp [getline], Or.inl ⟨rfl, rfl, rfl⟩⟩
  | cons c s ih =>
    by_cases hc : c = '\n'
    · subst hc
      exact ⟨by simp [getline], Or.inr ⟨rfl, rfl⟩⟩
    · have h1 : getline (c :: s) = (c :: (getline s).1, (getline s).2.1, (getline s).2.2) := by
        rw [getline]
        intro h; exact hc h
      rw [h1]
      refine ⟨?_, ?_⟩
      · intro h
        rcases List.mem_cons.mp h with h | h
        · exact hc h.symm
        · exact ih.1 h
      · rcases ih.2 with ⟨h2, h3, h4⟩ | ⟨h2, h3⟩
        · exact Or.inl ⟨h2, by show c :: s = c :: (getline s).1; rw [← h3], h4⟩
        · refine Or.inr ⟨h2, ?_⟩
          show c :: s = c :: (getline s).1 ++ '\n' :: (getline s).2.1
          rw [List.cons_append, ← h3]

/-- `find` returns the first occurrence. -/
theorem findBefore_some {m s a : Str} (h : FirstAt m s a) : findBefore m s = some a := by
  induction s generalizing a with
  | nil =>
    obtain ⟨⟨b, hb⟩, _⟩ := h
    have h1 := List.append_eq_nil_iff.mp hb.symm
    have h2 := List.append_eq_nil_iff.mp h1.1
    rw [findBefore, if_pos h2.2, h2.1]
  | cons c s ih =>
    obtain ⟨⟨b, hb⟩, hmin⟩ := h
    rw [findBefore]
    by_cases hp : m.isPrefixOf (c :: s) = true
    · rw [if_pos hp]
      obtain ⟨t, ht⟩ := List.isPrefixOf_iff_prefix.mp hp
      have h0 := hmin [] ⟨t, by rw [List.nil_append, ht]⟩
      have : a = [] := List.length_eq_zero_iff.mp (Nat.le_zero.mp h0)
      rw [this]
    · rw [if_neg hp]
      cases a with
      | nil =>
        exact absurd (List.isPrefixOf_iff_prefix.mpr ⟨b, by rw [hb, List.nil_append]⟩) hp
      | cons c' a =>
        rw [List.cons_append, List.cons_append] at hb
        obtain ⟨rfl, hs⟩ := List.cons.inj hb
        have := ih (a := a) ⟨⟨b, hs⟩, ?_⟩
        · rw [this]; rfl
        · intro a' ⟨b', hb'⟩
          have := hmin (c :: a') ⟨b', by rw [hb']; rfl⟩
          simpa using this

theorem findBefore_none {m s : Str} (h : ∀ a, ¬ Occurs m s a) : findBefore m s = none := by
  induction s with
  | nil =>
    rw [findBefore, if_neg]
    intro hm
    exact h [] ⟨[], by rw [hm]; rfl⟩
  | cons c s ih =>
    rw [findBefore, if_neg, ih]
    · rfl
    · intro a ⟨b, hb⟩
      exact h (c :: a) ⟨b, by rw [hb]; rfl⟩
    · intro hp
      obtain ⟨t, ht⟩ := List.isPrefixOf_iff_prefix.mp hp
      exact h [] ⟨t, by rw [List.nil_append, ht]⟩

/-- Two ways to cut a text at its first new line. -/
theorem cut_unique {l l' r r' : Str} (h : l ++ '\n' :: r = l' ++ '\n' :: r') (hl : '\n' ∉ l)
    (hl' : '\n' ∉ l') : l = l' ∧ r = r' := by
  induction l generalizing l' with
  | nil =>
    cases l' with
    | nil => exact ⟨rfl, (List.cons.inj h).2⟩
    | cons c l' =>
      exfalso; apply hl'
      rw [List.nil_append, List.cons_append] at h
      rw [← (List.cons.inj h).1]; simp
  | cons c l ih =>
    cases l' with
    | nil =>
      exfalso; apply hl
      rw [List.nil_append, List.cons_append] at h
      rw [(List.cons.inj h).1]; simp
    | cons c' l' =>
      rw [List.cons_append, List.cons_append] at h
      obtain ⟨h1, h2⟩ := List.cons.inj h
      obtain ⟨h3, h4⟩ := ih h2 (fun h => hl (by simp [h])) (fun h => hl' (by simp [h]))
      exact ⟨by rw [h1, h3], h4⟩

/-- A text with a new line is cut at the first one. -/
theorem cut_exists {a : Str} (h : '\n' ∈ a) : ∃ l r, a = l ++ '\n' :: r ∧ '\n' ∉ l := by
  induction a with
  | nil => cases h
  | cons c a ih =>
    by_cases hc : c = '\n'
    · exact ⟨[], a, by rw [hc]; rfl, by simp⟩
    · rcases List.mem_cons.mp h with h | h
      · exact absurd h.symm hc
      · obtain ⟨l, r, h1, h2⟩ := ih h
        refine ⟨c :: l, r, by rw [h1]; rfl, ?_⟩
        intro hm
        rcases List.mem_cons.mp hm with h3 | h3
        · exact hc h3.symm
        · exact h2 h3

/-- The template with the marker. -/
theorem writeModified_found {m new : Str} (hm : '\n' ∉ m) (fuel : Nat) {s a c rest : Str}
    (hfuel : s.length < fuel) (hs : s = a ++ m ++ c ++ rest) (hfirst : FirstAt m s a)
    (hc : '\n' ∉ c) (hrest : ∀ x r, rest = x :: r → x = '\n') :
    writeModified m new fuel s = .ok (a ++ new ++ if rest = [] then ['\n'] else rest) := by
  induction fuel generalizing s a with
  | zero => omega
  | succ fuel ih =>
    obtain ⟨hl, hcut⟩ := getline_spec s
    show (match findBefore m (getline s).1 with
      | some pre => _ | none => _) = _
    by_cases ha : '\n' ∈ a
    · -- the marker is on a later line
      obtain ⟨l, r, h1, h2⟩ := cut_exists ha
      have hs' : s = l ++ '\n' :: (r ++ m ++ c ++ rest) := by
        rw [hs, h1]; simp
      rcases hcut with ⟨_, h4, _⟩ | ⟨h3, h4⟩
      · exfalso; apply hl; rw [← h4, hs']; simp
      · obtain ⟨h5, h6⟩ := cut_unique (hs'.symm.trans h4) h2 hl
        rw [← h5, h3, ← h6]
        rw [findBefore_none]
        · show (writeModified m new fuel (r ++ m ++ c ++ rest)).map _ = _
          rw [ih (s := r ++ m ++ c ++ rest) (a := r) _ rfl]
          · show Except.ok _ = _
            rw [h1]; simp
          · refine ⟨⟨c ++ rest, by simp⟩, ?_⟩
            intro a' ⟨b', hb'⟩
            have := hfirst.2 (l ++ '\n' :: a') ⟨b', by rw [hs', hb']; simp⟩
            rw [h1] at this
            simp at this
            omega
          · rw [hs'] at hfuel
            simp at hfuel ⊢
            omega
        · intro a' ⟨b', hb'⟩
          have := hfirst.2 a' ⟨b' ++ '\n' :: (r ++ m ++ c ++ rest), by rw [hs', hb']; simp⟩
          have h7 := congrArg List.length hb'
          rw [h1] at this
          simp at this h7
          omega
    · -- the marker is on the first line
      have hline : (getline s).1 = a ++ m ++ c ∧
          (getline s).2.1 = rest.drop 1 ∧ ((getline s).2.2 = true → rest = []) := by
        have hnl : '\n' ∉ a ++ m ++ c := by
          simp only [List.mem_append]
          rintro ((h | h) | h)
          · exact ha h
          · exact hm h
          · exact hc h
        cases rest with
        | nil =>
          rw [List.append_nil] at hs
          rcases hcut with ⟨_, h4, h5⟩ | ⟨_, h4⟩
          · exact ⟨by rw [← h4, hs], by rw [h5]; rfl, fun _ => rfl⟩
          · exfalso; apply hnl; rw [← hs, h4]; simp
        | cons x r =>
          have hx := hrest x r rfl
          subst hx
          rcases hcut with ⟨_, h4, _⟩ | ⟨h3, h4⟩
          · exfalso; apply hl; rw [← h4, hs]; simp
          · obtain ⟨h5, h6⟩ := cut_unique (hs.symm.trans h4) hnl hl
            exact ⟨h5.symm, h6.symm, fun h => by rw [h3] at h; cases h⟩
      have hfind : findBefore m (getline s).1 = some a := by
        apply findBefore_some
        refine ⟨⟨c, hline.1⟩, ?_⟩
        intro a' ⟨b', hb'⟩
        apply hfirst.2
        rw [hs, ← hline.1, hb']
        exact ⟨b' ++ rest, by simp⟩
      rw [hfind]
      show Except.ok (a ++ new ++ ['\n'] ++ (getline s).2.1) = _
      rw [hline.2.1]
      cases rest with
      | nil => simp
      | cons x r =>
        have hx := hrest x r rfl
        subst hx
        simp

/-- The template without the marker. -/
theorem writeModified_none {m new : Str} (fuel : Nat) {s : Str}
    (hfuel : s.length < fuel) (h : ∀ a, ¬ Occurs m s a) :
    writeModified m new fuel s = .ok (s ++ ['\n']) := by
  induction fuel generalizing s with
  | zero => omega
  | succ fuel ih =>
    obtain ⟨hl, hcut⟩ := getline_spec s
    have hnone : findBefore m (getline s).1 = none := by
      apply findBefore_none
      intro a' ⟨b', hb'⟩
      rcases hcut with ⟨_, h4, _⟩ | ⟨_, h4⟩
      · exact h a' ⟨b', by rw [h4]; exact hb'⟩
      · refine h a' ⟨b' ++ '\n' :: (getline s).2.1, ?_⟩
        rw [hb'] at h4
        rw [← List.append_assoc]
        exact h4
    show (match findBefore m (getline s).1 with
      | some pre => _ | none => _) = _
    rw [hnone]
    rcases hcut with ⟨h3, h4, _⟩ | ⟨h3, h4⟩
    · show (if (getline s).2.2 then _ else _) = _
      rw [if_pos h3, ← h4]
    · show (if (getline s).2.2 then _ else _) = _
      rw [if_neg (by rw [h3]; simp)]
      have hlen := congrArg List.length h4
      simp at hlen
      rw [ih (s := (getline s).2.1) (by omega)]
      · show Except.ok ((getline s).1 ++ ['\n'] ++ ((getline s).2.1 ++ ['\n'])) = _
        conv_rhs => rw [h4]
        simp
      · intro a' ⟨b', hb'⟩
        apply h ((getline s).1 ++ '\n' :: a')
        refine ⟨b', ?_⟩
        conv_lhs => rw [h4, hb']
        simp

end RSVS.Config
