import Verif.Lemmas.Json
import Verif.Lemmas.Mesh

/-!
# Building trees from their leaves
-/

namespace RSVS.Json

open RSVS RSVS.Text RSVS.Spec

variable {V : Type}

theorem look_nil (j : J V) : look [] j = some (kind j) := rfl

theorem look_cons (t : Str) (p : Path) (j : J V) : look (t :: p) j = (child t j).bind (look p) := by
  unfold look
  rw [part_cons]
  cases child t j <;> rfl

theorem look_append (p q : Path) (j : J V) : look (p ++ q) j = (part p j).bind (look q) := by
  unfold look
  rw [part_append]
  cases part p j <;> rfl

theorem part_leaf {p : Path} {v : Option V} (hp : p ≠ []) : part p (J.leaf v) = none := by
  cases p with
  | nil => exact absurd rfl hp
  | cons t p => rw [part_cons]; rfl

theorem look_leaf {p : Path} {v : Option V} (hp : p ≠ []) : look p (J.leaf v) = none := by
  unfold look; rw [part_leaf hp]; rfl

theorem kind_leaf {j : J V} {v : Option V} (h : kind j = .leaf v) : j = .leaf v := by
  cases j with
  | leaf w => cases h; rfl
  | arr l => cases h
  | obj l => cases h

theorem setAt_cons_ok {t : Str} {ts : Path} {v : Option V} {j j' : J V}
    (h : setAt (t :: ts) v j = .ok j') :
    ∃ x, setAt ts v ((child t j).getD .null) = .ok x ∧ setChild t x j = .ok j' := bind_ok_iff.mp h

/-- The value is set. -/
theorem part_setAt {p : Path} {v : Option V} {j j' : J V} (h : setAt p v j = .ok j') :
    part p j' = some (.leaf v) := by
  induction p generalizing j j' with
  | nil => rw [← Except.ok.inj h]; rfl
  | cons t ts ih =>
    obtain ⟨x, hx, h⟩ := setAt_cons_ok h
    rw [part_cons, child_setChild h]
    exact ih hx

/-- Nothing stands under the value. -/
theorem look_setAt_below {p s : Path} {v : Option V} {j j' : J V} (h : setAt p v j = .ok j')
    (hs : s ≠ []) : look (p ++ s) j' = none := by
  rw [look_append, part_setAt h]
  exact look_leaf hs

/-- What stands above the value. -/
theorem look_setAt_above {q : Path} {t : Str} {s : Path} {v : Option V} {j j' : J V}
    (h : setAt (q ++ t :: s) v j = .ok j') :
    (look q j = some .arr ∧ look q j' = some .arr) ∨
    (look q j = some .obj ∧ look q j' = some .obj) ∨
    ((look q j = none ∨ look q j = some (.leaf none)) ∧
      ((t = ['0'] ∧ look q j' = some .arr) ∨ (t ≠ ['0'] ∧ look q j' = some .obj))) := by
  induction q generalizing j j' with
  | nil =>
    obtain ⟨x, hx, h⟩ := setAt_cons_ok h
    simp only [look_nil]
    rcases kind_setChild h with ⟨h1, h2⟩ | ⟨h1, h2⟩ | ⟨h1, h2, h3⟩ | ⟨h1, h2, h3⟩
    · left; rw [h1, h2]; exact ⟨rfl, rfl⟩
    · right; left; rw [h1, h2]; exact ⟨rfl, rfl⟩
    · right; right; rw [h1, h3]; exact ⟨Or.inr rfl, Or.inl ⟨h2, rfl⟩⟩
    · right; right; rw [h1, h3]; exact ⟨Or.inr rfl, Or.inr ⟨h2, rfl⟩⟩
  | cons u q ih =>
    obtain ⟨x, hx, h⟩ := setAt_cons_ok h
    simp only [look_cons]
    rw [child_setChild h]
    cases hc : child u j with
    | some y =>
      rw [hc] at hx
      exact ih hx
    | none =>
      rw [hc] at hx
      rcases ih hx with ⟨h1, h2⟩ | ⟨h1, h2⟩ | ⟨_, h2⟩
      · exfalso
        cases q with
        | nil => cases h1
        | cons a q => rw [Option.getD_none, look_leaf (by simp)] at h1; cases h1
      · exfalso
        cases q with
        | nil => cases h1
        | cons a q => rw [Option.getD_none, look_leaf (by simp)] at h1; cases h1
      · exact Or.inr (Or.inr ⟨Or.inl rfl, h2⟩)

/-- What stands beside the value. -/
theorem look_setAt_beside {p q : Path} {v : Option V} {j j' : J V} (h : setAt p v j = .ok j')
    (h1 : ¬ q <+: p) (h2 : ¬ p <+: q) :
    look q j' = look q j ∨
    (look q j = none ∧ look q j' = some (.leaf none) ∧ ∃ q0 i i', q = q0 ++ [dec i] ∧ i < i' ∧
      q0 ++ [dec i'] <+: p ∧ look q0 j' = some .arr) := by
  induction p generalizing q j j' with
  | nil => exact absurd List.nil_prefix h2
  | cons t ts ih =>
    cases q with
    | nil => exact absurd List.nil_prefix h1
    | cons t' q =>
      obtain ⟨x, hx, h⟩ := setAt_cons_ok h
      by_cases ht : t' = t
      · subst ht
        have h1' : ¬ q <+: ts := fun hh => h1 (List.cons_prefix_cons.mpr ⟨rfl, hh⟩)
        have h2' : ¬ ts <+: q := fun hh => h2 (List.cons_prefix_cons.mpr ⟨rfl, hh⟩)
        simp only [look_cons]
        rw [child_setChild h]
        have key : ∀ y : J V, (child t' j).bind (look q) = look q y →
            setAt ts v y = .ok x →
            (some x).bind (look q) = (child t' j).bind (look q) ∨
            ((child t' j).bind (look q) = none ∧ (some x).bind (look q) = some (.leaf none) ∧
              ∃ q0 i i', t' :: q = q0 ++ [dec i] ∧ i < i' ∧ q0 ++ [dec i'] <+: t' :: ts ∧
                look q0 j' = some .arr) := by
          intro y hy hxy
          rcases ih hxy h1' h2' with h3 | ⟨h3, h4, q0, i, i', h5, h6, h7, h8⟩
          · left; rw [hy]; exact h3
          · right
            refine ⟨by rw [hy]; exact h3, h4, t' :: q0, i, i', by rw [h5]; rfl, h6, ?_, ?_⟩
            · exact List.cons_prefix_cons.mpr ⟨rfl, h7⟩
            · rw [look_cons, child_setChild h]; exact h8
        cases hc : child t' j with
        | some y =>
          rw [hc] at hx
          rw [hc] at key
          exact key y rfl hx
        | none =>
          rw [hc] at hx
          rw [hc] at key
          refine key .null ?_ hx
          rw [look_leaf]
          · rfl
          · rintro rfl; exact h1' List.nil_prefix
      · simp only [look_cons]
        rcases child_setChild_ne h ht with h3 | ⟨h3, h4, h5, i, i', h6, h7, h8⟩
        · left; rw [h3]
        · rw [h3, h4]
          cases q with
          | nil =>
            right
            refine ⟨rfl, rfl, [], i, i', by rw [h6]; rfl, h8, ?_, by rw [look_nil, h5]⟩
            rw [h7]
            exact List.cons_prefix_cons.mpr ⟨rfl, List.nil_prefix⟩
          | cons a q =>
            left
            exact look_leaf (by simp)

/-- When a value can be set. -/
theorem setAt_ok {p : Path} (v : Option V) {j : J V}
    (h : ∀ q t s, p = q ++ t :: s → look q j = none ∨ look q j = some (.leaf none) ∨
      look q j = some .obj ∨ (look q j = some .arr ∧ (idx t).isSome)) :
    ∃ j', setAt p v j = .ok j' := by
  induction p generalizing j with
  | nil => exact ⟨_, rfl⟩
  | cons t ts ih =>
    have h0 := h [] t ts rfl
    have hx : ∃ x, setAt ts v ((child t j).getD .null) = .ok x := by
      apply ih
      intro q u s hq
      have h1 := h (t :: q) u s (by rw [hq]; rfl)
      rw [look_cons] at h1
      cases hc : child t j with
      | some y => rw [hc] at h1; exact h1
      | none =>
        cases q with
        | nil => exact Or.inr (Or.inl rfl)
        | cons a q => exact Or.inl (look_leaf (by simp))
    obtain ⟨x, hx⟩ := hx
    have hs : ∃ j', setChild t x j = .ok j' := by
      apply setChild_ok
      simp only [look_nil] at h0
      rcases h0 with h0 | h0 | h0 | ⟨h0, h0'⟩
      · cases h0
      · exact Or.inl (kind_leaf (Option.some.inj h0))
      · exact Or.inr (Or.inl (Option.some.inj h0))
      · exact Or.inr (Or.inr ⟨Option.some.inj h0, h0'⟩)
    obtain ⟨j', hj⟩ := hs
    refine ⟨j', ?_⟩
    show (setAt ts v ((child t j).getD .null)).bind _ = _
    rw [hx]
    exact hj

theorem proper_child {j x : J V} (h : Proper j) {t : Str} (hx : child t j = some x) : Proper x := by
  intro p l hp
  apply h (t :: p) l
  rw [part_cons, hx]; exact hp

theorem proper_leaf (v : Option V) : Proper (.leaf v) := by
  intro p l h
  cases p with
  | nil => cases h
  | cons t p => rw [part_leaf (by simp)] at h; cases h

/-- The members keep different names. -/
theorem proper_setAt {p : Path} {v : Option V} {j j' : J V} (hj : Proper j)
    (h : setAt p v j = .ok j') : Proper j' := by
  induction p generalizing j j' with
  | nil => rw [← Except.ok.inj h]; exact proper_leaf v
  | cons t ts ih =>
    obtain ⟨x, hx, h⟩ := setAt_cons_ok h
    have hpx : Proper x := by
      apply ih _ hx
      cases hc : Json.child t j with
      | none => exact proper_leaf none
      | some y => exact proper_child hj hc
    intro q l hq
    cases q with
    | nil =>
      have hq' : j' = .obj l := Option.some.inj hq
      subst hq'
      cases j with
      | leaf v =>
        cases v with
        | none =>
          rw [setChild] at h
          split at h
          · cases h
          · have := Except.ok.inj h
            injection this with this
            rw [← this]; simp
        | some v => cases h
      | arr l' =>
        rw [setChild] at h
        split at h <;> cases h
      | obj l' =>
        have := Except.ok.inj h
        injection this with this
        rw [← this]
        exact put_nodup (hj [] l' rfl)
    | cons u q =>
      rw [part_cons] at hq
      by_cases hu : u = t
      · subst hu
        rw [child_setChild h] at hq
        exact hpx q l hq
      · rcases child_setChild_ne h hu with h1 | ⟨_, h1, _⟩
        · rw [h1] at hq
          apply hj (u :: q) l
          rw [part_cons]; exact hq
        · rw [h1] at hq
          exact proper_leaf none q l hq

end RSVS.Json
