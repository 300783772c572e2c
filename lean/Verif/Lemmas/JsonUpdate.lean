import Verif.Lemmas.JsonFlat

/-!
# Unflattening a part of the leaves of a configuration
-/

namespace RSVS.Json

open RSVS RSVS.Text RSVS.Spec

variable {V : Type}

/-- The tree `r` is made of the leaves `S`, which are leaves of `T` with other values.  With
`full` the leaves contain the first element of each array. -/
structure Inv (full : Prop) (T : J V) (S : List (Path × Option V)) (r : J V) : Prop where
  leaves : ∀ e ∈ S, part e.1 r = some (.leaf e.2)
  above : ∀ e ∈ S, ∀ q t s, e.1 = q ++ t :: s →
    look q r = some .obj ∨ (look q r = some .arr ∧ look q T = some .arr)
  same : full → ∀ e ∈ S, ∀ q t s, e.1 = q ++ t :: s → look q r = look q T
  rest : ∀ q, q ≠ [] → look q r ≠ none → (∃ e ∈ S, q <+: e.1) ∨
    (look q r = some (.leaf none) ∧ ∃ q0 i i', ∃ e ∈ S, q = q0 ++ [dec i] ∧ i < i' ∧
      q0 ++ [dec i'] <+: e.1 ∧ look q0 r = some .arr)
  start : S = [] → r = .null
  proper : Proper r

theorem Inv.nil (full : Prop) (T : J V) : Inv full T [] .null where
  leaves := by simp
  above := by simp
  same := by simp
  rest := by
    intro q hq h
    exact absurd (look_leaf hq) h
  start := fun _ => rfl
  proper := proper_leaf none

theorem prefix_cases {p q : Path} (h : q <+: p) : q = p ∨ ∃ t s, p = q ++ t :: s := by
  obtain ⟨s, rfl⟩ := h
  cases s with
  | nil => left; simp
  | cons t s => exact Or.inr ⟨t, s, rfl⟩

theorem look_eq_leaf {j : J V} {p : Path} {v : Option V} :
    look p j = some (.leaf v) ↔ part p j = some (.leaf v) := by
  unfold look
  cases h : part p j with
  | none => simp
  | some x =>
    simp only [Option.map_some, Option.some.injEq]
    exact ⟨kind_leaf, fun h => by rw [h]; rfl⟩

/-- What stands in `r` above a further leaf. -/
theorem Inv.between {full : Prop} {T r : J V} {S : List (Path × Option V)} (I : Inv full T S r)
    (hS : ∀ e ∈ S, ∃ w, part e.1 T = some (.leaf w)) {p : Path} {w : Option V}
    (hp : part p T = some (.leaf w)) {q : Path} {t : Str} {s : Path} (hq : p = q ++ t :: s) :
    look q r = none ∨ look q r = some (.leaf none) ∨
      ∃ e ∈ S, ∃ t' s', e.1 = q ++ t' :: s' := by
  have hstrict : ∀ e ∈ S, q <+: e.1 → ∃ t' s', e.1 = q ++ t' :: s' := by
    intro e he hpre
    rcases prefix_cases hpre with h | h
    · exfalso
      obtain ⟨w', hw'⟩ := hS e he
      have := leaf_prefix hw' hp (by rw [← h, hq]; exact List.prefix_append _ _)
      rw [← h, hq] at this
      have := congrArg List.length this
      simp at this
    · exact h
  by_cases h0 : q = []
  · subst h0
    cases hSe : S with
    | nil =>
      right; left
      rw [I.start hSe]; rfl
    | cons e S' =>
      right; right
      obtain ⟨t', s', h⟩ := hstrict e (by rw [hSe]; simp) List.nil_prefix
      exact ⟨e, by simp, t', s', h⟩
  · by_cases hn : look q r = none
    · exact Or.inl hn
    · rcases I.rest q h0 hn with ⟨e, he, hpre⟩ | ⟨h, _⟩
      · obtain ⟨t', s', h⟩ := hstrict e he hpre
        exact Or.inr (Or.inr ⟨e, he, t', s', h⟩)
      · exact Or.inr (Or.inl h)

/-- A further leaf. -/
theorem Inv.add {full : Prop} {T r : J V} {S : List (Path × Option V)} (I : Inv full T S r)
    (hz : NoZero T) (hS : ∀ e ∈ S, ∃ w, part e.1 T = some (.leaf w)) {p : Path} {w : Option V}
    (v : Option V) (hp : part p T = some (.leaf w)) (hnew : ∀ e ∈ S, e.1 ≠ p)
    (hfirst : full → ∀ q t s, p = q ++ t :: s → look q T = some .arr → t ≠ ['0'] →
      ∃ e ∈ S, ∃ s', e.1 = q ++ ['0'] :: s') :
    ∃ r', setAt p v r = .ok r' ∧ Inv full T (S ++ [(p, v)]) r' := by
  -- what is there above the leaf
  have habove : ∀ q t s, p = q ++ t :: s → look q r = none ∨ look q r = some (.leaf none) ∨
      look q r = some .obj ∨ (look q r = some .arr ∧ look q T = some .arr) := by
    intro q t s hq
    rcases I.between hS hp hq with h | h | ⟨e, he, t', s', h⟩
    · exact Or.inl h
    · exact Or.inr (Or.inl h)
    · exact Or.inr (Or.inr (I.above e he q t' s' h))
  have hT : ∀ q t s, p = q ++ t :: s →
      (look q T = some .arr ∧ ∃ n, t = dec n) ∨ (look q T = some .obj ∧ t ≠ ['0']) := by
    intro q t s hq
    exact above_cases (by rw [← hq]; exact hp) hz
  obtain ⟨r', hr'⟩ := setAt_ok (p := p) v (j := r) (by
    intro q t s hq
    rcases habove q t s hq with h | h | h | ⟨h, h'⟩
    · exact Or.inl h
    · exact Or.inr (Or.inl h)
    · exact Or.inr (Or.inr (Or.inl h))
    · refine Or.inr (Or.inr (Or.inr ⟨h, ?_⟩))
      rcases hT q t s hq with ⟨_, n, hn⟩ | ⟨h1, _⟩
      · rw [hn, idx_dec]; rfl
      · rw [h1] at h'; cases h')
  -- an older leaf is neither above nor below
  have hapart : ∀ e ∈ S, ¬ e.1 <+: p ∧ ¬ p <+: e.1 := by
    intro e he
    obtain ⟨w', hw'⟩ := hS e he
    exact ⟨fun h => hnew e he (leaf_prefix hw' hp h),
      fun h => hnew e he (leaf_prefix hp hw' h).symm⟩
  -- places above an older leaf
  have hold : ∀ e ∈ S, ∀ q t s, e.1 = q ++ t :: s → look q r' = look q r := by
    intro e he q t s hq
    by_cases h1 : q <+: p
    · rcases prefix_cases h1 with h | ⟨t', s', h⟩
      · exact absurd (by rw [← h, hq]; exact List.prefix_append _ _) (hapart e he).2
      · rw [h] at hr'
        rcases look_setAt_above hr' with ⟨h2, h3⟩ | ⟨h2, h3⟩ | ⟨h2, _⟩
        · rw [h2, h3]
        · rw [h2, h3]
        · rcases I.above e he q t s hq with h4 | ⟨h4, _⟩ <;> rw [h4] at h2 <;>
            rcases h2 with h2 | h2 <;> cases h2
    · by_cases h2 : p <+: q
      · exfalso
        apply (hapart e he).2
        exact h2.trans (by rw [hq]; exact List.prefix_append _ _)
      · rcases look_setAt_beside hr' h1 h2 with h3 | ⟨h3, _⟩
        · exact h3
        · rcases I.above e he q t s hq with h4 | ⟨h4, _⟩ <;> rw [h4] at h3 <;> cases h3
  -- places above the new leaf
  have hnewabove : ∀ q t s, p = q ++ t :: s →
      (look q r' = some .obj ∨ (look q r' = some .arr ∧ look q T = some .arr)) ∧
      (full → look q r' = look q T) := by
    intro q t s hq
    have hr'' := hr'
    rw [hq] at hr''
    rcases look_setAt_above hr'' with ⟨h2, h3⟩ | ⟨h2, h3⟩ | ⟨h2, h3⟩
    · have hTa : look q T = some .arr := by
        rcases habove q t s hq with h | h | h | ⟨h, h'⟩
        · rw [h2] at h; cases h
        · rw [h2] at h; cases h
        · rw [h2] at h; cases h
        · exact h'
      exact ⟨Or.inr ⟨h3, hTa⟩, fun _ => by rw [h3, hTa]⟩
    · refine ⟨Or.inl h3, fun hf => ?_⟩
      rcases I.between hS hp hq with h | h | ⟨e, he, t', s', h⟩
      · rw [h2] at h; cases h
      · rw [h2] at h; cases h
      · rw [h3, ← h2]; exact I.same hf e he q t' s' h
    · rcases h3 with ⟨h3, h4⟩ | ⟨h3, h4⟩
      · rcases hT q t s hq with ⟨h5, _⟩ | ⟨_, h5⟩
        · exact ⟨Or.inr ⟨h4, h5⟩, fun _ => by rw [h4, h5]⟩
        · exact absurd h3 h5
      · refine ⟨Or.inl h4, fun hf => ?_⟩
        rcases hT q t s hq with ⟨h5, _⟩ | ⟨h5, _⟩
        · exfalso
          obtain ⟨e, he, s', hs'⟩ := hfirst hf q t s hq h5 h3
          have := I.same hf e he q _ s' hs'
          rw [h5] at this
          rw [this] at h2
          rcases h2 with h2 | h2 <;> cases h2
        · rw [h4, h5]
  refine ⟨r', hr', ?_, ?_, ?_, ?_, ?_, ?_⟩
  · intro e he
    rcases List.mem_append.mp he with he | he
    · rcases look_setAt_beside hr' (hapart e he).1 (hapart e he).2 with h | ⟨h, _⟩
      · rw [← look_eq_leaf, h, look_eq_leaf]; exact I.leaves e he
      · rw [look_eq_leaf.mpr (I.leaves e he)] at h; cases h
    · have := List.mem_singleton.mp he
      subst this
      exact part_setAt hr'
  · intro e he q t s hq
    rcases List.mem_append.mp he with he | he
    · rw [hold e he q t s hq]; exact I.above e he q t s hq
    · have := List.mem_singleton.mp he
      subst this
      exact (hnewabove q t s hq).1
  · intro hf e he q t s hq
    rcases List.mem_append.mp he with he | he
    · rw [hold e he q t s hq]; exact I.same hf e he q t s hq
    · have := List.mem_singleton.mp he
      subst this
      exact (hnewabove q t s hq).2 hf
  · intro q hq0 hq
    by_cases h1 : q <+: p
    · exact Or.inl ⟨(p, v), by simp, h1⟩
    · by_cases h2 : p <+: q
      · exfalso
        rcases prefix_cases h2 with h | ⟨t, s, h⟩
        · exact h1 (by rw [h])
        · rw [h] at hq
          exact hq (look_setAt_below hr' (by simp))
      · rcases look_setAt_beside hr' h1 h2 with h3 | ⟨h3, h4, q0, i, i', h5, h6, h7, h8⟩
        · rw [h3] at hq
          rcases I.rest q hq0 hq with ⟨e, he, hpre⟩ | ⟨h4, q0, i, i', e, he, h5, h6, h7, h8⟩
          · exact Or.inl ⟨e, List.mem_append_left _ he, hpre⟩
          · right
            refine ⟨by rw [h3]; exact h4, q0, i, i', e, List.mem_append_left _ he, h5, h6, h7, ?_⟩
            obtain ⟨u, hu⟩ := h7
            rw [hold e he q0 (dec i') u (by rw [← hu]; simp)]
            exact h8
        · exact Or.inr ⟨h4, q0, i, i', (p, v), by simp, h5, h6, h7, h8⟩
  · intro h; simp at h
  · exact proper_setAt I.proper hr'

/-- All leaves of a sorted list. -/
theorem Inv.run {full : Prop} {T : J V} (hz : NoZero T) (L : List (Path × Option V))
    (hL : ∀ e ∈ L, ∃ w, part e.1 T = some (.leaf w))
    (hsort : L.Pairwise (fun a b => toText a.1 < toText b.1))
    (hfirst : full → ∀ e ∈ L, ∀ q t s, e.1 = q ++ t :: s → look q T = some .arr →
      ∃ e0 ∈ L, ∃ s', e0.1 = q ++ ['0'] :: s') :
    ∃ r, L.foldlM (fun r e => setAt e.1 e.2 r) (J.null : J V) = Except.ok (ε := Fault) r ∧
      Inv full T L r := by
  have key : ∀ (R S : List (Path × Option V)) (r : J V), L = S ++ R → Inv full T S r →
      ∃ r', R.foldlM (fun r e => setAt e.1 e.2 r) r = Except.ok (ε := Fault) r' ∧
        Inv full T L r' := by
    intro R
    induction R with
    | nil =>
      intro S r hLS I
      refine ⟨r, rfl, ?_⟩
      rw [hLS, List.append_nil]; exact I
    | cons e R ih =>
      intro S r hLS I
      obtain ⟨w, hw⟩ := hL e (by rw [hLS]; simp)
      have hpw := hsort
      rw [hLS] at hpw
      have hbefore : ∀ a ∈ S, toText a.1 < toText e.1 := by
        intro a ha
        exact (List.pairwise_append.mp hpw).2.2 a ha e (by simp)
      have hafter : ∀ a ∈ R, toText e.1 < toText a.1 := by
        intro a ha
        exact (List.pairwise_cons.mp (List.pairwise_append.mp hpw).2.1).1 a ha
      obtain ⟨r1, h1, I1⟩ := I.add hz (fun a ha => hL a (by rw [hLS]; simp [ha])) e.2 hw
        (by
          intro a ha heq
          have := hbefore a ha
          rw [heq] at this
          exact lt_irrefl _ this)
        (by
          intro hf q t s hq hT ht
          obtain ⟨e0, he0, s', hs'⟩ := hfirst hf e (by rw [hLS]; simp) q t s hq hT
          refine ⟨e0, ?_, s', hs'⟩
          have hlt : toText e0.1 < toText e.1 := by
            rcases above_cases (by rw [← hq]; exact hw) hz with ⟨_, n, hn⟩ | ⟨h, _⟩
            · rw [hs', hq, hn]
              apply zero_first
              rintro rfl
              rw [dec_zero] at hn
              exact ht hn
            · rw [h] at hT; cases hT
          rw [hLS] at he0
          rcases List.mem_append.mp he0 with h | h
          · exact h
          · exfalso
            rcases List.mem_cons.mp h with h | h
            · rw [h] at hlt; exact lt_irrefl _ hlt
            · exact lt_irrefl _ (lt_trans hlt (hafter e0 h)))
      obtain ⟨r2, h2, I2⟩ := ih (S ++ [e]) r1 (by rw [hLS]; simp) I1
      refine ⟨r2, ?_, I2⟩
      rw [List.foldlM_cons]
      show (setAt e.1 e.2 r >>= _) = _
      rw [h1]
      exact h2
  exact key L [] .null rfl (Inv.nil full T)

/-- All leaves of a configuration, with new values: the same configuration with these values. -/
theorem Inv.final {T r : J V} (hc : Configuration T) {L : List (Path × Option V)}
    (I : Inv True T L r) (hL : ∀ e ∈ L, ∃ w, part e.1 T = some (.leaf w))
    (hall : ∀ p w, part p T = some (.leaf w) → ∃ v, (p, v) ∈ L) :
    (∀ e ∈ L, look e.1 r = some (.leaf e.2)) ∧
    (∀ q, (∀ w, look q T ≠ some (.leaf w)) → look q r = look q T) := by
  have hstrict : ∀ q k, look q T = some k → (∀ w, k ≠ .leaf w) → look q r = look q T := by
    intro q k hk hnl
    obtain ⟨s, v, h1, h2⟩ := leaf_below hc.noEmpty hc.proper hk
    obtain ⟨v', hv'⟩ := hall _ _ h1
    have := h2 hnl
    cases s with
    | nil => exact absurd rfl this
    | cons t s => exact I.same trivial _ hv' q t s rfl
  refine ⟨fun e he => look_eq_leaf.mpr (I.leaves e he), ?_⟩
  intro q hq
  cases hT : look q T with
  | some k =>
    rw [hstrict q k hT (by rintro w rfl; exact hq w hT), hT]
  | none =>
    by_contra hne
    have hq0 : q ≠ [] := by rintro rfl; cases hT
    have hsome : ∀ u e, e ∈ L → u <+: e.1 → look u T ≠ none := by
      intro u e he hpre
      obtain ⟨w, hw⟩ := hL e he
      obtain ⟨s, hs⟩ := hpre
      rw [← hs, part_append] at hw
      unfold look
      cases hu : part u T with
      | none => rw [hu] at hw; cases hw
      | some x => simp
    rcases I.rest q hq0 hne with ⟨e, he, hpre⟩ | ⟨_, q0, i, i', e, he, h5, h6, h7, h8⟩
    · exact hsome q e he hpre hT
    · have h9 : look q0 T = some .arr := by
        obtain ⟨u, hu⟩ := h7
        rw [← I.same trivial e he q0 (dec i') u (by rw [← hu]; simp)]
        exact h8
      apply arr_elements h9 (hsome _ e he h7) h6.le
      rw [← h5]; exact hT

/-! ## Configurations made of their parts -/

theorem configuration_leaf (v : Option V) : Configuration (.leaf v) := by
  refine ⟨proper_leaf v, ?_, ?_⟩
  · intro p
    cases p with
    | nil => exact ⟨(by intro h; cases h), (by intro h; cases h)⟩
    | cons t p => rw [part_leaf (by simp)]; simp
  · intro p l h
    cases p with
    | nil => cases h
    | cons t p => rw [part_leaf (by simp)] at h; cases h

theorem configuration_of_children {j : J V} (h : ∀ t x, child t j = some x → Configuration x)
    (h0 : ∀ l, j = .obj l → (l.map Prod.fst).Nodup ∧ ['0'] ∉ l.map Prod.fst ∧ l ≠ [])
    (h1 : ∀ l, j = .arr l → l ≠ []) : Configuration j := by
  have hstep : ∀ t p y, part (t :: p) j = some y → ∃ x, child t j = some x ∧ part p x = some y := by
    intro t p y hy
    rw [part_cons] at hy
    cases hc : child t j with
    | none => rw [hc] at hy; cases hy
    | some x => rw [hc] at hy; exact ⟨x, rfl, hy⟩
  refine ⟨?_, ?_, ?_⟩
  · intro p l hp
    cases p with
    | nil => exact (h0 l (Option.some.inj hp)).1
    | cons t p =>
      obtain ⟨x, hx, hp⟩ := hstep t p _ hp
      exact (h t x hx).proper p l hp
  · intro p
    cases p with
    | nil =>
      refine ⟨?_, ?_⟩
      · intro hp; exact h1 [] (Option.some.inj hp) rfl
      · intro hp; exact (h0 [] (Option.some.inj hp)).2.2 rfl
    | cons t p =>
      refine ⟨?_, ?_⟩
      · intro hp
        obtain ⟨x, hx, hp⟩ := hstep t p _ hp
        exact ((h t x hx).noEmpty p).1 hp
      · intro hp
        obtain ⟨x, hx, hp⟩ := hstep t p _ hp
        exact ((h t x hx).noEmpty p).2 hp
  · intro p l hp
    cases p with
    | nil => exact (h0 l (Option.some.inj hp)).2.1
    | cons t p =>
      obtain ⟨x, hx, hp⟩ := hstep t p _ hp
      exact (h t x hx).noZero p l hp

theorem configuration_arr {l : List (J V)} (hl : l ≠ []) (h : ∀ x ∈ l, Configuration x) :
    Configuration (.arr l) := by
  apply configuration_of_children
  · intro t x hx
    apply h
    replace hx : (idx t).bind (fun (i : Nat) => l[i]?) = some x := hx
    cases hi : idx t with
    | none => rw [hi] at hx; cases hx
    | some i => rw [hi] at hx; exact List.mem_of_getElem? hx
  · intro l' h'; cases h'
  · intro l' h'; cases h'; exact hl

theorem configuration_obj {l : List (Str × J V)} (hl : l ≠ []) (hn : (l.map Prod.fst).Nodup)
    (hz : ['0'] ∉ l.map Prod.fst) (h : ∀ e ∈ l, Configuration e.2) : Configuration (.obj l) := by
  apply configuration_of_children
  · intro t x hx
    exact h (t, x) ((lookup_iff_mem hn).mp hx)
  · intro l' h'; cases h'; exact ⟨hn, hz, hl⟩
  · intro l' h'; cases h'

end RSVS.Json
