import Verif.Lemmas.JsonTree

/-!
# Flattening and its inverse
-/

namespace RSVS.Json

open RSVS RSVS.Text RSVS.Spec

variable {V : Type}

/-! ## The leaves -/

theorem mem_flatArr {i : Nat} {l : List (J V)} {p : Path} {v : Option V} :
    (p, v) ∈ flatArr i l ↔
      ∃ (k : Nat) (x : J V) (s : Path), l[k]? = some x ∧ p = dec (i + k) :: s ∧ (s, v) ∈ flat x := by
  induction l generalizing i with
  | nil => simp [flatArr]
  | cons y l ih =>
    rw [flatArr, List.mem_append, ih]
    constructor
    · rintro (h | ⟨k, x, s, h1, h2, h3⟩)
      · obtain ⟨e, he, h⟩ := List.mem_map.mp h
        injection h with h1 h2
        refine ⟨0, y, e.1, rfl, h1.symm, ?_⟩
        rw [← h2]; exact he
      · refine ⟨k + 1, x, s, h1, ?_, h3⟩
        rw [h2]; congr 2; omega
    · rintro ⟨k, x, s, h1, h2, h3⟩
      cases k with
      | zero =>
        left
        have : y = x := Option.some.inj h1
        subst this
        exact List.mem_map.mpr ⟨(s, v), h3, by rw [h2]; rfl⟩
      | succ k =>
        right
        refine ⟨k, x, s, h1, ?_, h3⟩
        rw [h2]; congr 2; omega

theorem mem_flatObj {l : List (Str × J V)} {p : Path} {v : Option V} :
    (p, v) ∈ flatObj l ↔ ∃ t x s, (t, x) ∈ l ∧ p = t :: s ∧ (s, v) ∈ flat x := by
  induction l with
  | nil => simp [flatObj]
  | cons y l ih =>
    obtain ⟨k, y⟩ := y
    rw [flatObj, List.mem_append, ih, flatPair]
    constructor
    · rintro (h | ⟨t, x, s, h1, h2, h3⟩)
      · obtain ⟨e, he, h⟩ := List.mem_map.mp h
        injection h with h1 h2
        refine ⟨k, y, e.1, by simp, h1.symm, ?_⟩
        rw [← h2]; exact he
      · exact ⟨t, x, s, List.mem_cons_of_mem _ h1, h2, h3⟩
    · rintro ⟨t, x, s, h1, h2, h3⟩
      rcases List.mem_cons.mp h1 with h1 | h1
      · cases h1
        left
        exact List.mem_map.mpr ⟨(s, v), h3, by rw [h2]⟩
      · exact Or.inr ⟨t, x, s, h1, h2, h3⟩

theorem lookup_iff_mem {l : List (Str × J V)} (h : (l.map Prod.fst).Nodup) {t : Str} {x : J V} :
    l.lookup t = some x ↔ (t, x) ∈ l := by
  induction l with
  | nil => simp [List.lookup]
  | cons e l ih =>
    obtain ⟨k, y⟩ := e
    have h' := List.nodup_cons.mp h
    rw [List.lookup]
    by_cases hk : t = k
    · subst hk
      simp only [beq_self_eq_true, List.mem_cons, Prod.mk.injEq, true_and]
      constructor
      · intro hh; exact Or.inl (Option.some.inj hh).symm
      · rintro (hh | hh)
        · rw [hh]
        · exact absurd (List.mem_map_of_mem (f := Prod.fst) hh) h'.1
    · rw [beq_eq_false_iff_ne.mpr hk]
      simp only [List.mem_cons, Prod.mk.injEq, hk, false_and, false_or]
      exact ih h'.2

theorem noEmpty_child {j x : J V} (h : NoEmpty j) {t : Str} (hx : child t j = some x) :
    NoEmpty x := by
  intro p
  have := h (t :: p)
  rw [part_cons, hx] at this
  exact this

/-- `flatten` lists the leaves. -/
theorem mem_flat {j : J V} (h1 : NoEmpty j) (h2 : Proper j) {p : Path} {v : Option V} :
    (p, v) ∈ flat j ↔ part p j = some (.leaf v) := by
  induction p generalizing j with
  | nil =>
    cases j with
    | leaf w =>
      rw [flat]
      constructor
      · intro h
        have := List.mem_singleton.mp h
        cases this; rfl
      · intro h
        have := Option.some.inj h
        cases this; simp
    | arr l =>
      have hl : l ≠ [] := by rintro rfl; exact (h1 []).1 rfl
      rw [flat, if_neg (by simpa using hl), mem_flatArr]
      constructor
      · rintro ⟨k, x, s, _, h, _⟩; cases h
      · intro h; cases h
    | obj l =>
      have hl : l ≠ [] := by rintro rfl; exact (h1 []).2 rfl
      rw [flat, if_neg (by simpa using hl), mem_flatObj]
      constructor
      · rintro ⟨k, x, s, _, h, _⟩; cases h
      · intro h; cases h
  | cons t p ih =>
    rw [part_cons]
    cases j with
    | leaf w =>
      rw [flat]
      constructor
      · intro h
        have := List.mem_singleton.mp h
        cases this
      · intro h; cases h
    | arr l =>
      have hl : l ≠ [] := by rintro rfl; exact (h1 []).1 rfl
      rw [flat, if_neg (by simpa using hl), mem_flatArr]
      constructor
      · rintro ⟨k, x, s, h3, h4, h5⟩
        obtain ⟨rfl, rfl⟩ := List.cons.inj h4
        have hc : child (dec (0 + k)) (.arr l) = some x := by
          show (idx _).bind _ = _
          rw [idx_dec]
          show l[0 + k]? = _
          rw [Nat.zero_add]; exact h3
        rw [hc]
        exact (ih (noEmpty_child h1 hc) (proper_child h2 hc)).mp h5
      · intro h
        cases hc : child t (.arr l) with
        | none => rw [hc] at h; cases h
        | some x =>
          rw [hc] at h
          have h5 := (ih (noEmpty_child h1 hc) (proper_child h2 hc)).mpr h
          replace hc : (idx t).bind (fun (i : Nat) => l[i]?) = some x := hc
          cases hi : idx t with
          | none => rw [hi] at hc; cases hc
          | some i =>
            rw [hi] at hc
            refine ⟨i, x, p, hc, ?_, h5⟩
            rw [idx_some hi, Nat.zero_add]
    | obj l =>
      have hl : l ≠ [] := by rintro rfl; exact (h1 []).2 rfl
      rw [flat, if_neg (by simpa using hl), mem_flatObj]
      have hnd := h2 [] l rfl
      constructor
      · rintro ⟨k, x, s, h3, h4, h5⟩
        obtain ⟨rfl, rfl⟩ := List.cons.inj h4
        have hc : child t (.obj l) = some x := (lookup_iff_mem hnd).mpr h3
        rw [hc]
        exact (ih (noEmpty_child h1 hc) (proper_child h2 hc)).mp h5
      · intro h
        cases hc : child t (.obj l) with
        | none => rw [hc] at h; cases h
        | some x =>
          rw [hc] at h
          have h5 := (ih (noEmpty_child h1 hc) (proper_child h2 hc)).mpr h
          exact ⟨t, x, p, (lookup_iff_mem hnd).mp hc, rfl, h5⟩

/-- Assigning many entries, of which those with the same key are equal. -/
theorem lookup_update_mem {n m : FlatMap V} (hn : ∀ k v w, (k, v) ∈ n → (k, w) ∈ n → v = w)
    {k : Str} {v : Option V} (h : (k, v) ∈ n) : (update m n).lookup k = some v := by
  unfold update
  induction n using List.reverseRecOn with
  | nil => cases h
  | append_singleton n e ih =>
    rw [List.foldl_append, List.foldl_cons, List.foldl_nil, lookup_assign]
    obtain ⟨ek, ev⟩ := e
    by_cases hk : k = ek
    · rw [if_pos hk]
      congr 1
      apply hn k _ _ _ h
      rw [hk]; simp
    · rw [if_neg hk]
      apply ih
      · intro k v w h1 h2
        exact hn k v w (List.mem_append_left _ h1) (List.mem_append_left _ h2)
      · rcases List.mem_append.mp h with h | h
        · exact h
        · have := List.mem_singleton.mp h
          injection this with h1
          exact absurd h1 hk

theorem lookup_update_not {n m : FlatMap V} {k : Str} (h : ∀ v, (k, v) ∉ n) :
    (update m n).lookup k = m.lookup k := by
  unfold update
  induction n generalizing m with
  | nil => rfl
  | cons e n ih =>
    rw [List.foldl_cons, ih (fun v hv => h v (List.mem_cons_of_mem _ hv)), lookup_assign, if_neg]
    rintro rfl
    exact h e.2 (by simp)

theorem flatten_eq (j : J V) :
    flatten j = update [] ((flat j).map (fun e => (toText e.1, e.2))) := by
  unfold flatten update
  rw [List.foldl_map]

theorem sorted_flatten (j : J V) : Sorted (flatten j) := by
  rw [flatten_eq]
  exact Sorted.foldl_assign (by simp [Sorted]) _

theorem sorted_update {m : FlatMap V} (h : Sorted m) (n : FlatMap V) : Sorted (update m n) :=
  h.foldl_assign n

/-- The entries of the flat map are the leaves. -/
theorem mem_flatten {j : J V} (h1 : NoEmpty j) (h2 : Proper j) {k : Str} {v : Option V} :
    (k, v) ∈ flatten j ↔ ∃ p, k = toText p ∧ part p j = some (.leaf v) := by
  rw [(sorted_flatten j).mem_iff, flatten_eq]
  have hmem : ∀ k v, (k, v) ∈ (flat j).map (fun e => (toText e.1, e.2)) ↔
      ∃ p, k = toText p ∧ part p j = some (.leaf v) := by
    intro k v
    rw [List.mem_map]
    constructor
    · rintro ⟨⟨p, w⟩, he, h⟩
      injection h with h3 h4
      refine ⟨p, h3.symm, ?_⟩
      rw [← mem_flat h1 h2, ← h4]; exact he
    · rintro ⟨p, rfl, hp⟩
      exact ⟨(p, v), (mem_flat h1 h2).mpr hp, rfl⟩
  have hfun : ∀ k v w, (k, v) ∈ (flat j).map (fun e => (toText e.1, e.2)) →
      (k, w) ∈ (flat j).map (fun e => (toText e.1, e.2)) → v = w := by
    intro k v w hv hw
    obtain ⟨p, hk, hp⟩ := (hmem _ _).mp hv
    obtain ⟨q, hk', hq⟩ := (hmem _ _).mp hw
    have : p = q := toText_inj (hk.symm.trans hk')
    subst this
    rw [hp] at hq
    injection hq with hq
    injection hq
  rw [← hmem]
  constructor
  · intro h
    by_contra hne
    by_cases hex : ∃ w, (k, w) ∈ (flat j).map (fun e => (toText e.1, e.2))
    · obtain ⟨w, hw⟩ := hex
      rw [lookup_update_mem hfun hw] at h
      rw [Option.some.inj h] at hw
      exact hne hw
    · rw [lookup_update_not (fun w hw => hex ⟨w, hw⟩)] at h
      cases h
  · exact lookup_update_mem hfun

/-- A map whose keys are pointers. -/
theorem exists_paths {m : FlatMap V} (h : ∀ e ∈ m, ∃ p, e.1 = toText p) :
    ∃ L : List (Path × Option V), m = L.map (fun e => (toText e.1, e.2)) := by
  induction m with
  | nil => exact ⟨[], rfl⟩
  | cons e m ih =>
    obtain ⟨L, hL⟩ := ih (fun e he => h e (List.mem_cons_of_mem _ he))
    obtain ⟨p, hp⟩ := h e (by simp)
    refine ⟨(p, e.2) :: L, ?_⟩
    rw [List.map_cons, ← hL, ← hp]

/-- `unflatten` sets the values one after the other. -/
theorem unflatten_map (L : List (Path × Option V)) :
    unflatten (L.map (fun e => (toText e.1, e.2))) =
      L.foldlM (fun r e => setAt e.1 e.2 r) .null := by
  unfold unflatten
  have : ∀ r : J V, (L.map (fun e => (toText e.1, e.2))).foldlM place r =
      L.foldlM (fun r e => setAt e.1 e.2 r) r := by
    induction L with
    | nil => intro r; rfl
    | cons e L ih =>
      intro r
      rw [List.map_cons, List.foldlM_cons, List.foldlM_cons]
      have h1 : place r (toText e.1, e.2) = setAt e.1 e.2 r := by
        show (parsePtr (toText e.1)).bind _ = _
        rw [parsePtr_toText]; rfl
      rw [h1]
      congr 1
      funext r'
      exact ih r'
  exact this _

/-! ## Configurations -/

/-- Below each place stands a leaf. -/
theorem exists_leaf_below {j : J V} (h1 : NoEmpty j) (h2 : Proper j) :
    ∀ n, sizeOf j ≤ n → ∃ s v, part s j = some (.leaf v) ∧ ((∀ w, kind j ≠ .leaf w) → s ≠ []) := by
  intro n
  induction n generalizing j with
  | zero =>
    intro h
    cases j <;> simp at h
  | succ n ih =>
    intro hn
    cases j with
    | leaf w => exact ⟨[], w, rfl, fun h => absurd rfl (h w)⟩
    | arr l =>
      cases l with
      | nil => exact absurd rfl (h1 []).1
      | cons x l =>
        have hc : child ['0'] (J.arr (x :: l)) = some x := by
          show (idx _).bind _ = _
          rw [idx_zero]; rfl
        obtain ⟨s, v, hs, _⟩ := ih (noEmpty_child h1 hc) (proper_child h2 hc) (by
          simp at hn; omega)
        refine ⟨['0'] :: s, v, ?_, fun _ => by simp⟩
        rw [part_cons, hc]; exact hs
    | obj l =>
      cases l with
      | nil => exact absurd rfl (h1 []).2
      | cons e l =>
        obtain ⟨k, x⟩ := e
        have hc : child k (J.obj ((k, x) :: l)) = some x := by
          show List.lookup k ((k, x) :: l) = _
          simp [List.lookup]
        obtain ⟨s, v, hs, _⟩ := ih (noEmpty_child h1 hc) (proper_child h2 hc) (by
          simp at hn; omega)
        refine ⟨k :: s, v, ?_, fun _ => by simp⟩
        rw [part_cons, hc]; exact hs

theorem proper_part {j x : J V} (h : Proper j) {q : Path} (hx : part q j = some x) : Proper x := by
  intro p l hp
  apply h (q ++ p) l
  rw [part_append, hx]; exact hp

theorem noEmpty_part {j x : J V} (h : NoEmpty j) {q : Path} (hx : part q j = some x) :
    NoEmpty x := by
  intro p
  have := h (q ++ p)
  rw [part_append, hx] at this
  exact this

/-- Below each place of a configuration stands a leaf. -/
theorem leaf_below {j : J V} (h1 : NoEmpty j) (h2 : Proper j) {q : Path} {k : Node V}
    (hq : look q j = some k) :
    ∃ s v, part (q ++ s) j = some (.leaf v) ∧ ((∀ w, k ≠ .leaf w) → s ≠ []) := by
  unfold look at hq
  cases hx : part q j with
  | none => rw [hx] at hq; cases hq
  | some x =>
    rw [hx] at hq
    obtain ⟨s, v, h3, h4⟩ := exists_leaf_below (noEmpty_part h1 hx) (proper_part h2 hx) _ le_rfl
    refine ⟨s, v, by rw [part_append, hx]; exact h3, ?_⟩
    have : kind x = k := Option.some.inj hq
    rw [← this]; exact h4

/-- No leaf stands below another. -/
theorem leaf_prefix {j : J V} {p q : Path} {v w : Option V} (hp : part p j = some (.leaf v))
    (hq : part q j = some (.leaf w)) (h : p <+: q) : p = q := by
  obtain ⟨s, rfl⟩ := h
  rw [part_append, hp] at hq
  by_contra hne
  have : s ≠ [] := by rintro rfl; exact hne (by simp)
  rw [Option.bind_some, part_leaf this] at hq
  cases hq

/-- What stands above a place. -/
theorem above_cases {j : J V} {q : Path} {t : Str} {s : Path} {x : J V}
    (h : part (q ++ t :: s) j = some x) (hz : NoZero j) :
    (look q j = some .arr ∧ ∃ n, t = dec n) ∨ (look q j = some .obj ∧ t ≠ ['0']) := by
  rw [part_append] at h
  cases hy : part q j with
  | none => rw [hy] at h; cases h
  | some y =>
    rw [hy, Option.bind_some, part_cons] at h
    unfold look
    rw [hy]
    cases y with
    | leaf w => cases h
    | arr l =>
      left
      refine ⟨rfl, ?_⟩
      cases hi : idx t with
      | none =>
        have : child t (J.arr l) = none := by
          show (idx t).bind _ = _
          rw [hi]; rfl
        rw [this] at h; cases h
      | some n => exact ⟨n, idx_some hi⟩
    | obj l =>
      right
      refine ⟨rfl, ?_⟩
      rintro rfl
      have h0 := hz q l hy
      have : child ['0'] (J.obj l) = none := by
        show List.lookup _ l = none
        cases hl : List.lookup ['0'] l with
        | none => rfl
        | some z =>
          exfalso; apply h0
          clear h hy hz h0
          induction l with
          | nil => cases hl
          | cons e l ih =>
            obtain ⟨k, y⟩ := e
            rw [List.lookup] at hl
            split at hl
            · rename_i hb
              have : ['0'] = k := by simpa using hb
              simp [this]
            · exact List.mem_cons_of_mem _ (ih hl)
      rw [this] at h; cases h

/-- The elements of an array come from 0 on. -/
theorem arr_elements {j : J V} {q : Path} {i i' : Nat} (hq : look q j = some .arr)
    (h : look (q ++ [dec i']) j ≠ none) (hi : i ≤ i') : look (q ++ [dec i]) j ≠ none := by
  rw [look_append] at h ⊢
  unfold look at hq
  cases hy : part q j with
  | none => rw [hy] at hq; cases hq
  | some y =>
    rw [hy] at hq h
    cases y with
    | leaf w => cases hq
    | obj l => cases hq
    | arr l =>
      simp only [Option.bind_some, look_cons] at h ⊢
      have hc : ∀ i, child (dec i) (J.arr l) = l[i]? := by
        intro i
        show (idx _).bind _ = _
        rw [idx_dec]; rfl
      rw [hc] at h ⊢
      have hlt : i' < l.length := by
        by_contra hge
        rw [List.getElem?_eq_none (by omega)] at h
        exact h rfl
      rw [List.getElem?_eq_getElem (by omega)]
      simp [look_nil]

end RSVS.Json
