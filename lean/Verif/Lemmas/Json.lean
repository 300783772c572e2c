import Verif.Spec.Json
import Verif.Lemmas.Text
import Mathlib.Data.List.Basic
import Mathlib.Data.List.Pairwise
import Mathlib.Tactic.Common

/-!
# JSON pointers, flat maps and trees
-/

namespace RSVS.Json

open RSVS RSVS.Text RSVS.Spec

variable {V : Type}

/-! ## Pointers -/

theorem unescape_cons {c : Char} (h : c ≠ '~') (s : Str) :
    unescape (c :: s) = (unescape s).map (c :: ·) := by
  rw [unescape.eq_def]
  simp only [if_neg h]

theorem unescape_escape (s : Str) : unescape (escape s) = .ok s := by
  induction s with
  | nil => rfl
  | cons c s ih =>
    rw [escape]
    split
    · rename_i h; subst h
      show (unescape (escape s)).map _ = _
      rw [ih]; rfl
    · split
      · rename_i h; subst h
        show (unescape (escape s)).map _ = _
        rw [ih]; rfl
      · rw [unescape_cons (by assumption), ih]; rfl

theorem slash_not_mem_escape (s : Str) : '/' ∉ escape s := by
  induction s with
  | nil => simp [escape]
  | cons c s ih =>
    rw [escape]
    split
    · simp [ih]
    · split
      · simp [ih]
      · rename_i h1 h2
        simp [ih, Ne.symm h2]

theorem splitSlash_append {s : Str} (hs : '/' ∉ s) (t : Str) :
    splitSlash (s ++ '/' :: t) = s :: splitSlash t := by
  induction s with
  | nil => rw [List.nil_append, splitSlash, if_pos rfl]
  | cons c s ih =>
    have hc : c ≠ '/' := by intro h; apply hs; simp [h]
    rw [List.cons_append, splitSlash, if_neg hc, ih (fun h => hs (by simp [h]))]

theorem splitSlash_last {s : Str} (hs : '/' ∉ s) : splitSlash s = [s] := by
  induction s with
  | nil => rfl
  | cons c s ih =>
    have hc : c ≠ '/' := by intro h; apply hs; simp [h]
    rw [splitSlash, if_neg hc, ih (fun h => hs (by simp [h]))]

theorem toText_cons (t : Str) (p : Path) : toText (t :: p) = '/' :: (escape t ++ toText p) := by
  simp [toText]

theorem splitSlash_toText (t : Str) (p : Path) :
    splitSlash (escape t ++ toText p) = (t :: p).map escape := by
  induction p generalizing t with
  | nil =>
    have : toText [] = [] := rfl
    rw [this, List.append_nil, splitSlash_last (slash_not_mem_escape t)]; rfl
  | cons u p ih =>
    rw [toText_cons, splitSlash_append (slash_not_mem_escape t), ih]; rfl

theorem unescapeAll_map (p : Path) : unescapeAll (p.map escape) = .ok p := by
  induction p with
  | nil => rfl
  | cons t p ih =>
    show (unescape (escape t)).bind _ = _
    rw [unescape_escape]
    show (unescapeAll (p.map escape)).map _ = _
    rw [ih]; rfl

/-- The pointer of the text of a pointer. -/
theorem parsePtr_toText (p : Path) : parsePtr (toText p) = .ok p := by
  cases p with
  | nil => rfl
  | cons t p =>
    rw [toText_cons, parsePtr, if_pos rfl, splitSlash_toText, unescapeAll_map]

theorem toText_inj {p q : Path} (h : toText p = toText q) : p = q := by
  have := parsePtr_toText p
  rw [h, parsePtr_toText] at this
  exact (Except.ok.inj this).symm

/-! ## Indices -/

theorem idx_dec (n : Nat) : idx (dec n) = some n := by
  unfold idx
  rw [digitsVal_dec, if_pos rfl]

theorem idx_some {t : Str} {n : Nat} (h : idx t = some n) : t = dec n := by
  unfold idx at h
  split at h
  · rename_i h1
    rw [← Option.some.inj h]; exact h1.symm
  · cases h

theorem dec_inj {m n : Nat} (h : dec m = dec n) : m = n := by
  have := idx_dec m
  rw [h, idx_dec] at this
  exact (Option.some.inj this).symm

theorem dec_zero : dec 0 = ['0'] := by decide +kernel

theorem idx_zero : idx ['0'] = some 0 := by rw [← dec_zero]; exact idx_dec 0

/-! ## Order of the texts -/

theorem append_lt_append (p s t : Str) (h : s < t) : p ++ s < p ++ t := by
  induction p with
  | nil => exact h
  | cons c p ih => exact List.Lex.cons ih

theorem toText_append (p q : Path) : toText (p ++ q) = toText p ++ toText q := by
  simp [toText]

/-- The elements of an array come in an order which starts with 0. -/
theorem zero_first (q s s' : Path) {n : Nat} (hn : n ≠ 0) :
    toText (q ++ ['0'] :: s) < toText (q ++ dec n :: s') := by
  rw [toText_append, toText_append]
  apply append_lt_append
  rw [toText_cons, toText_cons]
  apply List.Lex.cons
  obtain ⟨c, u, hc, h0⟩ := dec_head_ne_zero hn
  have hdig : isDigit 10 c = true := dec_digits n c (by rw [hc]; simp)
  have he : escape (dec n) = c :: escape u := by
    rw [hc, escape]
    rw [if_neg, if_neg]
    · rintro rfl; revert hdig; decide
    · rintro rfl; revert hdig; decide
  have h0' : escape ['0'] = ['0'] := by decide
  rw [he, h0']
  apply List.Lex.rel
  have hle : '0' ≤ c := by
    by_contra hlt
    unfold isDigit charVal at hdig
    simp [hlt] at hdig
    split at hdig
    · rename_i h1
      exact hlt (le_trans (by decide) h1.1)
    · split at hdig
      · rename_i h1
        exact hlt (le_trans (by decide) h1.1)
      · simp at hdig
  exact lt_of_le_of_ne hle (Ne.symm h0)

/-! ## Flat maps -/

/-- The keys are in order. -/
def Sorted (m : FlatMap V) : Prop := (m.map Prod.fst).Pairwise (· < ·)

theorem mem_assign {k : Str} {v : Option V} {m : FlatMap V} {x : Str}
    (h : x ∈ (assign k v m).map Prod.fst) : x = k ∨ x ∈ m.map Prod.fst := by
  induction m with
  | nil => left; simpa [assign] using h
  | cons e m ih =>
    rw [assign] at h
    split at h
    · rename_i hk
      rcases List.mem_cons.mp h with h | h
      · exact Or.inl h
      · exact Or.inr (List.mem_cons_of_mem _ h)
    · split at h
      · rcases List.mem_cons.mp h with h | h
        · exact Or.inl h
        · exact Or.inr h
      · rcases List.mem_cons.mp h with h | h
        · exact Or.inr (List.mem_cons.mpr (Or.inl h))
        · rcases ih h with h | h
          · exact Or.inl h
          · exact Or.inr (List.mem_cons_of_mem _ h)

theorem Sorted.assign {m : FlatMap V} (h : Sorted m) (k : Str) (v : Option V) :
    Sorted (assign k v m) := by
  induction m with
  | nil => simp [Sorted, Json.assign]
  | cons e m ih =>
    have h' := List.pairwise_cons.mp h
    rw [Json.assign]
    split
    · rename_i hk
      refine List.pairwise_cons.mpr ⟨?_, h'.2⟩
      intro x hx; rw [hk]; exact h'.1 x hx
    · split
      · rename_i hk
        refine List.pairwise_cons.mpr ⟨?_, h⟩
        intro x hx
        rcases List.mem_cons.mp hx with rfl | hx
        · exact hk
        · exact lt_trans hk (h'.1 x hx)
      · rename_i h1 h2
        refine List.pairwise_cons.mpr ⟨?_, ih h'.2⟩
        intro x hx
        rcases mem_assign hx with rfl | hx
        · exact lt_of_le_of_ne (not_lt.mp h2) (Ne.symm h1)
        · exact h'.1 x hx

theorem lookup_assign (k k' : Str) (v : Option V) (m : FlatMap V) :
    (assign k v m).lookup k' = if k' = k then some v else m.lookup k' := by
  induction m with
  | nil =>
    simp only [assign, List.lookup]
    split <;> simp_all
  | cons e m ih =>
    obtain ⟨ek, ev⟩ := e
    rw [assign]
    by_cases hk : k' = k
    · rw [if_pos hk, hk]
      split
      · simp [List.lookup]
      · split
        · simp [List.lookup]
        · rename_i h1 h2
          simp only at h1
          rw [List.lookup, (beq_eq_false_iff_ne.mpr h1)]
          simp only
          rw [← hk] at ih ⊢
          rw [ih, if_pos rfl]
    · have hb : (k' == k) = false := beq_eq_false_iff_ne.mpr hk
      rw [if_neg hk]
      split
      · rename_i h1
        simp only at h1
        rw [List.lookup, hb, List.lookup, ← h1, hb]
      · split
        · rw [List.lookup, hb]
        · rw [List.lookup, List.lookup]
          split
          · rfl
          · rw [ih, if_neg hk]

theorem mem_of_lookup {k : Str} {v : Option V} {m : FlatMap V} (h : m.lookup k = some v) :
    (k, v) ∈ m := by
  induction m with
  | nil => cases h
  | cons e m ih =>
    obtain ⟨ek, ev⟩ := e
    rw [List.lookup] at h
    split at h
    · rename_i h1
      have : k = ek := by simpa using h1
      rw [this, ← Option.some.inj h]; simp
    · exact List.mem_cons_of_mem _ (ih h)

theorem Sorted.lookup {m : FlatMap V} (h : Sorted m) {k : Str} {v : Option V} (hm : (k, v) ∈ m) :
    m.lookup k = some v := by
  induction m with
  | nil => cases hm
  | cons e m ih =>
    obtain ⟨ek, ev⟩ := e
    have h' := List.pairwise_cons.mp h
    rw [List.lookup]
    rcases List.mem_cons.mp hm with h1 | h1
    · cases h1
      simp
    · have : ek < k := h'.1 k (List.mem_map_of_mem (f := Prod.fst) h1)
      rw [beq_eq_false_iff_ne.mpr (ne_of_gt this)]
      exact ih h'.2 h1

/-- The members of a sorted map are what is looked up. -/
theorem Sorted.mem_iff {m : FlatMap V} (h : Sorted m) {k : Str} {v : Option V} :
    (k, v) ∈ m ↔ m.lookup k = some v := ⟨h.lookup, mem_of_lookup⟩

/-- Assigning many entries with different keys. -/
theorem lookup_foldl_assign (n m : FlatMap V) (hn : (n.map Prod.fst).Nodup) (k : Str) :
    (n.foldl (fun m e => assign e.1 e.2 m) m).lookup k = (n.lookup k).or (m.lookup k) := by
  induction n generalizing m with
  | nil => simp [List.lookup]
  | cons e n ih =>
    obtain ⟨ek, ev⟩ := e
    have hn' := List.nodup_cons.mp hn
    rw [List.foldl_cons, ih _ hn'.2, lookup_assign, List.lookup]
    by_cases hk : k = ek
    · subst hk
      have : n.lookup k = none := by
        cases h : n.lookup k with
        | none => rfl
        | some v => exact absurd (List.mem_map_of_mem (f := Prod.fst) (mem_of_lookup h)) hn'.1
      simp [this]
    · rw [beq_eq_false_iff_ne.mpr hk, if_neg hk]

theorem Sorted.foldl_assign {m : FlatMap V} (h : Sorted m) (n : FlatMap V) :
    Sorted (n.foldl (fun m e => Json.assign e.1 e.2 m) m) := by
  induction n generalizing m with
  | nil => exact h
  | cons e n ih => exact ih (h.assign _ _)

theorem Sorted.nodup {m : FlatMap V} (h : Sorted m) : (m.map Prod.fst).Nodup :=
  h.imp (fun hab => ne_of_lt hab)

/-! ## Trees -/

theorem step_eq_child (t : Str) (j : J V) : step t j = child t j := by
  cases j with
  | leaf v => rfl
  | arr l =>
    show ((List.range l.length).find? (fun i => decide (dec i = t))).bind _ = (idx t).bind _
    cases hi : idx t with
    | none =>
      rw [List.find?_eq_none.mpr]
      intro i _ h
      have h' : dec i = t := by simpa using h
      rw [← h', idx_dec] at hi; cases hi
    | some i =>
      have ht := idx_some hi
      subst ht
      by_cases hl : i < l.length
      · have : (List.range l.length).find? (fun i' => decide (dec i' = dec i)) = some i := by
          rw [List.find?_eq_some_iff_getElem]
          refine ⟨by simp, i, by simpa using hl, by simp, ?_⟩
          intro j hj
          simp only [List.getElem_range, Bool.not_eq_true', decide_eq_false_iff_not]
          intro h
          exact absurd (dec_inj h) (by omega)
        rw [this]
      · rw [List.find?_eq_none.mpr]
        · show none = l[i]?
          rw [List.getElem?_eq_none (by omega)]
        · intro i' hi' h
          have h' : dec i' = dec i := by simpa using h
          have := dec_inj h'
          simp at hi'; omega
  | obj l =>
    show (l.find? _).map _ = l.lookup t
    induction l with
    | nil => rfl
    | cons e l ih =>
      obtain ⟨k, x⟩ := e
      rw [List.find?_cons, List.lookup]
      by_cases h : k = t
      · subst h; simp
      · have h2 : (t == k) = false := beq_eq_false_iff_ne.mpr (Ne.symm h)
        simp [h, h2, ih]

theorem part_cons (t : Str) (p : Path) (j : J V) : part (t :: p) j = (child t j).bind (part p) := by
  rw [part, step_eq_child]

theorem part_append (p q : Path) (j : J V) : part (p ++ q) j = (part p j).bind (part q) := by
  induction p generalizing j with
  | nil => rfl
  | cons t p ih =>
    rw [List.cons_append, part_cons, part_cons]
    cases child t j with
    | none => rfl
    | some x => exact ih x

theorem lookup_put (t t' : Str) (x : J V) (l : List (Str × J V)) :
    (put t x l).lookup t' = if t' = t then some x else l.lookup t' := by
  induction l with
  | nil =>
    simp only [put, List.lookup]
    split <;> simp_all
  | cons e l ih =>
    obtain ⟨k, y⟩ := e
    rw [put]
    by_cases hk : k = t
    · rw [if_pos hk]
      rw [List.lookup, List.lookup, hk]
      by_cases ht : t' = t
      · simp [ht]
      · rw [beq_eq_false_iff_ne.mpr ht, if_neg ht]
    · rw [if_neg hk, List.lookup, List.lookup, ih]
      by_cases ht : t' = t
      · subst ht
        rw [beq_eq_false_iff_ne.mpr (Ne.symm hk)]
      · simp [ht]

theorem mem_put {t : Str} {x : J V} {l : List (Str × J V)} {k : Str}
    (h : k ∈ (put t x l).map Prod.fst) : k = t ∨ k ∈ l.map Prod.fst := by
  induction l with
  | nil => left; simpa [put] using h
  | cons e l ih =>
    rw [put] at h
    split at h
    · rename_i he
      rcases List.mem_cons.mp h with h | h
      · exact Or.inl h
      · exact Or.inr (List.mem_cons_of_mem _ h)
    · rcases List.mem_cons.mp h with h | h
      · exact Or.inr (List.mem_cons.mpr (Or.inl h))
      · rcases ih h with h | h
        · exact Or.inl h
        · exact Or.inr (List.mem_cons_of_mem _ h)

theorem put_nodup {t : Str} {x : J V} {l : List (Str × J V)} (h : (l.map Prod.fst).Nodup) :
    ((put t x l).map Prod.fst).Nodup := by
  induction l with
  | nil => simp [put]
  | cons e l ih =>
    have h' := List.nodup_cons.mp h
    rw [put]
    split
    · rename_i he
      refine List.nodup_cons.mpr ⟨?_, h'.2⟩
      rw [← he]; exact h'.1
    · rename_i he
      refine List.nodup_cons.mpr ⟨?_, ih h'.2⟩
      intro hm
      rcases mem_put hm with h1 | h1
      · exact he h1
      · exact h'.1 h1

/-- The child which was set. -/
theorem child_setChild {t : Str} {x j j' : J V} (h : setChild t x j = .ok j') :
    child t j' = some x := by
  cases j with
  | leaf v =>
    cases v with
    | none =>
      rw [setChild] at h
      split at h
      · rename_i ht
        rw [← Except.ok.inj h, ht]
        show (idx ['0']).bind _ = _
        rw [idx_zero]; rfl
      · rw [← Except.ok.inj h]
        show List.lookup t [(t, x)] = _
        simp [List.lookup]
    | some v => cases h
  | arr l =>
    rw [setChild] at h
    cases hi : idx t with
    | none => rw [hi] at h; cases h
    | some i =>
      rw [hi] at h
      rw [← Except.ok.inj h]
      show (idx t).bind _ = _
      rw [hi]
      show ((pad (i + 1) l).set i x)[i]? = some x
      rw [List.getElem?_set_self]
      unfold pad
      simp; omega
  | obj l =>
    rw [← Except.ok.inj h]
    show List.lookup t (put t x l) = _
    rw [lookup_put, if_pos rfl]

/-- The other children: unchanged, or nulls which fill an array. -/
theorem child_setChild_ne {t t' : Str} {x j j' : J V} (h : setChild t x j = .ok j')
    (hne : t' ≠ t) : child t' j' = child t' j ∨
      (child t' j = none ∧ child t' j' = some .null ∧ kind j' = .arr ∧
        ∃ i i' : Nat, t' = dec i ∧ t = dec i' ∧ i < i') := by
  cases j with
  | leaf v =>
    cases v with
    | none =>
      rw [setChild] at h
      left
      split at h
      · rename_i ht
        rw [← Except.ok.inj h]
        show (idx t').bind _ = none
        cases hi : idx t' with
        | none => rfl
        | some i =>
          have := idx_some hi
          have hi0 : i ≠ 0 := by
            rintro rfl
            rw [dec_zero] at this
            exact hne (this.trans ht.symm)
          show ([x] : List (J V))[i]? = none
          rw [List.getElem?_eq_none]
          simp; omega
      · rw [← Except.ok.inj h]
        show List.lookup t' [(t, x)] = none
        simp [List.lookup, beq_eq_false_iff_ne.mpr hne]
    | some v => cases h
  | arr l =>
    rw [setChild] at h
    cases hi : idx t with
    | none => rw [hi] at h; cases h
    | some i =>
      rw [hi] at h
      rw [← Except.ok.inj h]
      cases hi' : idx t' with
      | none =>
        left
        show (idx t').bind _ = (idx t').bind _
        rw [hi']; rfl
      | some i' =>
        have h1 : child t' (J.arr ((pad (i + 1) l).set i x)) = ((pad (i + 1) l).set i x)[i']? := by
          show (idx t').bind _ = _
          rw [hi']; rfl
        have h2 : child t' (J.arr l) = l[i']? := by
          show (idx t').bind _ = _
          rw [hi']; rfl
        have hii : i ≠ i' := by
          rintro rfl
          exact hne ((idx_some hi').trans (idx_some hi).symm)
        rw [h1, h2, List.getElem?_set_ne hii]
        unfold pad
        by_cases hl : i' < l.length
        · left; rw [List.getElem?_append_left hl]
        · rw [List.getElem?_append_right (by omega), List.getElem?_replicate]
          split
          · right
            refine ⟨List.getElem?_eq_none (by omega), rfl, rfl, i', i, idx_some hi', idx_some hi,
              by omega⟩
          · left; rw [List.getElem?_eq_none (by omega)]
  | obj l =>
    left
    rw [← Except.ok.inj h]
    show List.lookup t' (put t x l) = List.lookup t' l
    rw [lookup_put, if_neg hne]

/-- What the place becomes. -/
theorem kind_setChild {t : Str} {x j j' : J V} (h : setChild t x j = .ok j') :
    (kind j = .arr ∧ kind j' = .arr) ∨ (kind j = .obj ∧ kind j' = .obj) ∨
    (j = .null ∧ t = ['0'] ∧ kind j' = .arr) ∨ (j = .null ∧ t ≠ ['0'] ∧ kind j' = .obj) := by
  cases j with
  | leaf v =>
    cases v with
    | none =>
      rw [setChild] at h
      split at h
      · rename_i ht
        rw [← Except.ok.inj h]
        exact Or.inr (Or.inr (Or.inl ⟨rfl, ht, rfl⟩))
      · rename_i ht
        rw [← Except.ok.inj h]
        exact Or.inr (Or.inr (Or.inr ⟨rfl, ht, rfl⟩))
    | some v => cases h
  | arr l =>
    rw [setChild] at h
    cases hi : idx t with
    | none => rw [hi] at h; cases h
    | some i =>
      rw [hi] at h
      rw [← Except.ok.inj h]
      exact Or.inl ⟨rfl, rfl⟩
  | obj l =>
    rw [← Except.ok.inj h]
    exact Or.inr (Or.inl ⟨rfl, rfl⟩)

theorem setChild_ok {t : Str} (x : J V) {j : J V}
    (h : j = .null ∨ kind j = .obj ∨ (kind j = .arr ∧ (idx t).isSome)) :
    ∃ j', setChild t x j = .ok j' := by
  cases j with
  | leaf v =>
    rcases h with h | h | h
    · cases h
      rw [setChild]; split <;> exact ⟨_, rfl⟩
    · cases h
    · cases h.1
  | arr l =>
    rcases h with h | h | h
    · cases h
    · cases h
    · obtain ⟨i, hi⟩ := Option.isSome_iff_exists.mp h.2
      rw [setChild, hi]; exact ⟨_, rfl⟩
  | obj l => exact ⟨_, rfl⟩

end RSVS.Json
