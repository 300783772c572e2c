import Mathlib.Data.List.Basic
import Mathlib.Data.List.Induction
import Mathlib.Order.Basic
import Mathlib.Tactic.Ring
import Verif.Spec.Mesh

/-!
# Helper lemmas on mesh connectivity
-/

namespace RSVS

section Generic
variable {α : Type} {ix : α → Int}

theorem bind_ok_iff {α β : Type} {x : Res α} {f : α → Res β} {b : β} :
    (x >>= f) = .ok b ↔ ∃ a, x = .ok a ∧ f a = .ok b := by
  cases x with
  | error e => simp [bind, Except.bind]
  | ok a => simp [bind, Except.bind]

theorem posOf_map (l : List α) (k : Int) : posOf ix l k = posOf id (l.map ix) k := by
  unfold posOf
  rw [List.findIdx?_map]
  rfl

theorem posOf_congr {l l' : List α} (h : l.map ix = l'.map ix) (k : Int) :
    posOf ix l k = posOf ix l' k := by
  rw [posOf_map, posOf_map l', h]

theorem posOf_cases (l : List α) (k : Int) :
    (posOf ix l k = -1 ∧ ∀ a ∈ l, ix a ≠ k) ∨
    (∃ p : Nat, posOf ix l k = p ∧ ∃ h : p < l.length, ix l[p] = k) := by
  unfold posOf
  cases h : l.findIdx? (fun a => ix a == k) with
  | none =>
    left
    rw [List.findIdx?_eq_none_iff] at h
    exact ⟨rfl, fun a ha => by simpa using h a ha⟩
  | some p =>
    right
    rw [List.findIdx?_eq_some_iff_getElem] at h
    obtain ⟨hp, h1, _⟩ := h
    exact ⟨p, rfl, hp, by simpa using h1⟩

theorem posOf_neg_iff (l : List α) (k : Int) : posOf ix l k < 0 ↔ ∀ a ∈ l, ix a ≠ k := by
  rcases posOf_cases (ix := ix) l k with ⟨h, h1⟩ | ⟨p, h, hp, h1⟩
  · exact ⟨fun _ => h1, fun _ => by omega⟩
  · constructor
    · intro h2; omega
    · intro h2; exact absurd h1 (h2 _ (List.getElem_mem hp))

theorem posOf_eq_neg_one_iff (l : List α) (k : Int) :
    posOf ix l k = -1 ↔ ∀ a ∈ l, ix a ≠ k := by
  rw [← posOf_neg_iff]
  rcases posOf_cases (ix := ix) l k with ⟨h, h1⟩ | ⟨p, h, hp, h1⟩ <;> omega

theorem posOf_mem {l : List α} {k : Int} (h : ∃ a ∈ l, ix a = k) :
    ∃ p : Nat, posOf ix l k = p ∧ ∃ h : p < l.length, ix l[p] = k := by
  rcases posOf_cases (ix := ix) l k with ⟨_, h1⟩ | h1
  · obtain ⟨a, ha, h2⟩ := h; exact absurd h2 (h1 a ha)
  · exact h1

theorem elemAt_nat (l : List α) (p : Nat) (h : p < l.length) :
    elemAt l (p : Int) = .ok l[p] := by
  unfold elemAt
  rw [if_neg (by omega)]
  simp [h]

theorem elemAt_posOf {l : List α} {k : Int} {a : α}
    (h : elemAt l (posOf ix l k) = .ok a) : a ∈ l ∧ ix a = k := by
  rcases posOf_cases (ix := ix) l k with ⟨h1, _⟩ | ⟨p, h1, hp, h2⟩
  · rw [h1] at h; simp [elemAt] at h
  · rw [h1, elemAt_nat l p hp] at h
    cases h
    exact ⟨List.getElem_mem hp, h2⟩

theorem elemAt_posOf_ok {l : List α} {k : Int} (h : ∃ a ∈ l, ix a = k) :
    ∃ a, elemAt l (posOf ix l k) = .ok a ∧ a ∈ l ∧ ix a = k := by
  obtain ⟨p, h1, hp, h2⟩ := posOf_mem h
  exact ⟨l[p], by rw [h1, elemAt_nat l p hp], List.getElem_mem hp, h2⟩

theorem modAt_posOf {l : List α} {k : Int} (hn : (l.map ix).Nodup)
    (h : ∃ a ∈ l, ix a = k) (f : α → α) :
    modAt l (posOf ix l k) f = .ok (l.map (fun a => if ix a = k then f a else a)) := by
  obtain ⟨p, h1, hp, h2⟩ := posOf_mem h
  rw [h1]
  unfold modAt
  rw [if_neg (by omega)]
  simp only [Int.toNat_natCast, hp, if_true]
  congr 1
  apply List.ext_getElem
  · simp
  · intro i hi hi'
    rw [List.getElem_modify, List.getElem_map]
    have hil : i < l.length := by simpa using hi'
    by_cases hip : p = i
    · subst hip; simp [h2]
    · rw [if_neg hip, if_neg]
      intro h3
      apply hip
      have h4 : (l.map ix)[p]'(by simpa using hp) = (l.map ix)[i]'(by simpa using hil) := by
        simp [h2, h3]
      exact (List.Nodup.getElem_inj_iff hn).mp h4

theorem modAt_posOf_inv {l l' : List α} {k : Int} {f : α → α}
    (h : modAt l (posOf ix l k) f = .ok l') : ∃ a ∈ l, ix a = k := by
  rcases posOf_cases (ix := ix) l k with ⟨h1, _⟩ | ⟨p, h1, hp, h2⟩
  · rw [h1] at h; simp [modAt] at h
  · exact ⟨l[p], List.getElem_mem hp, h2⟩

theorem map_if_index {l : List α} {f : α → α} (hf : ∀ a, ix (f a) = ix a) (P : α → Prop)
    [DecidablePred P] : (l.map (fun a => if P a then f a else a)).map ix = l.map ix := by
  rw [List.map_map]
  apply List.map_congr_left
  intro a _
  simp only [Function.comp]
  split
  · exact hf a
  · rfl

/-- The loops which edit every listed element. -/
theorem visit_eq {l0 : List α} {f : α → α} (hf : ∀ a, ix (f a) = ix a)
    (hff : ∀ a, f (f a) = f a) :
    ∀ (ks : List Int) (l : List α), (l.map ix).Nodup → l.map ix = l0.map ix →
      (∀ k ∈ ks, ∃ a ∈ l, ix a = k) →
      visit l (posList ix l0 ks) f =
        .ok (l.map (fun a => if ix a ∈ ks then f a else a)) := by
  intro ks
  induction ks with
  | nil => intro l _ _ _; simp [visit, posList]; rfl
  | cons k ks ih =>
    intro l hn h0 hk
    have h1 : modAt l (posOf ix l0 k) f
        = .ok (l.map (fun a => if ix a = k then f a else a)) := by
      rw [← posOf_congr h0]
      exact modAt_posOf hn (hk k (by simp)) f
    have hm := map_if_index (l := l) hf (fun a => ix a = k)
    have h2 := ih (l.map (fun a => if ix a = k then f a else a)) (by rw [hm]; exact hn)
      (by rw [hm, h0]) (by
        intro k' hk'
        obtain ⟨a, ha, h3⟩ := hk k' (by simp [hk'])
        refine ⟨if ix a = k then f a else a, List.mem_map.mpr ⟨a, ha, rfl⟩, ?_⟩
        split
        · rw [hf, h3]
        · exact h3)
    unfold visit at h2 ⊢
    simp only [posList, List.map_cons, List.foldlM_cons]
    rw [h1]
    show List.foldlM _ _ (posList ix l0 ks) = _
    rw [h2, List.map_map]
    congr 1
    apply List.map_congr_left
    intro a _
    simp only [Function.comp]
    by_cases h3 : ix a = k
    · subst h3
      by_cases h4 : ix a ∈ ks <;> simp [hf, h4, hff]
    · by_cases h4 : ix a ∈ ks <;> simp [h3, h4]

theorem visit_inv {l0 : List α} {f : α → α} (hf : ∀ a, ix (f a) = ix a) :
    ∀ (ks : List Int) (l l' : List α), l.map ix = l0.map ix →
      visit l (posList ix l0 ks) f = .ok l' → ∀ k ∈ ks, ∃ a ∈ l, ix a = k := by
  intro ks
  induction ks with
  | nil => intro l l' _ _; simp
  | cons k ks ih =>
    intro l l' h0 h
    unfold visit at h
    simp only [posList, List.map_cons, List.foldlM_cons] at h
    rw [bind_ok_iff] at h
    obtain ⟨l1, h1, h2⟩ := h
    rw [← posOf_congr h0] at h1
    have hex := modAt_posOf_inv h1
    have hm : l1.map ix = l.map ix := by
      unfold modAt at h1
      split at h1
      · cases h1
      · split at h1
        · cases h1
          apply List.ext_getElem
          · simp
          · intro i hi hi'
            simp only [List.getElem_map, List.getElem_modify]
            split
            · rw [hf]
            · rfl
        · cases h1
    have h3 := ih l1 l' (by rw [hm, h0]) h2
    intro k' hk'
    rcases List.mem_cons.mp hk' with rfl | hk'
    · exact hex
    · obtain ⟨a, ha, h4⟩ := h3 k' hk'
      have : k' ∈ l1.map ix := List.mem_map.mpr ⟨a, ha, h4⟩
      rw [hm] at this
      obtain ⟨b, hb, h5⟩ := List.mem_map.mp this
      exact ⟨b, hb, h5⟩

/-- The loops which skip what is not found. -/
theorem visitKnown_eq {l0 : List α} {f : α → α} (hf : ∀ a, ix (f a) = ix a)
    (hff : ∀ a, f (f a) = f a) :
    ∀ (ks : List Int) (l : List α), (l.map ix).Nodup → l.map ix = l0.map ix →
      visitKnown l (posList ix l0 ks) f =
        .ok (l.map (fun a => if ix a ∈ ks then f a else a)) := by
  intro ks
  induction ks with
  | nil => intro l _ _; simp [visitKnown, posList]; rfl
  | cons k ks ih =>
    intro l hn h0
    have h1 : (if posOf ix l0 k ≠ -1 then modAt l (posOf ix l0 k) f else .ok l)
        = .ok (l.map (fun a => if ix a = k then f a else a)) := by
      rw [← posOf_congr h0]
      by_cases hk : ∃ a ∈ l, ix a = k
      · obtain ⟨p, hp, _⟩ := posOf_mem hk
        rw [if_pos (by omega)]
        exact modAt_posOf hn hk f
      · have : posOf ix l k = -1 := by
          rw [posOf_eq_neg_one_iff]
          intro a ha h; exact hk ⟨a, ha, h⟩
        rw [if_neg (by simpa using this)]
        congr 1
        conv_lhs => rw [← List.map_id l]
        apply List.map_congr_left
        intro a ha
        rw [if_neg (fun h => hk ⟨a, ha, h⟩)]
        rfl
    have hm := map_if_index (l := l) hf (fun a => ix a = k)
    have h2 := ih (l.map (fun a => if ix a = k then f a else a)) (by rw [hm]; exact hn)
      (by rw [hm, h0])
    unfold visitKnown at h2 ⊢
    simp only [posList, List.map_cons, List.foldlM_cons]
    rw [h1]
    show List.foldlM _ _ (posList ix l0 ks) = _
    rw [h2, List.map_map]
    congr 1
    apply List.map_congr_left
    intro a _
    simp only [Function.comp]
    by_cases h3 : ix a = k
    · subst h3
      by_cases h4 : ix a ∈ ks <;> simp [hf, h4, hff]
    · by_cases h4 : ix a ∈ ks <;> simp [h3, h4]

end Generic

/-! ### Lists of indices -/

theorem mem_eraseAll {old x : Int} {l : List Int} : x ∈ eraseAll old l ↔ x ∈ l ∧ x ≠ old := by
  induction l with
  | nil => simp [eraseAll]
  | cons y l ih =>
    unfold eraseAll
    split
    · subst y; rw [ih]; constructor
      · rintro ⟨h1, h2⟩; exact ⟨by simp [h1], h2⟩
      · rintro ⟨h1, h2⟩
        rcases List.mem_cons.mp h1 with h | h
        · exact absurd h h2
        · exact ⟨h, h2⟩
    · simp only [List.mem_cons, ih]
      constructor
      · rintro (rfl | h)
        · exact ⟨Or.inl rfl, by assumption⟩
        · exact ⟨Or.inr h.1, h.2⟩
      · rintro ⟨rfl | h, h2⟩
        · exact Or.inl rfl
        · exact Or.inr ⟨h, h2⟩

theorem eraseAll_of_notMem {old : Int} {l : List Int} (h : old ∉ l) : eraseAll old l = l := by
  induction l with
  | nil => rfl
  | cons y l ih =>
    simp only [List.mem_cons, not_or] at h
    unfold eraseAll
    rw [if_neg (fun e => h.1 e.symm), ih h.2]

theorem eraseAll_eraseAll (old : Int) (l : List Int) :
    eraseAll old (eraseAll old l) = eraseAll old l := by
  apply eraseAll_of_notMem
  simp [mem_eraseAll]

theorem mem_replaceAll {old new x : Int} {l : List Int} :
    x ∈ replaceAll old new l ↔ (x ∈ l ∧ x ≠ old) ∨ (x = new ∧ old ∈ l) := by
  induction l with
  | nil => simp [replaceAll]
  | cons y l ih =>
    unfold replaceAll
    rw [List.mem_cons, ih, List.mem_cons, List.mem_cons]
    by_cases h : y = old
    · subst h; rw [if_pos rfl]
      constructor
      · rintro (h | h | h)
        · exact Or.inr ⟨h, Or.inl rfl⟩
        · exact Or.inl ⟨Or.inr h.1, h.2⟩
        · exact Or.inr ⟨h.1, Or.inr h.2⟩
      · rintro (⟨h | h, h2⟩ | ⟨h, _⟩)
        · exact absurd h h2
        · exact Or.inr (Or.inl ⟨h, h2⟩)
        · exact Or.inl h
    · rw [if_neg h]
      constructor
      · rintro (h1 | h1 | h1)
        · exact Or.inl ⟨Or.inl h1, fun h2 => h (h1.symm.trans h2)⟩
        · exact Or.inl ⟨Or.inr h1.1, h1.2⟩
        · exact Or.inr ⟨h1.1, Or.inr h1.2⟩
      · rintro (⟨h1 | h1, h2⟩ | ⟨h1, h2 | h2⟩)
        · exact Or.inl h1
        · exact Or.inr (Or.inl ⟨h1, h2⟩)
        · exact absurd h2.symm h
        · exact Or.inr (Or.inr ⟨h1, h2⟩)

theorem mem_uniqueAdj {x : Int} : ∀ {l : List Int}, x ∈ uniqueAdj l ↔ x ∈ l
  | [] => by simp [uniqueAdj]
  | [y] => by simp [uniqueAdj]
  | y :: z :: r => by
    unfold uniqueAdj
    split
    · rename_i h; subst h
      rw [mem_uniqueAdj]; simp
    · rw [List.mem_cons, mem_uniqueAdj]; simp

theorem uniqueAdj_sorted : ∀ {l : List Int}, l.Pairwise (· ≤ ·) → (uniqueAdj l).Pairwise (· < ·)
  | [], _ => by simp [uniqueAdj]
  | [y], _ => by simp [uniqueAdj]
  | y :: z :: r, h => by
    unfold uniqueAdj
    rw [List.pairwise_cons] at h
    split
    · exact uniqueAdj_sorted h.2
    · rename_i hyz
      rw [List.pairwise_cons]
      refine ⟨?_, uniqueAdj_sorted h.2⟩
      intro w hw
      rw [mem_uniqueAdj] at hw
      have h1 : y < z := lt_of_le_of_ne (h.1 z (by simp)) hyz
      rcases List.mem_cons.mp hw with rfl | hw
      · exact h1
      · exact lt_of_lt_of_le h1 ((List.pairwise_cons.mp h.2).1 w hw)

theorem uniqueAdj_of_strict : ∀ {l : List Int}, l.Pairwise (· < ·) → uniqueAdj l = l
  | [], _ => rfl
  | [y], _ => rfl
  | y :: z :: r, h => by
    unfold uniqueAdj
    rw [List.pairwise_cons] at h
    rw [if_neg (ne_of_lt (h.1 z (by simp))), uniqueAdj_of_strict h.2]

theorem mem_sortUnique {x : Int} {l : List Int} : x ∈ sortUnique l ↔ x ∈ l := by
  unfold sortUnique
  rw [mem_uniqueAdj]
  exact (List.perm_insertionSort (· ≤ ·) l).mem_iff

theorem sortUnique_strict (l : List Int) : (sortUnique l).Pairwise (· < ·) :=
  uniqueAdj_sorted (List.pairwise_insertionSort (· ≤ ·) l)

theorem sortUnique_of_strict {l : List Int} (h : l.Pairwise (· < ·)) : sortUnique l = l := by
  unfold sortUnique
  rw [List.Pairwise.insertionSort_eq (h.imp (fun h => le_of_lt h)), uniqueAdj_of_strict h]

/-! ### The loop over the volumes of a surface -/

namespace Mesh

theorem eraseVoluLoop_ok (old : Int) (h0 : old ≠ 0) :
    ∀ (fuel : Nat) (done todo : List Int), todo.length + todo.count old < fuel → old ∉ done →
      ∃ r, eraseVoluLoop old fuel done todo = .ok r ∧ old ∉ r ∧
        (∀ x, x ≠ 0 → x ≠ old → (x ∈ r ↔ x ∈ done ∨ x ∈ todo)) ∧
        (old ∉ todo → r = done ++ todo) ∧
        (done.length + todo.length = 2 → r.length = 2) := by
  intro fuel
  induction fuel with
  | zero => intro done todo h; omega
  | succ fuel ih =>
    intro done todo hf hd
    cases todo with
    | nil => exact ⟨done, rfl, hd, by simp, by simp, by simp⟩
    | cons x rest =>
      unfold eraseVoluLoop
      by_cases hx : x = old
      · subst hx
        rw [if_pos rfl]
        simp only [List.length_cons, List.count_cons_self] at hf
        by_cases hl : done.length + rest.length < 2
        · simp only [hl, if_true]
          have hc : (rest ++ [0]).count x = rest.count x := by
            rw [List.count_append]
            simp [h0.symm]
          obtain ⟨r, h1, h2, h3, _, h5⟩ := ih done (rest ++ [0]) (by
            rw [hc]; simp; omega) hd
          refine ⟨r, h1, h2, ?_, by simp, ?_⟩
          · intro y hy hyx
            rw [h3 y hy hyx]
            simp [hy, hyx]
          · intro h; apply h5; simp at h ⊢; omega
        · simp only [hl, if_false]
          obtain ⟨r, h1, h2, h3, _, h5⟩ := ih done rest (by omega) hd
          refine ⟨r, h1, h2, ?_, by simp, ?_⟩
          · intro y hy hyx
            rw [h3 y hy hyx]
            simp [hyx]
          · intro h; exfalso; simp at h; omega
      · rw [if_neg hx]
        obtain ⟨r, h1, h2, h3, h4, h5⟩ := ih (done ++ [x]) rest (by
          simp only [List.length_cons] at hf
          have := List.count_cons_of_ne (l := rest) hx
          omega) (by simp [hd]; exact fun h => hx h.symm)
        refine ⟨r, h1, h2, ?_, ?_, ?_⟩
        · intro y hy hyx
          rw [h3 y hy hyx]
          simp [or_assoc]
        · intro h
          rw [h4 (fun h' => h (by simp [h']))]; simp
        · intro h; apply h5; simp at h ⊢; omega

theorem eraseVolu_ok (old : Int) (h0 : old ≠ 0) (l : List Int) :
    ∃ r, eraseVolu old l = .ok r ∧ old ∉ r ∧
      (∀ x, x ≠ 0 → x ≠ old → (x ∈ r ↔ x ∈ l)) ∧ (old ∉ l → r = l) ∧
      (l.length = 2 → r.length = 2) := by
  obtain ⟨r, h1, h2, h3, h4, h5⟩ := eraseVoluLoop_ok old h0 (2 * l.length + 1) [] l
    (by have := List.count_le_length (a := old) (l := l); omega) (by simp)
  exact ⟨r, h1, h2, by simpa using h3, by simpa using h4, by simpa using h5⟩

/-- The value of the loop when it ends. -/
def eraseVoluVal (old : Int) (l : List Int) : List Int :=
  match eraseVolu old l with
  | .ok r => r
  | .error _ => l

theorem eraseVoluVal_spec {old : Int} (h0 : old ≠ 0) (l : List Int) :
    eraseVolu old l = .ok (eraseVoluVal old l) ∧ old ∉ eraseVoluVal old l ∧
      (∀ x, x ≠ 0 → x ≠ old → (x ∈ eraseVoluVal old l ↔ x ∈ l)) ∧
      (old ∉ l → eraseVoluVal old l = l) ∧
      (l.length = 2 → (eraseVoluVal old l).length = 2) := by
  obtain ⟨r, h1, h2, h3, h4, h5⟩ := eraseVolu_ok old h0 l
  have : eraseVoluVal old l = r := by simp [eraseVoluVal, h1]
  rw [this]
  exact ⟨h1, h2, h3, h4, h5⟩

theorem removeVoluStep_eq {old : Int} (h0 : old ≠ 0) (l : List Surf) (p : Int) :
    removeVoluStep old l p
      = modAt l p (fun s => { s with voluind := eraseVoluVal old s.voluind }) := by
  unfold removeVoluStep elemAt modAt
  by_cases hp : p < 0
  · simp [hp]; rfl
  · simp only [hp, if_false]
    by_cases h : p.toNat < l.length
    · simp only [List.getElem?_eq_getElem h, h, if_true]
      show (eraseVolu old l[p.toNat].voluind >>= fun v => _) = _
      rw [(eraseVoluVal_spec h0 _).1]
      show Except.ok _ = Except.ok _
      congr 1
      apply List.ext_getElem
      · simp
      · intro i hi hi'
        rw [List.getElem_modify, List.getElem_modify]
        split
        · rename_i h; subst h; rfl
        · rfl
    · rw [List.getElem?_eq_none (by omega)]
      simp [h]; rfl

theorem removeVolu_fold {old : Int} (h0 : old ≠ 0) (l : List Surf) (ps : List Int) :
    ps.foldlM (removeVoluStep old) l
      = visit l ps (fun s => { s with voluind := eraseVoluVal old s.voluind }) := by
  unfold visit
  congr 1
  funext l p
  exact removeVoluStep_eq h0 l p

end Mesh

end RSVS
