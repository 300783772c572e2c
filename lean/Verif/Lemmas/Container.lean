import Verif.Model.Container
import Verif.Spec.Container
import Mathlib.Data.List.Perm.Basic
import Mathlib.Data.List.Nodup
import Mathlib.Order.Basic
import Mathlib.Algebra.Order.Ring.Int

/-! Helper lemmas for the container properties. -/

namespace RSVS.ArrayStruct

open RSVS

variable {α κ : Type}

theorem mem_hashPairs (key : α → κ) (k : κ) (p : Nat) :
    ∀ (l : List α) (s : Nat),
      (k, p) ∈ hashPairs key s l ↔ s ≤ p ∧ ∃ e, l[p - s]? = some e ∧ key e = k
  | [], s => by simp [hashPairs]
  | a :: l, s => by
      rw [hashPairs, List.mem_cons, mem_hashPairs key k p l (s + 1)]
      constructor
      · rintro (h | ⟨h1, e, h2, h3⟩)
        · simp only [Prod.mk.injEq] at h
          obtain ⟨hk, rfl⟩ := h
          exact ⟨le_refl _, a, by simp, hk.symm⟩
        · refine ⟨by omega, e, ?_, h3⟩
          have : p - s = (p - (s + 1)) + 1 := by omega
          rw [this]; simpa using h2
      · rintro ⟨h1, e, h2, h3⟩
        rcases Nat.eq_or_lt_of_le h1 with h | h
        · left
          subst h
          simp at h2
          subst h2
          simp [h3]
        · right
          refine ⟨h, e, ?_, h3⟩
          have : p - s = (p - (s + 1)) + 1 := by omega
          rw [this] at h2; simpa using h2

theorem hashPairs_append (key : α → κ) (e : α) :
    ∀ (l : List α) (s : Nat),
      hashPairs key s (l ++ [e]) = hashPairs key s l ++ [(key e, s + l.length)]
  | [], s => by simp [hashPairs]
  | a :: l, s => by
      simp only [List.cons_append, hashPairs, hashPairs_append key e l (s + 1), List.length_cons]
      congr 4; omega

theorem hashPairs_map (key : α → κ) (f : α → α) (hf : ∀ a, key (f a) = key a) :
    ∀ (l : List α) (s : Nat), hashPairs key s (l.map f) = hashPairs key s l
  | [], _ => rfl
  | a :: l, s => by simp [hashPairs, hf, hashPairs_map key f hf l (s + 1)]

theorem hashPairs_snd_nodup (key : α → κ) :
    ∀ (l : List α) (s : Nat), ((hashPairs key s l).map Prod.snd).Nodup
  | [], _ => by simp [hashPairs]
  | a :: l, s => by
      simp only [hashPairs, List.map_cons, List.nodup_cons]
      refine ⟨?_, hashPairs_snd_nodup key l (s + 1)⟩
      intro h
      obtain ⟨⟨k, p⟩, hp, rfl⟩ := List.mem_map.1 h
      have := ((mem_hashPairs key k p l (p + 1)).1 hp).1
      omega

/-- A table in any order agrees with the elements. -/
def TableOK (key : α → κ) (l : List α) (t : TableOf κ) : Prop := t.Perm (hashPairs key 0 l)

theorem TableOK.mem {key : α → κ} {l : List α} {t : TableOf κ} (h : TableOK key l t)
    (k : κ) (p : Nat) : (k, p) ∈ t ↔ ∃ e, l[p]? = some e ∧ key e = k := by
  rw [h.mem_iff, mem_hashPairs]; simp

theorem TableOK.lookup_some [DecidableEq κ] {key : α → κ} {l : List α} {t : TableOf κ} (h : TableOK key l t)
    {k : κ} {p : Nat} (hl : lookup t k = some p) : ∃ e, l[p]? = some e ∧ key e = k := by
  unfold lookup at hl
  rw [Option.map_eq_some_iff] at hl
  obtain ⟨⟨k', p'⟩, h1, h2⟩ := hl
  have hk : k' = k := by simpa using List.find?_some h1
  have hm := List.mem_of_find?_eq_some h1
  simp at h2
  subst hk h2
  exact (h.mem _ _).1 hm

theorem TableOK.lookup_none [DecidableEq κ] {key : α → κ} {l : List α} {t : TableOf κ} (h : TableOK key l t)
    {k : κ} (hl : lookup t k = none) : ∀ e ∈ l, key e ≠ k := by
  intro e he hk
  unfold lookup at hl
  rw [Option.map_eq_none_iff, List.find?_eq_none] at hl
  obtain ⟨p, hp⟩ := List.mem_iff_getElem?.1 he
  have := hl (k, p) ((h.mem k p).2 ⟨e, hp, hk⟩)
  simp at this

theorem TableOK.allPos [DecidableEq κ] {key : α → κ} {l : List α} {t : TableOf κ} (h : TableOK key l t) (k : κ) :
    Spec.AllPos key l k ((t.filter (fun p => p.1 == k)).map Prod.snd) := by
  constructor
  · have h1 : (t.map Prod.snd).Nodup := (h.map Prod.snd).nodup_iff.2 (hashPairs_snd_nodup key l 0)
    exact h1.sublist (List.filter_sublist.map _)
  · intro p
    rw [← h.mem k p]
    constructor
    · intro hp
      obtain ⟨⟨k', p'⟩, hm, rfl⟩ := List.mem_map.1 hp
      rw [List.mem_filter] at hm
      have : k' = k := by simpa using hm.2
      subst this; exact hm.1
    · intro hp
      exact List.mem_map.2 ⟨(k, p), List.mem_filter.2 ⟨hp, by simp⟩, rfl⟩

variable [Part α]

theorem find_of_tableOK {s : ArrayStruct α} (h : TableOK idx s.elems s.table) (k : Int) :
    ∃ r, s.find k = .ok r ∧ Spec.GoodPos idx s.elems k r := by
  unfold find
  cases hl : lookup s.table k with
  | none => exact ⟨-1, rfl, Or.inl ⟨rfl, h.lookup_none hl⟩⟩
  | some p =>
    obtain ⟨e, he, hk⟩ := h.lookup_some hl
    refine ⟨p, ?_, Or.inr ⟨p, rfl, e, he, hk⟩⟩
    simp [he, hk]

theorem maxLoop_isMax : ∀ l : List α, Spec.IsMaxKey idx l (maxLoop l)
  | [] => ⟨by simp, Or.inl rfl⟩
  | a :: l => by
      obtain ⟨h1, h2⟩ := maxLoop_isMax l
      have hdef : maxLoop (a :: l) = if maxLoop l < idx a then idx a else maxLoop l := rfl
      rw [hdef]
      split
      · rename_i hlt
        refine ⟨?_, Or.inr ⟨a, by simp, rfl⟩⟩
        intro e he
        rcases List.mem_cons.1 he with rfl | he
        · exact le_refl _
        · exact le_of_lt (lt_of_le_of_lt (h1 e he) hlt)
      · rename_i hlt
        refine ⟨?_, ?_⟩
        · intro e he
          rcases List.mem_cons.1 he with rfl | he
          · omega
          · exact h1 e he
        · rcases h2 with h | ⟨e, he, h⟩
          · exact Or.inl h
          · exact Or.inr ⟨e, List.mem_cons_of_mem _ he, h⟩

theorem populateFrom_mem (l : List α) : ∀ (s : Nat) (e : α), e ∈ populateFrom s l →
    (s : Int) + 1 ≤ idx e ∧ idx e ≤ s + l.length := by
  induction l with
  | nil => intro s e h; simp [populateFrom] at h
  | cons a l ih =>
    intro s e h
    rw [populateFrom, List.mem_cons] at h
    rcases h with rfl | h
    · rw [Part.idx_setIdx]; simp only [List.length_cons]; push_cast; omega
    · have := ih (s + 1) e h
      simp only [List.length_cons]
      push_cast at this ⊢
      omega

theorem populateFrom_last (l : List α) (hl : l ≠ []) : ∀ s : Nat, ∃ e ∈ populateFrom s l,
    idx e = (s : Int) + l.length := by
  induction l with
  | nil => exact absurd rfl hl
  | cons a l ih =>
    intro s
    by_cases h : l = []
    · subst h
      exact ⟨_, by simp [populateFrom]; rfl, by rw [Part.idx_setIdx]; simp⟩
    · obtain ⟨e, he, hi⟩ := ih h (s + 1)
      refine ⟨e, by rw [populateFrom]; exact List.mem_cons_of_mem _ he, ?_⟩
      rw [hi]; push_cast; simp only [List.length_cons]; push_cast; omega

theorem isMax_map {l : List α} {m : Int} (f : α → α) (hf : ∀ a, idx (f a) = idx a)
    (h : Spec.IsMaxKey idx l m) : Spec.IsMaxKey idx (l.map f) m := by
  obtain ⟨h1, h2⟩ := h
  refine ⟨?_, ?_⟩
  · intro e he
    obtain ⟨a, ha, rfl⟩ := List.mem_map.1 he
    rw [hf]; exact h1 a ha
  · rcases h2 with h | ⟨e, he, h⟩
    · exact Or.inl h
    · exact Or.inr ⟨f e, List.mem_map.2 ⟨e, he, rfl⟩, by rw [hf]; exact h⟩

/-- The invariant kept by all public operations. -/
structure Inv (s : ArrayStruct α) : Prop where
  hash : s.isHash = true → TableOK idx s.elems s.table
  max : s.isSetMI = true → Spec.IsMaxKey idx s.elems s.maxIndex

theorem Inv.setMax {s : ArrayStruct α} (h : Inv s) : Inv s.setMaxIndex :=
  ⟨h.hash, fun _ => maxLoop_isMax s.elems⟩

theorem Inv.hashArray {s : ArrayStruct α} (h : Inv s) : Inv s.hashArray :=
  ⟨fun _ => List.Perm.refl _, h.max⟩

theorem Inv.map {s : ArrayStruct α} (f : α → α) (hf : ∀ a, idx (f a) = idx a) (h : Inv s) :
    Inv { s with elems := s.elems.map f } := by
  refine ⟨fun hh => ?_, fun hh => isMax_map f hf (h.max hh)⟩
  have := h.hash hh
  unfold TableOK at *
  rw [hashPairs_map idx f hf]; exact this

theorem Inv.congr {s t : ArrayStruct α} (h : Inv s) (h1 : t.elems = s.elems)
    (h2 : t.table = s.table) (h3 : t.isHash = s.isHash) (h4 : t.isSetMI = s.isSetMI)
    (h5 : t.maxIndex = s.maxIndex) : Inv t := by
  refine ⟨fun hh => ?_, fun hh => ?_⟩
  · rw [h1, h2]; exact h.hash (h3 ▸ hh)
  · rw [h1, h5]; exact h.max (h4 ▸ hh)

theorem inv_of_flags_false {s : ArrayStruct α} (h1 : s.isHash = false) (h2 : s.isSetMI = false) :
    Inv s := ⟨fun h => by simp [h1] at h, fun h => by simp [h2] at h⟩

theorem Inv.clear {s : ArrayStruct α} (_h : Inv s) : Inv s.clear :=
  ⟨fun _ => List.Perm.refl _, fun _ => ⟨by simp [ArrayStruct.clear], Or.inl rfl⟩⟩

theorem Inv.pushBack {s : ArrayStruct α} (h : Inv s) (e : α) : Inv (s.pushBack e) := by
  refine ⟨fun hh => ?_, fun hh => ?_⟩
  · have := h.hash hh
    unfold TableOK at *
    simp only [ArrayStruct.pushBack]
    rw [hashPairs_append]
    simp only [Nat.zero_add]
    exact (List.Perm.cons _ this).trans (List.perm_append_singleton _ _).symm
  · obtain ⟨h1, h2⟩ := h.max hh
    simp only [ArrayStruct.pushBack]
    refine ⟨?_, ?_⟩
    · intro a ha
      rw [List.mem_append, List.mem_singleton] at ha
      rcases ha with ha | rfl
      · have := h1 a ha
        split <;> omega
      · split <;> omega
    · split
      · exact Or.inr ⟨e, by simp, rfl⟩
      · rcases h2 with h | ⟨a, ha, h⟩
        · exact Or.inl h
        · exact Or.inr ⟨a, by simp [ha], h⟩

theorem Inv.prepare {s : ArrayStruct α} (h : Inv s) : Inv s.prepareForUse := by
  have h1 := h.map Part.prep Part.idx_prep
  unfold prepareForUse
  dsimp only
  split_ifs
  · exact h1.congr rfl rfl rfl rfl rfl
  · exact h1.hashArray.congr rfl rfl rfl rfl rfl
  · exact h1.setMax.congr rfl rfl rfl rfl rfl
  · exact h1.setMax.hashArray.congr rfl rfl rfl rfl rfl

theorem Inv.edit {s : ArrayStruct α} (h : Inv s) (i : Nat) (f : α → α) : Inv (s.edit i f) := by
  unfold ArrayStruct.edit
  split
  · exact inv_of_flags_false rfl rfl
  · exact h

theorem Inv.populate {s : ArrayStruct α} : Inv s.populateIndices := by
  refine ⟨fun _ => List.Perm.refl _, fun _ => ?_⟩
  show Spec.IsMaxKey idx (populateFrom 0 s.elems) (s.elems.length : Int)
  refine ⟨fun e he => by simpa using (populateFrom_mem s.elems 0 e he).2, ?_⟩
  by_cases hl : s.elems = []
  · left; simp [hl]
  · right
    obtain ⟨e, he, hi⟩ := populateFrom_last s.elems hl 0
    exact ⟨e, he, by simpa using hi⟩

theorem Inv.run {s : ArrayStruct α} (h : Inv s) (o : Op α) : Inv (o.run s) := by
  cases o with
  | clear => exact h.clear
  | assign n e => exact inv_of_flags_false rfl rfl
  | init n d => exact inv_of_flags_false rfl rfl
  | pushBack e => exact h.pushBack e
  | edit i f => exact h.edit i f
  | remove l => exact inv_of_flags_false rfl rfl
  | concatenate l => exact inv_of_flags_false rfl rfl
  | populate => exact Inv.populate
  | change a b c d => exact inv_of_flags_false rfl rfl
  | tighten => exact h.map _ Part.idx_tighten
  | hash => exact h.hashArray
  | setMax => exact h.setMax
  | prepare => exact h.prepare
  | checkReady => exact h.congr rfl rfl rfl rfl rfl
  | read d l m => exact inv_of_flags_false rfl rfl

theorem Inv.perm {s : ArrayStruct α} (h : Inv s) {t : Table} (ht : t.Perm s.table) :
    Inv { s with table := t } :=
  ⟨fun hh => ht.trans (h.hash hh), h.max⟩

theorem Inv.of_reach {h : List (Op α)} {s : ArrayStruct α} (hr : Reach h s) : Inv s := by
  induction hr with
  | start m => exact inv_of_flags_false rfl rfl
  | step o t _ ht ih => exact (ih.run o).perm ht

end RSVS.ArrayStruct
