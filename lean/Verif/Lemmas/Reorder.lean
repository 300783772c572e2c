import Verif.Spec.Reorder
import Mathlib.Data.List.Dedup
import Mathlib.Data.List.Induction
import Mathlib.Data.List.Perm.Basic

/-!
# The loops over the snaxels of the edges
-/

namespace RSVS.Reorder

open RSVS.Spec

variable {K : Type} [Field K] [LinearOrder K]

theorem filterMap_range_filter {α κ : Type} [DecidableEq κ] (key : α → κ) (e : κ) (l : List α) :
    ((List.range l.length).filter fun p => decide ((l[p]?).map key = some e)).filterMap (fun p => l[p]?) = l.filter fun s => decide (key s = e) := by
  induction l using List.reverseRecOn with
  | nil => rfl
  | append_singleton l a ih =>
    rw [List.length_append, List.length_singleton, List.range_succ, List.filter_append, List.filterMap_append, List.filter_append]
    have h1 : ((List.range l.length).filter fun p => decide (((l ++ [a])[p]?).map key = some e)) =
        (List.range l.length).filter fun p => decide ((l[p]?).map key = some e) := by
      apply List.filter_congr
      intro p hp
      rw [List.getElem?_append_left (List.mem_range.mp hp)]
    have h2 : ((List.range l.length).filter fun p => decide ((l[p]?).map key = some e)).filterMap (fun p => (l ++ [a])[p]?) =
        ((List.range l.length).filter fun p => decide ((l[p]?).map key = some e)).filterMap (fun p => l[p]?) := by
      apply List.filterMap_congr
      intro p hp
      rw [List.getElem?_append_left (List.mem_range.mp (List.mem_filter.mp hp).1)]
    rw [h1, h2, ih]
    congr 1
    by_cases h : key a = e <;> simp [h]

theorem allPos_perm {α κ : Type} [DecidableEq κ] {key : α → κ} {e : κ} {l : List α} {subs : List Nat} (h : AllPos key l e subs) :
    (subs.filterMap fun p => l[p]?).Perm (l.filter fun s => decide (key s = e)) := by
  rw [← filterMap_range_filter]
  apply List.Perm.filterMap
  rw [List.perm_ext_iff_of_nodup h.1 (List.nodup_range.filter _)]
  intro p
  rw [h.2, List.mem_filter, List.mem_range]
  constructor
  · rintro ⟨s, hs, hk⟩
    exact ⟨(List.getElem?_eq_some_iff.mp hs).1, by simp [hs, hk]⟩
  · rintro ⟨-, h2⟩
    simpa using h2

theorem filterMap_length {α : Type} {l : List α} : ∀ {subs : List Nat}, (∀ p ∈ subs, p < l.length) → (subs.filterMap fun p => l[p]?).length = subs.length
  | [], _ => rfl
  | p :: ps, h => by
    rw [List.filterMap_cons, List.getElem?_eq_getElem (h p (List.mem_cons_self ..)), List.length_cons, List.length_cons,
      filterMap_length fun q hq => h q (List.mem_cons_of_mem _ hq)]

theorem allPos_lt {α κ : Type} {key : α → κ} {e : κ} {l : List α} {subs : List Nat} (h : AllPos key l e subs) : ∀ p ∈ subs, p < l.length := by
  intro p hp
  obtain ⟨s, hs, -⟩ := (h.2 p).mp hp
  exact (List.getElem?_eq_some_iff.mp hs).1

theorem modifies_get {α : Type} (f : α → α) : ∀ (subs : List Nat) (l : List α), subs.Nodup → ∀ i,
    (subs.foldl (fun l p => l.modify p f) l)[i]? = if i ∈ subs then (l[i]?).map f else l[i]?
  | [], l, _, i => by simp
  | p :: ps, l, hn, i => by
    have hn' := List.nodup_cons.mp hn
    rw [List.foldl_cons, modifies_get f ps _ hn'.2, List.getElem?_modify]
    by_cases hi : i = p
    · subst hi; simp [hn'.1]
    · have : p ≠ i := fun e => hi e.symm
      simp [hi, this]

theorem modifies_map {α κ : Type} [DecidableEq κ] {key : α → κ} {e : κ} {l : List α} {subs : List Nat} (h : AllPos key l e subs) (f : α → α) :
    subs.foldl (fun l p => l.modify p f) l = l.map fun s => if key s = e then f s else s := by
  apply List.ext_getElem?
  intro i
  rw [modifies_get f subs l h.1, List.getElem?_map]
  by_cases hi : i ∈ subs
  · rw [if_pos hi]
    obtain ⟨s, hs, hk⟩ := (h.2 i).mp hi
    simp [hs, hk]
  · rw [if_neg hi]
    cases hs : l[i]? with
    | none => rfl
    | some s =>
      have : key s ≠ e := fun hk => hi ((h.2 i).mpr ⟨s, hs, hk⟩)
      simp [this]

theorem allPos_map {α κ : Type} {key : α → κ} {e : κ} {l : List α} {subs : List Nat} (h : AllPos key l e subs) (g : α → α) (hg : ∀ s, key (g s) = key s) :
    AllPos key (l.map g) e subs := by
  refine ⟨h.1, fun p => ?_⟩
  rw [h.2]
  constructor
  · rintro ⟨s, hs, hk⟩
    exact ⟨g s, by simp [hs], by rw [hg, hk]⟩
  · rintro ⟨s, hs, hk⟩
    rw [List.getElem?_map, Option.map_eq_some_iff] at hs
    obtain ⟨s', hs', rfl⟩ := hs
    exact ⟨s', hs', by rw [← hg, hk]⟩

omit [Field K] [LinearOrder K] in
theorem change_fold (f : Snax K → Snax K) : ∀ (subs : List Nat) (l : List (Snax K)), (∀ p ∈ subs, p < l.length) →
    subs.foldlM (m := Except Fault) (fun l p => change l p f) l = .ok (subs.foldl (fun l p => l.modify p f) l)
  | [], _, _ => rfl
  | p :: ps, l, h => by
    have hstep : change l p f = .ok (l.modify p f) := by
      unfold change
      rw [if_pos (h p (List.mem_cons_self ..))]
    rw [List.foldlM_cons, hstep]
    exact change_fold f ps _ fun q hq => by rw [List.length_modify]; exact h q (List.mem_cons_of_mem _ hq)

omit [Field K] [LinearOrder K] in
theorem max_fold (l : List (Snax K)) : ∀ (subs : List Nat) (m : Int), (∀ p ∈ subs, p < l.length) →
    subs.foldlM (m := Except Fault) (maxStep l) m = .ok ((subs.filterMap fun p => l[p]?).foldl (fun m s => max m s.orderedge) m)
  | [], _, _ => rfl
  | p :: ps, m, h => by
    have hp := h p (List.mem_cons_self ..)
    have hstep : maxStep l m p = .ok (max m l[p].orderedge) := by
      unfold maxStep ordAt
      rw [List.getElem?_eq_getElem hp, max_def]
      rfl
    rw [List.foldlM_cons, hstep, List.filterMap_cons, List.getElem?_eq_getElem hp]
    exact max_fold l ps _ fun q hq => h q (List.mem_cons_of_mem _ hq)

/-- The largest number of a list of snaxels, or 0. -/
def bigOrd (g : List (Snax K)) : Int := g.foldl (fun m s => max m s.orderedge) 0

omit [Field K] [LinearOrder K] in
theorem bigOrd_perm {g g' : List (Snax K)} (h : g.Perm g') : bigOrd g = bigOrd g' := by
  unfold bigOrd
  apply h.foldl_eq'
  intro x _ y _ z
  rw [max_right_comm]

omit [Field K] [LinearOrder K] in
theorem bigOrd_aux : ∀ (g : List (Snax K)) (m : Int), m ≤ g.foldl (fun m s => max m s.orderedge) m ∧
    (∀ s ∈ g, s.orderedge ≤ g.foldl (fun m s => max m s.orderedge) m) ∧
    (g.foldl (fun m s => max m s.orderedge) m = m ∨ ∃ s ∈ g, g.foldl (fun m s => max m s.orderedge) m = s.orderedge)
  | [], m => by simp
  | a :: g, m => by
    obtain ⟨h1, h2, h3⟩ := bigOrd_aux g (max m a.orderedge)
    rw [List.foldl_cons]
    have ha : a.orderedge ≤ max m a.orderedge := le_max_right _ _
    have hm : m ≤ max m a.orderedge := le_max_left _ _
    refine ⟨by omega, ?_, ?_⟩
    · intro s hs
      rcases List.mem_cons.mp hs with rfl | hs
      · omega
      · exact h2 s hs
    · rcases h3 with h3 | ⟨s, hs, h3⟩
      · rcases max_choice m a.orderedge with h | h
        · left; omega
        · right; exact ⟨a, List.mem_cons_self .., by omega⟩
      · right; exact ⟨s, List.mem_cons_of_mem _ hs, h3⟩

/-- The snaxel with a number if it is new. -/
def placed (m : Int) (s : Snax K) : Snax K := if s.orderedge = -1 then placeNew m s else s

/-- A new snaxel that goes before all others. -/
def isLow (m : Int) (s : Snax K) : Bool := decide (s.orderedge = -1) && decide ((placeNew m s).orderedge = 0)

theorem new_fold (m : Int) : ∀ (subs : List Nat) (l : List (Snax K)) (b : Bool), subs.Nodup → (∀ p ∈ subs, p < l.length) →
    subs.foldlM (m := Except Fault) (newStep m) (l, b) =
      .ok (subs.foldl (fun l p => l.modify p (placed m)) l, b || (subs.filterMap fun p => l[p]?).any (isLow m))
  | [], l, b, _, _ => by simp; rfl
  | p :: ps, l, b, hn, h => by
    have hn' := List.nodup_cons.mp hn
    have hp := h p (List.mem_cons_self ..)
    have hstep : newStep m (l, b) p = .ok (l.modify p (placed m), b || isLow m l[p]) := by
      unfold newStep ordAt change
      simp only [List.getElem?_eq_getElem hp, Except.bind, Except.map, if_pos hp]
      by_cases ho : l[p].orderedge = -1
      · rw [if_pos ho]
        have hm : l.modify p (placeNew m) = l.modify p (placed m) := by
          apply List.ext_getElem?
          intro i
          rw [List.getElem?_modify, List.getElem?_modify]
          by_cases hi : p = i
          · subst hi; simp [List.getElem?_eq_getElem hp, placed, ho]
          · simp [hi]
        have hl : p < (l.modify p (placeNew m)).length := by rw [List.length_modify]; exact hp
        rw [List.getElem?_eq_getElem hl, List.getElem_modify, if_pos rfl, ← hm]
        simp [isLow, ho]
      · rw [if_neg ho]
        have hm : l = l.modify p (placed m) := by
          apply List.ext_getElem?
          intro i
          rw [List.getElem?_modify]
          by_cases hi : p = i
          · subst hi; simp [List.getElem?_eq_getElem hp, placed, ho]
          · simp [hi]
        rw [← hm]
        simp [isLow, ho]
    rw [List.foldlM_cons, hstep]
    have hrest : (ps.filterMap fun q => (l.modify p (placed m))[q]?) = ps.filterMap fun q => l[q]? := by
      apply List.filterMap_congr
      intro q hq
      have : p ≠ q := by rintro rfl; exact hn'.1 hq
      rw [List.getElem?_modify]
      simp [this]
    have ih := new_fold m ps (l.modify p (placed m)) (b || isLow m l[p]) hn'.2
      (fun q hq => by rw [List.length_modify]; exact h q (List.mem_cons_of_mem _ hq))
    rw [hrest] at ih
    rw [List.filterMap_cons, List.getElem?_eq_getElem hp, List.any_cons, ← Bool.or_assoc]
    exact ih

/-- The snaxels of the edge. -/
def grp (l : List (Snax K)) (e : Int) : List (Snax K) := l.filter fun s => decide (s.edgeind = e)

/-- The number of a snaxel in the end. -/
def finalOrd (l : List (Snax K)) (s : Snax K) : Int :=
  let g := grp l s.edgeind
  if g.length > 1 then (placed (bigOrd g) s).orderedge + if g.any (isLow (bigOrd g)) then 1 else 0 else 1

theorem placed_edge (m : Int) (s : Snax K) : (placed m s).edgeind = s.edgeind := by
  unfold placed placeNew
  split <;> rfl

theorem placed_eq (m : Int) (s : Snax K) : placed m s = { s with orderedge := (placed m s).orderedge } := by
  unfold placed placeNew
  split <;> rfl

theorem reorderOne_ok {subs : List Nat} {l : List (Snax K)} {e : Int} (h : AllPos Snax.edgeind l e subs) (hne : ∃ s ∈ l, s.edgeind = e) :
    reorderOne subs l = .ok (l.map fun s => if s.edgeind = e then { s with orderedge := finalOrd l s } else s) := by
  have hlt := allPos_lt h
  have hperm : (subs.filterMap fun p => l[p]?).Perm (grp l e) := allPos_perm h
  have hlen : subs.length = (grp l e).length := by rw [← hperm.length_eq, filterMap_length hlt]
  unfold reorderOne
  by_cases h1 : subs.length > 1
  · rw [if_pos h1, max_fold l subs 0 hlt]
    have hbig : (subs.filterMap fun p => l[p]?).foldl (fun m s => max m s.orderedge) 0 = bigOrd (grp l e) := bigOrd_perm hperm
    rw [hbig]
    simp only [Except.bind]
    rw [new_fold _ subs l false h.1 hlt]
    simp only [Bool.false_or]
    rw [modifies_map h, hperm.any_eq]
    have hfin : ∀ s : Snax K, s.edgeind = e → finalOrd l s = (placed (bigOrd (grp l e)) s).orderedge + if (grp l e).any (isLow (bigOrd (grp l e))) then 1 else 0 := by
      rintro s rfl
      unfold finalOrd
      simp only
      rw [if_pos (by omega)]
    cases hb : (grp l e).any (isLow (bigOrd (grp l e)))
    · simp only [Bool.false_eq_true, if_false]
      refine congrArg Except.ok (List.map_congr_left fun s _ => ?_)
      by_cases hs : s.edgeind = e
      · rw [if_pos hs, if_pos hs, hfin s hs, hb]
        simp only [Bool.false_eq_true, if_false, Int.add_zero]
        exact placed_eq _ _
      · rw [if_neg hs, if_neg hs]
    · simp only [if_true]
      have hA := allPos_map (key := Snax.edgeind) h (fun s => if s.edgeind = e then placed (bigOrd (grp l e)) s else s)
        (fun s => by split; exacts [placed_edge _ _, rfl])
      rw [show (incStep : List (Snax K) → Nat → Res (List (Snax K))) = fun l p => change l p fun s => { s with orderedge := s.orderedge + 1 } from rfl,
        change_fold _ subs _ (allPos_lt hA), modifies_map hA, List.map_map]
      refine congrArg Except.ok (List.map_congr_left fun s _ => ?_)
      simp only [Function.comp]
      by_cases hs : s.edgeind = e
      · rw [if_pos hs, if_pos (by rw [placed_edge]; exact hs), if_pos hs, hfin s hs, hb]
        rw [placed_eq]
        rfl
      · rw [if_neg hs, if_neg hs, if_neg hs]
  · rw [if_neg h1]
    obtain ⟨s, hs, hse⟩ := hne
    have hpos : 0 < (grp l e).length := List.length_pos_of_mem (List.mem_filter.mpr ⟨hs, by simpa using hse⟩)
    match hsub : subs, hlen with
    | [], hlen => simp at hlen; omega
    | p :: q :: r, hlen => simp at h1
    | [p], hlen =>
      have hm := modifies_map h (fun s : Snax K => { s with orderedge := 1 })
      simp only [List.foldl_cons, List.foldl_nil] at hm
      unfold change
      simp only
      rw [if_pos (hlt p (List.mem_cons_self ..)), hm]
      refine congrArg Except.ok (List.map_congr_left fun s _ => ?_)
      by_cases hs : s.edgeind = e
      · rw [if_pos hs, if_pos hs]
        have : finalOrd l s = 1 := by
          unfold finalOrd
          simp only
          rw [hs, if_neg (by simp at hlen; omega)]
        rw [this]
      · rw [if_neg hs, if_neg hs]

theorem reorder_fold {subs : Int → List Nat} {l : List (Snax K)} (h : ∀ e, AllPos Snax.edgeind l e (subs e)) :
    ∀ (es done : List Int), (done ++ es).Nodup → (∀ e ∈ es, ∃ s ∈ l, s.edgeind = e) →
    es.foldlM (m := Except Fault) (fun l e => reorderOne (subs e) l) (l.map fun s => if s.edgeind ∈ done then { s with orderedge := finalOrd l s } else s) =
      .ok (l.map fun s => if s.edgeind ∈ done ++ es then { s with orderedge := finalOrd l s } else s)
  | [], done, _, _ => by simp; rfl
  | e :: es, done, hn, hne => by
    set g : Snax K → Snax K := fun s => if s.edgeind ∈ done then { s with orderedge := finalOrd l s } else s with hg
    have hge : ∀ s, (g s).edgeind = s.edgeind := fun s => by rw [hg]; simp only; split <;> rfl
    have hed : e ∉ done := fun hd => (List.nodup_append.mp hn).2.2 e hd e (List.mem_cons_self ..) rfl
    have hsame : ∀ s : Snax K, s.edgeind = e → g s = s := fun s hs => by rw [hg]; simp only; rw [if_neg (by rw [hs]; exact hed)]
    have hgrp : grp (l.map g) e = grp l e := by
      unfold grp
      rw [List.filter_map]
      have : ((fun s : Snax K => decide (s.edgeind = e)) ∘ g) = fun s => decide (s.edgeind = e) := by
        funext s; simp only [Function.comp, hge]
      rw [this]
      conv_rhs => rw [← List.map_id (l.filter _)]
      refine List.map_congr_left fun s hs => ?_
      exact hsame s (by simpa using (List.mem_filter.mp hs).2)
    have hstep : reorderOne (subs e) (l.map g) = .ok (l.map fun s => if s.edgeind ∈ done ++ [e] then { s with orderedge := finalOrd l s } else s) := by
      rw [reorderOne_ok (allPos_map (h e) g hge) (by
        obtain ⟨s, hs, he⟩ := hne e (List.mem_cons_self ..)
        exact ⟨g s, List.mem_map_of_mem hs, by rw [hge, he]⟩), List.map_map]
      refine congrArg Except.ok (List.map_congr_left fun s _ => ?_)
      simp only [Function.comp, hge]
      by_cases hs : s.edgeind = e
      · rw [if_pos hs, if_pos (by simp [hs]), hsame s hs]
        have : finalOrd (l.map g) s = finalOrd l s := by
          unfold finalOrd
          rw [hs, hgrp]
        rw [this]
      · rw [if_neg hs, hg]
        simp only
        by_cases hd : s.edgeind ∈ done
        · rw [if_pos hd, if_pos (List.mem_append_left _ hd)]
        · rw [if_neg hd, if_neg (by simp [hd, hs])]
    rw [List.foldlM_cons, hstep]
    have ih := reorder_fold h es (done ++ [e]) (by simpa using hn) fun x hx => hne x (List.mem_cons_of_mem _ hx)
    rw [List.append_assoc] at ih
    exact ih

theorem reorder_ok {subs : Int → List Nat} {l : List (Snax K)} (h : ∀ e, AllPos Snax.edgeind l e (subs e)) :
    reorderOnEdge subs l = .ok (l.map fun s => { s with orderedge := finalOrd l s }) := by
  have hmem : ∀ e, e ∈ ((l.map Snax.edgeind).insertionSort (· ≤ ·)).dedup ↔ ∃ s ∈ l, s.edgeind = e := fun e => by
    rw [List.mem_dedup, List.mem_insertionSort, List.mem_map]
  have := reorder_fold h (((l.map Snax.edgeind).insertionSort (· ≤ ·)).dedup) [] (by simpa using List.nodup_dedup _) fun e he => (hmem e).mp he
  simp only [List.not_mem_nil, if_false, List.map_id', List.nil_append] at this
  unfold reorderOnEdge
  rw [this]
  refine congrArg Except.ok (List.map_congr_left fun s hs => ?_)
  rw [if_pos ((hmem _).mpr ⟨s, hs, rfl⟩)]

end RSVS.Reorder
