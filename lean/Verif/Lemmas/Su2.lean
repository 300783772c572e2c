import Mathlib.Data.List.Count
import Mathlib.Data.List.Basic
import Verif.Spec.Su2

/-!
# Lemmas about the output of a tetrahedral mesh
-/

namespace RSVS.Su2

open RSVS.Spec

variable {K β : Type}

theorem scan_eq (m : Int) : ∀ (l : List Int) (j : Nat), scan m l j = if m ∈ l then (true, j + l.idxOf m + 1) else (false, j + l.length)
  | [], j => by simp [scan]
  | x :: r, j => by
    unfold scan
    by_cases h : x = m
    · subst h; simp
    · rw [if_neg h, scan_eq m r (j + 1)]
      have h' : m ≠ x := fun e => h e.symm
      by_cases hm : m ∈ r
      · rw [if_pos hm, if_pos (by simp [hm]), List.idxOf_cons_ne _ h]
        simp only [Prod.mk.injEq, true_and]
        omega
      · rw [if_neg hm, if_neg (by simp [hm, h'])]
        simp only [List.length_cons, Prod.mk.injEq, true_and]
        omega

/-- What is known of the lists of markers after the markers `L`. -/
structure Bounds (L : List Int) (s : List Int × List Nat) : Prop where
  nodup : s.1.Nodup
  head : s.1.head? = some 0
  mem : ∀ m, m ∈ s.1 ↔ m = 0 ∨ m ∈ L
  num : s.2 = s.1.map fun m => L.count m

theorem bounds_step {L : List Int} {s : List Int × List Nat} (h : Bounds L s) (m : Int) : Bounds (L ++ [m]) (boundStep s m) := by
  unfold boundStep
  rw [scan_eq]
  by_cases hm : m ∈ s.1
  · simp only [if_pos hm, if_true, Nat.zero_add, Nat.add_sub_cancel]
    refine ⟨h.nodup, h.head, ?_, ?_⟩
    · intro x
      rw [h.mem x]
      simp only [List.mem_append, List.mem_singleton]
      constructor
      · rintro (k | k)
        · exact Or.inl k
        · exact Or.inr (Or.inl k)
      · rintro (k | k | k)
        · exact Or.inl k
        · exact Or.inr k
        · subst k; exact (h.mem x).mp hm
    · rw [h.num]
      simp only
      apply List.ext_getElem
      · simp
      · intro i h1 h2
        have hi : i < s.1.length := by simpa using h2
        rw [List.getElem_modify]
        simp only [List.getElem_map, List.count_append]
        by_cases e : s.1.idxOf m = i
        · subst e
          rw [if_pos rfl]
          simp [List.getElem_idxOf]
        · rw [if_neg e]
          have : m ≠ s.1[i] := by
            intro k
            apply e
            subst k
            exact h.nodup.idxOf_getElem i hi
          simp [this]
  · simp only [if_neg hm, Bool.false_eq_true, if_false, Nat.zero_add, Nat.add_sub_cancel]
    refine ⟨?_, ?_, ?_, ?_⟩
    · rw [List.nodup_append]
      refine ⟨h.nodup, by simp, ?_⟩
      intro a ha b hb e
      simp only [List.mem_singleton] at hb
      subst hb e
      exact hm ha
    · have := h.head
      cases hs : s.1 with
      | nil => rw [hs] at this; simp at this
      | cons a r => rw [hs] at this; simpa using this
    · intro x
      simp only [List.mem_append, List.mem_singleton, h.mem x]
      tauto
    · have hl : s.1.length = s.2.length := by rw [h.num]; simp
      have hc : L.count m = 0 := List.count_eq_zero.mpr fun k => hm ((h.mem m).mpr (Or.inr k))
      rw [hl, List.modify_eq_take_drop]
      simp only [List.take_left, List.drop_left]
      rw [h.num]
      simp only [List.map_append, List.map_cons, List.map_nil, List.count_append]
      have e1 : s.1.map (fun x => L.count x) = s.1.map fun x => L.count x + [m].count x := by
        apply List.map_congr_left
        intro x hx
        have : m ≠ x := fun e => hm (e ▸ hx)
        simp [this]
      rw [e1]
      simp [hc, List.modifyHead]

theorem vecGet_some {α : Type} {l : List α} {i : Nat} (h : i < l.length) : vecGet l (i : Int) = .ok l[i] := by
  unfold vecGet
  rw [if_neg (by omega), Int.toNat_natCast, List.getElem?_eq_getElem h]

theorem bounds_ok {t : Out K} (h : t.numberoftrifaces ≤ t.trifacemarkerlist.length) :
    ∃ s, bounds t = .ok s ∧ Bounds (t.trifacemarkerlist.take t.numberoftrifaces) s := by
  unfold bounds
  generalize t.numberoftrifaces = n at h
  induction n with
  | zero => exact ⟨_, rfl, ⟨by simp, rfl, by simp, by simp⟩⟩
  | succ n ih =>
    obtain ⟨s, h1, h2⟩ := ih (by omega)
    rw [List.range_succ, List.foldlM_append, h1]
    refine ⟨boundStep s t.trifacemarkerlist[n], ?_, ?_⟩
    · simp only [bind, Except.bind, List.foldlM_cons, List.foldlM_nil]
      rw [vecGet_some (by omega)]
      rfl
    · rw [List.take_add_one, List.getElem?_eq_getElem (by omega)]
      exact bounds_step h2 _

theorem mapM_ok {α β : Type} {f : α → Res β} {g : α → β} : ∀ {l : List α}, (∀ a ∈ l, f a = .ok (g a)) → l.mapM (m := Except Fault) f = .ok (l.map g)
  | [], _ => rfl
  | a :: l, h => by
    rw [List.mapM_cons, h a (by simp), mapM_ok fun b hb => h b (by simp [hb])]
    rfl

theorem readN_ok (p : Line K → Option β) (f : Nat → Line K) (g : Nat → β) (hf : ∀ i, p (f i) = some (g i)) (l : List (Line K)) :
    ∀ is : List Nat, readN p is.length (is.map f ++ l) = some (is.map g, l)
  | [] => rfl
  | i :: is => by
    simp only [List.map_cons, List.cons_append, List.length_cons, readN, hf, Option.bind_some, readN_ok p f g hf l is, Option.map_some]

end RSVS.Su2
