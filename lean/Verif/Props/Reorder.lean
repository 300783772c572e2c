import Verif.Lemmas.Reorder
import Verif.Props.SnakeMotion

/-!
# C106: the order on an edge after new snaxels came
-/

namespace RSVS.Props

open RSVS.Spec RSVS.Reorder

variable {K : Type} [Field K] [LinearOrder K]

theorem reorder_countP_le {α : Type} {P : α → Bool} : ∀ {l : List α},
    (∀ (p q : Nat) (s t : α), l[p]? = some s → l[q]? = some t → P s = true → P t = true → p = q) → l.countP P ≤ 1
  | [], _ => by simp
  | a :: l, h => by
    rw [List.countP_cons]
    by_cases ha : P a = true
    · have : l.countP P = 0 := by
        rw [List.countP_eq_zero]
        intro t ht hP
        obtain ⟨q, hq⟩ := List.getElem?_of_mem ht
        have := h 0 (q + 1) a t rfl (by simpa using hq) ha hP
        omega
      simp [ha, this]
    · have := reorder_countP_le (l := l) fun p q s t hp hq h1 h2 => by
        have := h (p + 1) (q + 1) s t (by simpa using hp) (by simpa using hq) h1 h2
        omega
      simpa [ha] using this

theorem reorder_countP_add {α : Type} {A B C : α → Bool} : ∀ {l : List α},
    (∀ t ∈ l, (if C t then 1 else 0) = (if A t then 1 else 0) + if B t then 1 else 0) → l.countP C = l.countP A + l.countP B
  | [], _ => rfl
  | a :: l, h => by
    have ih := reorder_countP_add (l := l) fun t ht => h t (List.mem_cons_of_mem _ ht)
    have := h a (List.mem_cons_self ..)
    rw [List.countP_cons, List.countP_cons, List.countP_cons]
    omega

variable [IsStrictOrderedRing K]

/-- What a snaxel is and what number it gets. -/
theorem reorder_cases {l : List (Snax K)} (h : Arrived l) {s : Snax K} (hs : s ∈ l) (m : Int) (hm : ∀ t ∈ l, t.edgeind = s.edgeind → t.orderedge ≤ m) :
    (s.orderedge ≠ -1 ∧ 0 < lowPos s ∧ lowPos s < 1 ∧ 0 < s.orderedge ∧ s.orderedge ≤ m ∧ (placed m s).orderedge = s.orderedge ∧ isLow m s = false) ∨
    (s.orderedge = -1 ∧ lowPos s = 0 ∧ (placed m s).orderedge = 0 ∧ isLow m s = true) ∨
    (s.orderedge = -1 ∧ lowPos s = 1 ∧ (placed m s).orderedge = m + 1 ∧ (m + 1 ≠ 0 → isLow m s = false)) := by
  have hd := h.dir s hs
  rw [← orderPos_eq_lowPos s hd]
  by_cases ho : s.orderedge = -1
  · right
    have he := h.atEnd s hs ho
    unfold placed isLow orderPos placeNew
    by_cases hb : s.fromvert > s.tovert
    · rcases he with he | he
      · right; simp [ho, hb, he]
      · left; simp [ho, hb, he]
    · rcases he with he | he
      · left; simp [ho, hb, he]
      · right; simp [ho, hb, he]
  · left
    obtain ⟨h0, h1, h2⟩ := h.between s hs ho
    refine ⟨ho, ?_, ?_, h2, hm s hs rfl, by simp [placed, ho], by simp [isLow, ho]⟩
    · unfold orderPos; split
      · linarith
      · exact h0
    · unfold orderPos; split
      · linarith
      · exact h1

omit [Field K] [LinearOrder K] [IsStrictOrderedRing K] in
theorem mem_grp {l : List (Snax K)} {e : Int} {s : Snax K} : s ∈ grp l e ↔ s ∈ l ∧ s.edgeind = e := by
  unfold grp
  rw [List.mem_filter, decide_eq_true_eq]

/-- The numbers before the last shift follow the positions. -/
theorem reorder_follows {l : List (Snax K)} (h : Arrived l) {s t : Snax K} (hs : s ∈ l) (ht : t ∈ l) (he : s.edgeind = t.edgeind) :
    0 < finalOrd l s ∧ (finalOrd l s < finalOrd l t ↔ lowPos s < lowPos t) := by
  have hsg : s ∈ grp l s.edgeind := mem_grp.mpr ⟨hs, rfl⟩
  have htg : t ∈ grp l s.edgeind := mem_grp.mpr ⟨ht, he.symm⟩
  unfold finalOrd
  simp only
  rw [← he]
  by_cases hl : (grp l s.edgeind).length > 1
  · rw [if_pos hl, if_pos hl]
    obtain ⟨hm0, hm, -⟩ := bigOrd_aux (grp l s.edgeind) 0
    change 0 ≤ bigOrd _ at hm0
    change ∀ s' ∈ _, Snax.orderedge s' ≤ bigOrd _ at hm
    set m := bigOrd (grp l s.edgeind) with hmdef
    have hs3 := reorder_cases h hs m fun x hx hxe => hm x (mem_grp.mpr ⟨hx, hxe⟩)
    have ht3 := reorder_cases h ht m fun x hx hxe => hm x (mem_grp.mpr ⟨hx, hxe.trans he.symm⟩)
    have hlow : isLow m s = true → (grp l s.edgeind).any (isLow m) = true := fun q => List.any_eq_true.mpr ⟨s, hsg, q⟩
    refine ⟨?_, ?_⟩
    · rcases hs3 with ⟨_, _, _, a, _, b, _⟩ | ⟨_, _, b, c⟩ | ⟨_, _, b, _⟩
      · rw [b]; split <;> omega
      · rw [b, if_pos (hlow c)]; omega
      · rw [b]; split <;> omega
    · rw [Int.add_lt_add_iff_right]
      rcases hs3 with ⟨s1, s2, s3, s4, s5, s6, _⟩ | ⟨s1, s2, s3, _⟩ | ⟨s1, s2, s3, _⟩ <;>
      rcases ht3 with ⟨t1, t2, t3, t4, t5, t6, _⟩ | ⟨t1, t2, t3, _⟩ | ⟨t1, t2, t3, _⟩
      · rw [s6, t6]; exact h.order s hs t ht he s1 t1
      · rw [s6, t3, t2]; exact ⟨fun q => by omega, fun q => absurd (q.trans s2) (lt_irrefl _)⟩
      · rw [s6, t3, t2]; exact ⟨fun _ => s3, fun _ => by omega⟩
      · rw [s3, t6, s2]; exact ⟨fun _ => t2, fun _ => t4⟩
      · rw [s3, t3, s2, t2]; simp
      · rw [s3, t3, s2, t2]; exact ⟨fun _ => zero_lt_one, fun _ => by omega⟩
      · rw [s3, t6, s2]; exact ⟨fun q => by omega, fun q => absurd (q.trans t3) (lt_irrefl _)⟩
      · rw [s3, t3, s2, t2]; exact ⟨fun q => by omega, fun q => absurd q (not_lt.mpr zero_le_one)⟩
      · rw [s3, t3, s2, t2]; simp
  · rw [if_neg hl, if_neg hl]
    have : s = t := by
      match hg : grp l s.edgeind with
      | [] => rw [hg] at hsg; simp at hsg
      | [a] =>
        rw [hg] at hsg htg
        rw [List.mem_singleton] at hsg htg
        rw [hsg, htg]
      | _ :: _ :: _ => rw [hg] at hl; simp at hl
    subst this
    simp

/-- C106, the part that holds: when the snaxels that were there follow the positions on their edges and the new ones are at the ends, the numbers follow
the positions on each edge after the call and only numbers changed.  Missing: the numbers need not be 1, 2, … (see `C106_gaps_violated`). -/
theorem C106_follows_partial {subs : Int → List Nat} {l : List (Snax K)} (hsubs : ∀ e, AllPos Snax.edgeind l e (subs e)) (h : Arrived l) :
    ∃ l', reorderOnEdge subs l = .ok l' ∧ NumbersOnly l l' ∧ FollowsPos l' := by
  refine ⟨_, reorder_ok hsubs, ⟨fun p => ((l[p]?).map (finalOrd l)).getD 0, ?_⟩, ?_⟩
  · apply List.ext_getElem?
    intro i
    rw [List.getElem?_map, List.getElem?_mapIdx]
    cases hi : l[i]? with
    | none => rfl
    | some s => simp [hi]
  · intro s' hs'
    obtain ⟨s, hs, rfl⟩ := List.mem_map.mp hs'
    refine ⟨(reorder_follows h hs hs rfl).1, fun t' ht' he => ?_⟩
    obtain ⟨t, ht, rfl⟩ := List.mem_map.mp ht'
    exact (reorder_follows h hs ht he).2

/-- C106, the part that holds: when the snaxels that were there have the numbers 1, 2, … as well, so have all after the call. -/
theorem C106_counted_partial {subs : Int → List Nat} {l : List (Snax K)} (hsubs : ∀ e, AllPos Snax.edgeind l e (subs e)) (h : Arrived l) (hg : NoGaps l) :
    ∃ l', reorderOnEdge subs l = .ok l' ∧ Counted l' := by
  refine ⟨_, reorder_ok hsubs, ?_⟩
  intro s' hs'
  obtain ⟨s, hs, rfl⟩ := List.mem_map.mp hs'
  unfold onEdge
  rw [List.countP_map]
  change finalOrd l s = ((l.countP fun t => decide (t.edgeind = s.edgeind) && decide (lowPos t < lowPos s) : Nat) : Int) + 1
  have hsg : s ∈ grp l s.edgeind := mem_grp.mpr ⟨hs, rfl⟩
  have hfin : finalOrd l s = if (grp l s.edgeind).length > 1 then
    (placed (bigOrd (grp l s.edgeind)) s).orderedge + if (grp l s.edgeind).any (isLow (bigOrd (grp l s.edgeind))) then 1 else 0 else 1 := rfl
  by_cases hl : (grp l s.edgeind).length > 1
  · rw [hfin, if_pos hl]
    obtain ⟨hm0, hm, hma⟩ := bigOrd_aux (grp l s.edgeind) 0
    change 0 ≤ bigOrd _ at hm0
    change ∀ s' ∈ _, Snax.orderedge s' ≤ bigOrd _ at hm
    change bigOrd _ = 0 ∨ ∃ s' ∈ _, bigOrd _ = Snax.orderedge s' at hma
    set m := bigOrd (grp l s.edgeind) with hmdef
    have hc : ∀ t ∈ l, t.edgeind = s.edgeind → _ := fun t ht hte => reorder_cases h ht m fun x hx hxe => hm x (mem_grp.mpr ⟨hx, hxe.trans hte⟩)
    -- the new snaxel at the lower end
    have hlowc : (l.countP fun t => decide (t.edgeind = s.edgeind) && isLow m t) = if (grp l s.edgeind).any (isLow m) then 1 else 0 := by
      have hle : (l.countP fun t => decide (t.edgeind = s.edgeind) && isLow m t) ≤ 1 := by
        apply reorder_countP_le
        intro p q x y hx hy h1 h2
        simp only [Bool.and_eq_true, decide_eq_true_eq] at h1 h2
        have key : ∀ z ∈ l, z.edgeind = s.edgeind → isLow m z = true → z.orderedge = -1 ∧ lowPos z = 0 := by
          intro z hz hze hzl
          rcases hc z hz hze with ⟨_, _, _, _, _, _, c⟩ | ⟨a, b, _, _⟩ | ⟨_, _, _, c⟩
          · rw [c] at hzl; exact absurd hzl (by simp)
          · exact ⟨a, b⟩
          · rw [c (by omega)] at hzl; exact absurd hzl (by simp)
        obtain ⟨x1, x2⟩ := key x (List.mem_of_getElem? hx) h1.1 h1.2
        obtain ⟨y1, y2⟩ := key y (List.mem_of_getElem? hy) h2.1 h2.2
        exact h.one p q x y hx hy x1 y1 (h1.1.trans h2.1.symm) (x2.trans y2.symm)
      cases hany : (grp l s.edgeind).any (isLow m)
      · simp only [Bool.false_eq_true, if_false]
        rw [List.countP_eq_zero]
        intro t ht hp
        simp only [Bool.and_eq_true, decide_eq_true_eq] at hp
        have : (grp l s.edgeind).any (isLow m) = true := List.any_eq_true.mpr ⟨t, mem_grp.mpr ⟨ht, hp.1⟩, hp.2⟩
        rw [hany] at this
        exact absurd this (by simp)
      · simp only [if_true]
        obtain ⟨t, ht, hp⟩ := List.any_eq_true.mp hany
        have : 0 < l.countP fun t => decide (t.edgeind = s.edgeind) && isLow m t :=
          List.countP_pos_iff.mpr ⟨t, (mem_grp.mp ht).1, by simp [(mem_grp.mp ht).2, hp]⟩
        omega
    rw [show (if (grp l s.edgeind).any (isLow m) then (1 : Int) else 0) = ((if (grp l s.edgeind).any (isLow m) then 1 else 0 : Nat) : Int) by split <;> rfl,
      ← hlowc]
    rcases hc s hs rfl with ⟨s1, s2, s3, s4, s5, s6, s7⟩ | ⟨s1, s2, s3, s4⟩ | ⟨s1, s2, s3, s4⟩
    · rw [s6, hg.numbers s hs s1]
      have := reorder_countP_add (l := l) (C := fun t => decide (t.edgeind = s.edgeind) && decide (lowPos t < lowPos s))
        (A := fun t => decide (t.edgeind = s.edgeind) && decide (t.orderedge ≠ -1 ∧ lowPos t < lowPos s))
        (B := fun t => decide (t.edgeind = s.edgeind) && isLow m t) (by
          intro t ht
          by_cases hte : t.edgeind = s.edgeind
          · rcases hc t ht hte with ⟨t1, t2, t3, t4, t5, t6, t7⟩ | ⟨t1, t2, t3, t4⟩ | ⟨t1, t2, t3, t4⟩
            · simp [hte, t1, t7]
            · simp [hte, t1, t4, t2, s2]
            · simp [hte, t1, t4 (by omega), t2, s3.le]
          · simp [hte])
      rw [this]
      unfold onEdge
      push_cast
      omega
    · have h0 : (l.countP fun t => decide (t.edgeind = s.edgeind) && decide (lowPos t < lowPos s)) = 0 := by
        rw [List.countP_eq_zero]
        intro t ht hp
        simp only [Bool.and_eq_true, decide_eq_true_eq] at hp
        rcases hc t ht hp.1 with ⟨t1, t2, t3, t4, t5, t6, t7⟩ | ⟨t1, t2, t3, t4⟩ | ⟨t1, t2, t3, t4⟩
        · rw [s2] at hp; exact absurd (hp.2.trans t2) (lt_irrefl _)
        · rw [s2, t2] at hp; exact absurd hp.2 (lt_irrefl _)
        · rw [s2, t2] at hp; exact absurd hp.2 (not_lt.mpr zero_le_one)
      have h1 : (l.countP fun t => decide (t.edgeind = s.edgeind) && isLow m t) = 1 := by
        rw [hlowc, if_pos (List.any_eq_true.mpr ⟨s, hsg, s4⟩)]
      rw [s3, h0, h1]; rfl
    · have hold : (m : Int) = (l.countP fun t => decide (t.edgeind = s.edgeind) && decide (t.orderedge ≠ -1) : Nat) := by
        by_cases hex : ∃ t ∈ l, t.edgeind = s.edgeind ∧ t.orderedge ≠ -1
        · obtain ⟨a, ha, hma⟩ : ∃ a ∈ grp l s.edgeind, m = a.orderedge := by
            rcases hma with h0 | hma
            · obtain ⟨t, ht, hte, hto⟩ := hex
              have := (h.between t ht hto).2.2
              have := hm t (mem_grp.mpr ⟨ht, hte⟩)
              omega
            · exact hma
          obtain ⟨hal, hae⟩ := mem_grp.mp ha
          have hao : a.orderedge ≠ -1 := by omega
          have hsplit := reorder_countP_add (l := l) (C := fun t => decide (t.edgeind = s.edgeind) && decide (t.orderedge ≠ -1))
            (A := fun t => decide (t.edgeind = a.edgeind) && decide (t.orderedge ≠ -1 ∧ lowPos t < lowPos a))
            (B := fun t => decide (t.edgeind = s.edgeind) && decide (t.orderedge ≠ -1 ∧ lowPos t = lowPos a)) (by
              intro t ht
              rw [hae]
              by_cases hte : t.edgeind = s.edgeind
              · by_cases hto : t.orderedge = -1
                · simp [hto]
                · have hle : ¬ lowPos a < lowPos t := by
                    rw [← h.order a hal t ht (hae.trans hte.symm) hao hto]
                    have := hm t (mem_grp.mpr ⟨ht, hte⟩)
                    omega
                  rcases lt_or_eq_of_le (not_lt.mp hle) with hlt | heq
                  · simp [hte, hto, hlt, hlt.ne]
                  · simp [hte, hto, heq]
              · simp [hte])
          have hone : (l.countP fun t => decide (t.edgeind = s.edgeind) && decide (t.orderedge ≠ -1 ∧ lowPos t = lowPos a)) = 1 := by
            apply le_antisymm
            · apply reorder_countP_le
              intro p q x y hx hy h1 h2
              simp only [Bool.and_eq_true, decide_eq_true_eq] at h1 h2
              exact hg.apart p q x y hx hy h1.2.1 h2.2.1 (h1.1.trans h2.1.symm) (h1.2.2.trans h2.2.2.symm)
            · exact List.countP_pos_iff.mpr ⟨a, hal, by simp [hae, hao]⟩
          rw [hsplit, hone, hma, hg.numbers a hal hao]
          unfold onEdge
          push_cast
          rfl
        · have h0 : (l.countP fun t => decide (t.edgeind = s.edgeind) && decide (t.orderedge ≠ -1)) = 0 := by
            rw [List.countP_eq_zero]
            intro t ht hp
            simp only [Bool.and_eq_true, decide_eq_true_eq] at hp
            exact hex ⟨t, ht, hp⟩
          rw [h0]
          rcases hma with h0 | ⟨a, ha, hma⟩
          · simpa using h0
          · obtain ⟨hal, hae⟩ := mem_grp.mp ha
            exact absurd ⟨a, hal, hae, by omega⟩ hex
      have := reorder_countP_add (l := l) (C := fun t => decide (t.edgeind = s.edgeind) && decide (lowPos t < lowPos s))
        (A := fun t => decide (t.edgeind = s.edgeind) && decide (t.orderedge ≠ -1))
        (B := fun t => decide (t.edgeind = s.edgeind) && isLow m t) (by
          intro t ht
          by_cases hte : t.edgeind = s.edgeind
          · rcases hc t ht hte with ⟨t1, t2, t3, t4, t5, t6, t7⟩ | ⟨t1, t2, t3, t4⟩ | ⟨t1, t2, t3, t4⟩
            · simp [hte, t1, t7, s2, t3]
            · simp [hte, t1, t4, t2, s2]
            · simp [hte, t1, t4 (by omega), t2, s2]
          · simp [hte])
      rw [s3, this, hold]
      push_cast
      omega
  · rw [hfin, if_neg hl]
    have h0 : (l.countP fun t => decide (t.edgeind = s.edgeind) && decide (lowPos t < lowPos s)) = 0 := by
      rw [List.countP_eq_zero]
      intro t ht hp
      simp only [Bool.and_eq_true, decide_eq_true_eq] at hp
      have htg : t ∈ grp l s.edgeind := mem_grp.mpr ⟨ht, hp.1⟩
      have : t = s := by
        match hg : grp l s.edgeind with
        | [] => rw [hg] at hsg; simp at hsg
        | [a] =>
          rw [hg] at hsg htg
          rw [List.mem_singleton] at hsg htg
          rw [hsg, htg]
        | _ :: _ :: _ => rw [hg] at hl; simp at hl
      rw [this] at hp
      exact lt_irrefl _ hp.2
    rw [h0]; rfl

/-- An edge with two snaxels in the middle and a new one at each end, and another edge with a new one alone. -/
def arrivals : List (Snax ℚ) := [⟨1, 1 / 4, 0, 1, 2, 7, 1⟩, ⟨2, 1 / 4, 0, 2, 1, 7, 2⟩, ⟨3, 0, 1, 1, 2, 7, -1⟩, ⟨4, 0, 1, 2, 1, 7, -1⟩, ⟨5, 0, 1, 2, 3, 8, -1⟩]

def arrivalSubs (e : Int) : List Nat := if e = 7 then [0, 1, 2, 3] else if e = 8 then [4] else []

example : reorderOnEdge arrivalSubs arrivals =
    .ok [⟨1, 1 / 4, 0, 1, 2, 7, 2⟩, ⟨2, 1 / 4, 0, 2, 1, 7, 3⟩, ⟨3, 0, 1, 1, 2, 7, 1⟩, ⟨4, 0, 1, 2, 1, 7, 4⟩, ⟨5, 0, 1, 2, 3, 8, 1⟩] := by decide +kernel

instance {s : Snax ℚ} : Decidable (IsNew s) := inferInstanceAs (Decidable (_ = _))

theorem arrivals_pairs {P : Nat → Nat → Snax ℚ → Snax ℚ → Prop}
    (h : ∀ p ∈ List.range 5, ∀ q ∈ List.range 5, ∀ s ∈ arrivals[p]?, ∀ t ∈ arrivals[q]?, P p q s t) (p q : Nat) (s t : Snax ℚ)
    (hp : arrivals[p]? = some s) (hq : arrivals[q]? = some t) : P p q s t :=
  h p (List.mem_range.mpr (List.getElem?_eq_some_iff.mp hp).1) q (List.mem_range.mpr (List.getElem?_eq_some_iff.mp hq).1) s hp t hq

example : (∀ e, AllPos Snax.edgeind arrivals e (arrivalSubs e)) ∧ Arrived arrivals ∧ NoGaps arrivals := by
  refine ⟨fun e => ⟨?_, fun p => ?_⟩, ⟨by decide +kernel, by decide +kernel, by decide +kernel, by decide +kernel, ?_⟩, ⟨by decide +kernel, ?_⟩⟩
  · unfold arrivalSubs; split
    · decide
    · split <;> decide
  · have h : ∀ p ∈ List.range 5, ∀ s ∈ arrivals[p]?, (s.edgeind = 7 ∧ p < 4) ∨ (s.edgeind = 8 ∧ p = 4) := by decide +kernel
    constructor
    · intro hp
      have hlt : p < 5 := by
        unfold arrivalSubs at hp; split at hp
        · simp at hp; omega
        · split at hp
          · simp at hp; omega
          · simp at hp
      refine ⟨_, List.getElem?_eq_getElem (show p < arrivals.length from hlt), ?_⟩
      have := h p (List.mem_range.mpr hlt) _ (List.getElem?_eq_getElem (show p < arrivals.length from hlt))
      unfold arrivalSubs at hp
      split at hp
      · simp at hp; omega
      · split at hp
        · simp at hp; omega
        · simp at hp
    · rintro ⟨s, hs, he⟩
      have := h p (List.mem_range.mpr (List.getElem?_eq_some_iff.mp hs).1) s hs
      unfold arrivalSubs
      rcases this with ⟨h1, h2⟩ | ⟨h1, h2⟩
      · rw [if_pos (by omega)]; simp; omega
      · rw [if_neg (by omega), if_pos (by omega)]; simp; omega
  · exact fun p q s t hp hq => arrivals_pairs (P := fun p q s t => IsNew s → IsNew t → s.edgeind = t.edgeind → lowPos s = lowPos t → p = q)
      (by decide +kernel) p q s t hp hq
  · exact fun p q s t hp hq => arrivals_pairs (P := fun p q s t => ¬ IsNew s → ¬ IsNew t → s.edgeind = t.edgeind → lowPos s = lowPos t → p = q)
      (by decide +kernel) p q s t hp hq

/-- The snaxels left on an edge after the two between them met and were removed. -/
def leftOver : List (Snax ℚ) := [⟨1, 1 / 2, 1, 1, 2, 7, 1⟩, ⟨4, 1 / 2, 1, 2, 1, 7, 4⟩]

/-- C106 is false in the code: numbers of removed snaxels are not taken up, so two snaxels that meet are not neighbours and are not found as an impact. -/
theorem C106_gaps_violated : ¬ Counted leftOver ∧ reorderOnEdge (fun e => if e = 7 then [0, 1] else []) leftOver = .ok leftOver ∧
    detectImpactOnEdge (1 / 1000) leftOver = [] ∧
    detectImpactOnEdge (1 / 1000) [(⟨1, 1 / 2, 1, 1, 2, 7, 1⟩ : Snax ℚ), ⟨4, 1 / 2, 1, 2, 1, 7, 2⟩] = [(1, 4), (4, 1)] := by
  refine ⟨fun h => ?_, by decide +kernel, by decide +kernel, by decide +kernel⟩
  have := h ⟨4, 1 / 2, 1, 2, 1, 7, 4⟩ (by simp [leftOver])
  revert this
  decide +kernel

end RSVS.Props
