import Verif.Lemmas.Motion
import Mathlib.Data.List.Sort

/-! Helper lemmas on the order of snaxels along an edge. -/

namespace RSVS

set_option linter.unusedSectionVars false

open RSVS.Spec RSVS.ArrayStruct

variable {K : Type} [Field K] [LinearOrder K] [IsStrictOrderedRing K]

/-- The walk over the siblings keeps a position that respects the siblings seen so far. -/
theorem validate_fold {A B : Int} (hAB : A < B) (this : Snax K) (h1 : OnEdge A B this) (x0 : K)
    (all : List (Snax K)) (hall : ∀ s ∈ all, OnEdge A B s)
    (hcons : ∀ s ∈ all, ∀ t ∈ all, s.index ≠ this.index → t.index ≠ this.index →
      s.orderedge ≤ this.orderedge → this.orderedge < t.orderedge → posFrom A s ≤ posFrom A t) :
    ∀ (todo : List (Snax K)) (seen : List (Snax K)) (d : K), (∀ s ∈ todo, s ∈ all) →
      (∀ s ∈ seen, s ∈ all) →
      (∀ s ∈ seen, s.index ≠ this.index →
        (this.orderedge < s.orderedge → posFrom A { this with d := d } ≤ posFrom A s) ∧
        (s.orderedge ≤ this.orderedge → posFrom A s ≤ posFrom A { this with d := d })) →
      (∀ q, (∀ s ∈ all, s.index ≠ this.index → (this.orderedge < s.orderedge → q ≤ posFrom A s) ∧
        (s.orderedge ≤ this.orderedge → posFrom A s ≤ q)) →
        (x0 ≤ posFrom A { this with d := d } ∧ posFrom A { this with d := d } ≤ q) ∨
        (q ≤ posFrom A { this with d := d } ∧ posFrom A { this with d := d } ≤ x0)) →
      (∀ s ∈ seen ++ todo, s.index ≠ this.index →
        (this.orderedge < s.orderedge →
          posFrom A { this with d := todo.foldl (validateOne this) d } ≤ posFrom A s) ∧
        (s.orderedge ≤ this.orderedge →
          posFrom A s ≤ posFrom A { this with d := todo.foldl (validateOne this) d })) ∧
      (∀ q, (∀ s ∈ all, s.index ≠ this.index → (this.orderedge < s.orderedge → q ≤ posFrom A s) ∧
        (s.orderedge ≤ this.orderedge → posFrom A s ≤ q)) →
        (x0 ≤ posFrom A { this with d := todo.foldl (validateOne this) d } ∧
          posFrom A { this with d := todo.foldl (validateOne this) d } ≤ q) ∨
        (q ≤ posFrom A { this with d := todo.foldl (validateOne this) d } ∧
          posFrom A { this with d := todo.foldl (validateOne this) d } ≤ x0)) := by
  intro todo
  induction todo with
  | nil =>
    intro seen d _ _ hs hq
    exact ⟨by simpa using hs, hq⟩
  | cons t r ih =>
    intro seen d htodo hseen hs hq
    have htall : t ∈ all := htodo t (by simp)
    have hpos := validateOne_pos hAB this t d h1 (hall t htall)
    have := ih (seen ++ [t]) (validateOne this d t) (fun s hs => htodo s (by simp [hs])) ?_ ?_ ?_
    · simpa using this
    · intro s hs
      rcases List.mem_append.1 hs with h | h
      · exact hseen s h
      · simp at h; rw [h]; exact htall
    · intro s hs' hne
      rw [hpos]
      rcases List.mem_append.1 hs' with h | h
      · obtain ⟨a, b⟩ := hs s h hne
        split_ifs with c1 c2
        · exact ⟨a, b⟩
        · refine ⟨fun ho => le_trans (min_le_left _ _) (a ho), fun ho => le_min (b ho) ?_⟩
          exact hcons s (hseen s h) t htall hne (fun hh => c1 hh.symm) ho c2
        · refine ⟨fun ho => max_le (a ho) ?_, fun ho => le_trans (b ho) (le_max_left _ _)⟩
          exact hcons t htall s (hseen s h) (fun hh => c1 hh.symm) hne (not_lt.1 c2) ho
      · simp at h
        subst h
        rw [if_neg (fun hh => hne hh.symm)]
        split_ifs with c2
        · exact ⟨fun _ => min_le_right _ _, fun ho => absurd ho (not_le.2 c2)⟩
        · exact ⟨fun ho => absurd ho c2, fun _ => le_max_right _ _⟩
    · intro q hqall
      rw [hpos]
      have h := hq q hqall
      split_ifs with c1 c2
      · exact h
      · have hqt := (hqall t htall (fun hh => c1 hh.symm)).1 c2
        rcases h with ⟨a, b⟩ | ⟨a, b⟩
        · left
          rw [min_eq_left (le_trans b hqt)]
          exact ⟨a, b⟩
        · right
          exact ⟨le_min a hqt, le_trans (min_le_left _ _) b⟩
      · have hqt := (hqall t htall (fun hh => c1 hh.symm)).2 (not_lt.1 c2)
        rcases h with ⟨a, b⟩ | ⟨a, b⟩
        · left
          exact ⟨le_trans a (le_max_left _ _), max_le b hqt⟩
        · right
          rw [max_eq_left (le_trans hqt a)]
          exact ⟨a, b⟩

/-! ### ordering -/

/-- The rank of an element in a strictly increasing list is its position. -/
theorem countP_lt_of_sorted : ∀ (l : List K), l.Pairwise (· < ·) → ∀ (j : Nat) (x : K),
    l[j]? = some x → l.countP (fun y => decide (y < x)) = j
  | [], _, j, x, h => by simp at h
  | a :: r, hs, j, x, h => by
      rw [List.pairwise_cons] at hs
      cases j with
      | zero =>
        simp at h
        subst h
        rw [List.countP_eq_zero]
        intro y hy
        rcases List.mem_cons.1 hy with rfl | hy
        · simp
        · simpa using (hs.1 y hy).le
      | succ j =>
        simp at h
        have hax : a < x := hs.1 x (List.mem_of_getElem? h)
        rw [List.countP_cons, countP_lt_of_sorted r hs.2 j x h]
        simp [hax]

theorem sorted_lt_of_nodup {l : List K} (hn : l.Nodup) :
    (l.insertionSort (· ≤ ·)).Pairwise (· < ·) := by
  have h1 := List.pairwise_insertionSort (· ≤ ·) l
  have h2 : (l.insertionSort (· ≤ ·)).Nodup := (List.perm_insertionSort _ l).nodup_iff.2 hn
  have := h1.and h2
  refine this.imp ?_
  rintro a b ⟨hab, hne⟩
  exact lt_of_le_of_ne hab hne

/-- Writing order numbers: position `p` of the snaxel list gets number `j + 1` when `os[j]` designates `p`
and no later entry does. -/
theorem assignOrder_spec (subs : List Nat) (hsubs : subs.Nodup) : ∀ (os : List Int) (jj : Nat) (l : List (Snax K)),
    (∀ o ∈ os, ∃ q : Nat, o = (q : Int) ∧ q < subs.length) → os.Nodup →
    ∃ l', assignOrder subs jj os l = .ok l' ∧ l'.length = l.length ∧
      (∀ p, (∀ (j q : Nat), os[j]? = some (q : Int) → subs[q]? ≠ some p) → l'[p]? = l[p]?) ∧
      (∀ (j q p : Nat), os[j]? = some (q : Int) → subs[q]? = some p →
        l'[p]? = (l[p]?).map (fun s => { s with orderedge := ((jj + j : Nat) : Int) + 1 }))
  | [], jj, l, _, _ => ⟨l, rfl, rfl, fun _ _ => rfl, by simp⟩
  | o :: os, jj, l, ho, hn => by
      obtain ⟨q, rfl, hq⟩ := ho o (by simp)
      rw [List.nodup_cons] at hn
      obtain ⟨l', e, hlen, h1, h2⟩ := assignOrder_spec subs hsubs os (jj + 1)
        (l.modify subs[q] (fun s => { s with orderedge := (jj : Int) + 1 }))
        (fun o h => ho o (by simp [h])) hn.2
      refine ⟨l', ?_, ?_, ?_, ?_⟩
      · unfold assignOrder
        rw [if_neg (by omega)]
        have : subs[(q : Int).toNat]? = some subs[q] := by simp [List.getElem?_eq_getElem hq]
        rw [this]
        exact e
      · rw [hlen, List.length_modify]
      · intro p hp
        rw [h1 p (fun j q' hj => hp (j + 1) q' (by simpa using hj))]
        have hne : subs[q] ≠ p := by
          intro hh
          exact hp 0 q (by simp) (by rw [List.getElem?_eq_getElem hq, hh])
        rw [List.getElem?_modify]
        simp [hne]
      · intro j q' p hj hs
        cases j with
        | zero =>
          simp only [List.getElem?_cons_zero, Option.some.injEq, Nat.cast_inj] at hj
          subst hj
          rw [List.getElem?_eq_getElem hq, Option.some.injEq] at hs
          rw [h1 p, List.getElem?_modify]
          · simp [hs]
          · intro j q2 hj2 hs2
            obtain ⟨hq2, hs2⟩ := List.getElem?_eq_some_iff.1 hs2
            have : q2 = q := (List.Nodup.getElem_inj_iff hsubs).1 (hs2.trans hs.symm)
            subst this
            exact hn.1 (List.mem_of_getElem? hj2)
        | succ j =>
          simp only [List.getElem?_cons_succ] at hj
          rw [h2 j q' p hj hs, List.getElem?_modify]
          have hne : subs[q] ≠ p := by
            intro hh
            obtain ⟨hq2, hs2⟩ := List.getElem?_eq_some_iff.1 hs
            have : q' = q := (List.Nodup.getElem_inj_iff hsubs).1 (hs2.trans hh.symm)
            subst this
            exact hn.1 (List.mem_of_getElem? hj)
          have : jj + 1 + j = jj + (j + 1) := by omega
          rw [this]
          simp [hne]

theorem mapM_some_map {α β : Type} (f : α → Option β) (g : α → β) : ∀ (l : List α),
    (∀ a ∈ l, f a = some (g a)) → l.mapM f = some (l.map g)
  | [], _ => rfl
  | a :: r, h => by
      rw [List.mapM_cons, h a (by simp), mapM_some_map f g r (fun b hb => h b (by simp [hb]))]
      rfl

/-- One crowded edge with pairwise distinct positions: each snaxel gets its rank. -/
theorem orderOneEdge_spec (subs : List Nat) (l : List (Snax K)) (hsubs : subs.Nodup)
    (hin : ∀ p ∈ subs, p < l.length) (g : Nat → K) (hg : ∀ p s, l[p]? = some s → g p = orderPos s)
    (hdist : (subs.map g).Nodup) (hlen : 1 < subs.length) :
    ∃ l' t', orderOneEdge subs l [] = .ok (l', t') ∧ l'.length = l.length ∧
      (∀ p, p ∉ subs → l'[p]? = l[p]?) ∧
      (∀ p ∈ subs, l'[p]? = (l[p]?).map (fun s =>
        { s with orderedge := ((subs.countP (fun q => decide (g q < g p)) : Nat) : Int) + 1 })) := by
  unfold orderOneEdge
  rw [if_pos hlen]
  have hm : subs.mapM (fun p => (l[p]?).map orderPos) = some (subs.map g) := by
    apply mapM_some_map
    intro p hp
    rw [List.getElem?_eq_getElem (hin p hp)]
    simp only [Option.map_some, Option.some.injEq]
    exact (hg p _ (List.getElem?_eq_getElem (hin p hp))).symm
  rw [hm]
  dsimp only
  have htab : TableOK id (subs.map g) (hashPairs id 0 (subs.map g)) := List.Perm.refl _
  obtain ⟨os, hos, hf⟩ := findSubLoop_ok htab ((subs.map g).insertionSort (· ≤ ·))
  have hfl : findSubList ((subs.map g).insertionSort (· ≤ ·)) (subs.map g) [] =
      .ok (os, hashPairs id 0 (subs.map g)) := by
    unfold findSubList
    simp only [List.isEmpty_nil, if_true, hos]
  rw [hfl]
  dsimp only
  have hsort := sorted_lt_of_nodup hdist
  have hperm := List.perm_insertionSort (· ≤ ·) (subs.map g)
  generalize (subs.map g).insertionSort (· ≤ ·) = sorted at hf hsort hperm
  have hle : os.length = sorted.length := hf.length_eq.symm
  -- entry j of `os` designates the element with value sorted[j]
  have hget : ∀ (j : Nat) (x : K), sorted[j]? = some x →
      ∃ q : Nat, os[j]? = some (q : Int) ∧ ∃ h : q < subs.length, g subs[q] = x := by
    intro j x hx
    obtain ⟨hj, hxe⟩ := List.getElem?_eq_some_iff.1 hx
    have := List.Forall₂.get hf hj (by rw [hle]; exact hj)
    simp only [List.get_eq_getElem] at this
    rw [hxe] at this
    rcases this with ⟨_, hno⟩ | ⟨q, hq, e, he, hk⟩
    · exfalso
      refine hno x ?_ rfl
      exact hperm.mem_iff.1 (List.mem_of_getElem? hx)
    · refine ⟨q, ?_, ?_⟩
      · rw [List.getElem?_eq_getElem (by rw [hle]; exact hj), hq]
      · obtain ⟨hq2, he2⟩ := List.getElem?_eq_some_iff.1 he
        simp only [List.length_map] at hq2
        simp only [id] at hk
        refine ⟨hq2, ?_⟩
        rw [← hk, ← he2]
        simp
  have hoget : ∀ (j : Nat) (o : Int), os[j]? = some o →
      ∃ q : Nat, o = (q : Int) ∧ ∃ h : q < subs.length, sorted[j]? = some (g subs[q]) := by
    intro j o ho
    obtain ⟨hj, hoe⟩ := List.getElem?_eq_some_iff.1 ho
    have hx : sorted[j]? = some (sorted[j]'(by rw [← hle]; exact hj)) :=
      List.getElem?_eq_getElem (by rw [← hle]; exact hj)
    obtain ⟨q, hq, hql, hqe⟩ := hget j _ hx
    rw [ho] at hq
    simp only [Option.some.injEq] at hq
    exact ⟨q, hq, hql, by rw [hqe]; exact hx⟩
  have hos1 : ∀ o ∈ os, ∃ q : Nat, o = (q : Int) ∧ q < subs.length := by
    intro o ho
    obtain ⟨j, hj⟩ := List.mem_iff_getElem?.1 ho
    obtain ⟨q, e, hq, _⟩ := hoget j o hj
    exact ⟨q, e, hq⟩
  have hosn : os.Nodup := by
    rw [List.nodup_iff_injective_get]
    intro a b hab
    simp only [List.get_eq_getElem] at hab
    obtain ⟨q1, e1, h1, s1⟩ := hoget a.1 _ (List.getElem?_eq_getElem a.2)
    obtain ⟨q2, e2, h2, s2⟩ := hoget b.1 _ (List.getElem?_eq_getElem b.2)
    have hq : q1 = q2 := by
      have : (q1 : Int) = q2 := by rw [← e1, ← e2, hab]
      exact_mod_cast this
    subst hq
    obtain ⟨k1, s1⟩ := List.getElem?_eq_some_iff.1 s1
    obtain ⟨k2, s2⟩ := List.getElem?_eq_some_iff.1 s2
    have hsn : sorted.Nodup := hperm.nodup_iff.2 hdist
    exact Fin.ext ((List.Nodup.getElem_inj_iff hsn).1 (s1.trans s2.symm))
  obtain ⟨l', el, hll, ha, hb⟩ := assignOrder_spec subs hsubs os 0 l hos1 hosn
  rw [el]
  refine ⟨l', _, rfl, hll, ?_, ?_⟩
  · intro p hp
    apply ha
    intro j q _ hq
    exact hp (List.mem_of_getElem? hq)
  · intro p hp
    have hgp : g p ∈ sorted := hperm.mem_iff.2 (List.mem_map.2 ⟨p, hp, rfl⟩)
    obtain ⟨j, hj⟩ := List.mem_iff_getElem?.1 hgp
    obtain ⟨q, hq, hql, hqe⟩ := hget j _ hj
    have hpq : subs[q] = p := List.inj_on_of_nodup_map hdist (List.getElem_mem hql) hp hqe
    have := hb j q p hq (by rw [List.getElem?_eq_getElem hql, hpq])
    rw [this]
    have hrank := countP_lt_of_sorted sorted hsort j (g p) hj
    have hc : subs.countP (fun q => decide (g q < g p)) = j := by
      rw [← hrank, hperm.countP_eq, List.countP_map]
      rfl
    rw [hc]
    simp

theorem orderOnEdges_quiet (subs : Int → List Nat) (l : List (Snax K)) (t : TableOf K) :
    ∀ (es : List Int), (∀ e ∈ es, (subs e).length ≤ 1) → orderOnEdges subs es l t = .ok l
  | [], _ => rfl
  | e :: es, h => by
      have he := h e (by simp)
      unfold orderOnEdges orderOneEdge
      rw [if_neg (by omega)]
      exact orderOnEdges_quiet subs l t es (fun e he => h e (by simp [he]))

theorem orderOnEdges_one (subs : Int → List Nat) (e0 : Int) (l l' : List (Snax K)) (t' : TableOf K)
    (h0 : orderOneEdge (subs e0) l [] = .ok (l', t')) :
    ∀ (es : List Int), es.Nodup → e0 ∈ es → (∀ e ∈ es, e ≠ e0 → (subs e).length ≤ 1) →
      orderOnEdges subs es l [] = .ok l'
  | [], _, h, _ => by simp at h
  | e :: es, hn, hm, h => by
      rw [List.nodup_cons] at hn
      by_cases hee : e = e0
      · subst hee
        unfold orderOnEdges
        rw [h0]
        exact orderOnEdges_quiet subs l' t' es (fun e' he' => h e' (by simp [he'])
          (fun hh => hn.1 (hh ▸ he')))
      · have he := h e (by simp) hee
        unfold orderOnEdges
        rw [show orderOneEdge (subs e) l [] = .ok (l, []) by
          unfold orderOneEdge; rw [if_neg (by omega)]]
        exact orderOnEdges_one subs e0 l l' t' h0 es hn.2 (List.mem_of_ne_of_mem (Ne.symm hee) hm)
          (fun e' he' => h e' (by simp [he']))

end RSVS
