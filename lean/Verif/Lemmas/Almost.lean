import Verif.Model.Almost
import Verif.Spec.Almost
import Verif.Lemmas.Mesh
import Verif.Lemmas.MeshOrder
import Mathlib.Tactic.Linarith

/-!
# Lemmas on the snaxels about to reach a vertex
-/

namespace RSVS.Almost

open RSVS RSVS.Spec RSVS.Mesh

variable {K : Type} [Field K] [LinearOrder K] [IsStrictOrderedRing K]

theorem closing_iff {eps lim : K} (hl : lim ≤ 1 / 2) (s : Snax K) (v : Int) (r : K) : closing eps lim s = some (v, r) ↔ ClosesOn eps lim s v r := by
  unfold closing ClosesOn approxEq
  simp only [decide_eq_false_iff_not, not_lt, sub_zero]
  split
  · next h =>
    obtain ⟨h1, h2, h3⟩ := h
    rw [Option.some.injEq, Prod.mk.injEq]
    constructor
    · rintro ⟨rfl, rfl⟩
      exact ⟨h1, .inl ⟨rfl, rfl, h2, h3⟩⟩
    · rintro ⟨g, ⟨g1, g2, -⟩ | ⟨g1, g2, -⟩⟩
      · exact ⟨g1, g2.symm⟩
      · exfalso; linarith
  · next h =>
    split
    · next h' =>
      obtain ⟨h1, h2, h3⟩ := h'
      rw [Option.some.injEq, Prod.mk.injEq]
      constructor
      · rintro ⟨rfl, rfl⟩
        exact ⟨h1, .inr ⟨rfl, rfl, h2, h3⟩⟩
      · rintro ⟨g, ⟨g1, g2, -⟩ | ⟨g1, g2, -⟩⟩
        · exfalso; linarith
        · exact ⟨g1, g2.symm⟩
    · next h' =>
      constructor
      · intro hh; cases hh
      · rintro ⟨g, ⟨g1, g2, g3⟩ | ⟨g1, g2, g3⟩⟩
        · exact absurd ⟨g2 ▸ g, g3⟩ h
        · exact absurd ⟨g2 ▸ g, g3⟩ h'

/-- Whether the snaxel closes on the vertex. -/
def onto (eps lim : K) (v : Int) (s : Snax K) : Bool := (closing eps lim s).any fun p => p.1 == v

theorem onto_iff {eps lim : K} {v : Int} {s : Snax K} : onto eps lim v s = true ↔ ∃ r, closing eps lim s = some (v, r) := by
  unfold onto
  cases h : closing eps lim s with
  | none => simp
  | some p =>
    obtain ⟨w, q⟩ := p
    simp only [Option.any_some, beq_iff_eq, Option.some.injEq, Prod.mk.injEq]
    constructor
    · rintro rfl; exact ⟨q, rfl, rfl⟩
    · rintro ⟨r, h, -⟩; exact h

/-- What is known of the entries of the vertices after some snaxels. -/
structure Scanned (eps lim : K) (l : List (Snax K)) (v : Int) (c : Nearest K) : Prop where
  cnt : c.cnt = (l.filter (onto eps lim v)).length
  none : c.cnt = 0 → c.d = 1
  ind : 1 ≤ c.cnt → ∃ s, l[c.ind]? = some s ∧ closing eps lim s = some (v, c.d)
  least : ∀ s ∈ l, ∀ q, closing eps lim s = some (v, q) → c.d ≤ q

theorem closing_lt {eps lim : K} (hl : lim ≤ 1 / 2) {s : Snax K} {v : Int} {r : K} (h : closing eps lim s = some (v, r)) : r ≤ 1 := by
  have := ((closing_iff hl s v r).1 h).1
  linarith

theorem scanned_skip {eps lim : K} {l : List (Snax K)} {s : Snax K} {v : Int} {c : Nearest K} (h : Scanned eps lim l v c) (hs : onto eps lim v s = false) :
    Scanned eps lim (l ++ [s]) v c where
  cnt := by rw [List.filter_append, List.filter_cons_of_neg (by simp [hs]), List.filter_nil, List.append_nil]; exact h.cnt
  none := h.none
  ind := fun h1 => by
    obtain ⟨t, ht, ht'⟩ := h.ind h1
    exact ⟨t, by rw [List.getElem?_append_left (List.getElem?_eq_some_iff.1 ht).1]; exact ht, ht'⟩
  least := by
    intro t ht q hq
    rcases List.mem_append.1 ht with ht | ht
    · exact h.least t ht q hq
    · rw [List.mem_singleton] at ht
      subst ht
      exact absurd (onto_iff.2 ⟨q, hq⟩) (by rw [hs]; simp)

theorem scanned_add {eps lim : K} (hl : lim ≤ 1 / 2) {l : List (Snax K)} {s : Snax K} {v : Int} {r : K} {c : Nearest K} (h : Scanned eps lim l v c)
    (hs : closing eps lim s = some (v, r)) : Scanned eps lim (l ++ [s]) v (Nearest.add l.length r c) := by
  have hc : (Nearest.add l.length r c).cnt = c.cnt + 1 := by unfold Nearest.add; split <;> rfl
  have hd : (Nearest.add l.length r c).d ≤ r ∧ (Nearest.add l.length r c).d ≤ c.d := by
    unfold Nearest.add
    split
    · next h => exact ⟨le_rfl, h⟩
    · next h => exact ⟨(not_le.1 h).le, le_rfl⟩
  refine ⟨?_, fun h0 => by omega, fun _ => ?_, ?_⟩
  · rw [hc, List.filter_append, List.filter_cons_of_pos (onto_iff.2 ⟨r, hs⟩), List.filter_nil, List.length_append, h.cnt]
    rfl
  · unfold Nearest.add
    split
    · exact ⟨s, by simp, hs⟩
    · next hr =>
      have : 1 ≤ c.cnt := by
        by_contra hh
        exact hr (by rw [h.none (by omega)]; exact closing_lt hl hs)
      obtain ⟨t, ht, ht'⟩ := h.ind this
      exact ⟨t, by rw [List.getElem?_append_left (List.getElem?_eq_some_iff.1 ht).1]; exact ht, ht'⟩
  · intro t ht q hq
    rcases List.mem_append.1 ht with ht | ht
    · exact hd.2.trans (h.least t ht q hq)
    · rw [List.mem_singleton] at ht
      subst ht
      rw [hs] at hq
      cases hq
      exact hd.1

theorem scan_ok {eps lim : K} (hl : lim ≤ 1 / 2) {vs : List Int} (hn : vs.Nodup) (l : List (Snax K)) (hv : ∀ s ∈ l, s.fromvert ∈ vs ∧ s.tovert ∈ vs) :
    ∃ cells, scan eps lim vs l = .ok cells ∧ cells.length = vs.length ∧
      ∀ (p : Nat) v c, vs[p]? = some v → cells[p]? = some c → Scanned eps lim l v c := by
  induction l using List.reverseRecOn with
  | nil =>
    refine ⟨_, rfl, by simp, fun p v c h1 h2 => ?_⟩
    rw [List.getElem?_map, h1] at h2
    cases h2
    exact ⟨rfl, fun _ => rfl, fun h => by simp at h, by simp⟩
  | append_singleton l s ih =>
    obtain ⟨cells, h1, h2, h3⟩ := ih fun s hs => hv s (List.mem_append_left _ hs)
    have hrun : scan eps lim vs (l ++ [s]) = scanStep eps lim vs cells (s, l.length) := by
      unfold scan at h1 ⊢
      rw [List.zipIdx_append, List.foldlM_append, h1]
      show ([s].zipIdx (0 + l.length)).foldlM (m := Except Fault) _ cells = _
      simp only [List.zipIdx_cons, List.zipIdx_nil, List.foldlM_cons, List.foldlM_nil, Nat.zero_add]
      cases scanStep eps lim vs cells (s, l.length) <;> rfl
    rw [hrun]
    unfold scanStep
    cases hs : closing eps lim s with
    | none =>
      refine ⟨cells, rfl, h2, fun p v c g1 g2 => scanned_skip (h3 p v c g1 g2) ?_⟩
      unfold onto
      rw [hs]
      rfl
    | some wr =>
      obtain ⟨w, r⟩ := wr
      have hw : w ∈ vs := by
        have := hv s (by simp)
        unfold closing at hs
        split at hs
        · cases hs; exact this.1
        · split at hs
          · cases hs; exact this.2
          · cases hs
      obtain ⟨p, g1, g2, g3⟩ := posOf_mem (ix := id) (l := vs) (k := w) ⟨w, hw, rfl⟩
      refine ⟨cells.modify p (Nearest.add l.length r), ?_, by simp [h2], ?_⟩
      · simp only [g1]
        rw [if_neg (by omega)]
        rfl
      · intro q v c e1 e2
        rw [List.getElem?_modify] at e2
        obtain ⟨c', e3, e4⟩ := Option.map_eq_some_iff.1 e2
        have := h3 q v c' e1 e3
        have e5 := List.getElem?_eq_some_iff.1 e1
        obtain ⟨e5, e6⟩ := e5
        by_cases hpq : p = q
        · subst hpq
          rw [if_pos rfl] at e4
          have : v = w := by rw [← e6]; exact g3
          subst this
          rw [← e4]
          exact scanned_add hl (h3 p v c' e1 e3) hs
        · rw [if_neg hpq] at e4
          rw [← e4]
          refine scanned_skip this ?_
          have hne : w ≠ v := by
            intro hh
            apply hpq
            have : vs[p] = vs[q] := by rw [e6, ← hh]; exact g3
            exact hn.getElem_inj_iff.1 this
          unfold onto
          rw [hs]
          simpa using hne

/-- The snaxel on the end it is close to. -/
def ended (lim : K) (s : Snax K) : Snax K := { s with d := if s.d < lim then 0 else 1 }

/-- The report of one vertex. -/
def report (lim : K) (l : List (Snax K)) (c : Nearest K) : Option (Int × Int) :=
  if 2 ≤ c.cnt then l[c.ind]?.map fun s => (s.index, if s.d < lim then -1 else -2) else none

/-- The positions of the snaxels picked. -/
def picked (c : Nearest K) : Option Nat := if 2 ≤ c.cnt then some c.ind else none

omit [IsStrictOrderedRing K] in
theorem collapse_ok (lim : K) : ∀ (cells : List (Nearest K)) (l : List (Snax K)) (imp : Impacts), (cells.filterMap picked).Nodup →
    (∀ i ∈ cells.filterMap picked, i < l.length) →
    ∃ l', cells.foldlM (m := Except Fault) (collapseStep lim) (l, imp) = .ok (l', imp ++ cells.filterMap (report lim l)) ∧
      ∀ i : Nat, l'[i]? = l[i]?.map fun s => if i ∈ cells.filterMap picked then ended lim s else s := by
  intro cells
  induction cells with
  | nil => intro l imp _ _; exact ⟨l, by simp [pure, Except.pure], by simp⟩
  | cons c cells ih =>
    intro l imp hn hlt
    by_cases hc : 2 ≤ c.cnt
    · have hp : picked c = some c.ind := by unfold picked; rw [if_pos hc]
      rw [List.filterMap_cons_some hp] at hn hlt ⊢
      rw [List.nodup_cons] at hn
      have hi : c.ind < l.length := hlt _ List.mem_cons_self
      obtain ⟨l', h1, h2⟩ := ih (l.modify c.ind (ended lim)) (imp ++ [(l[c.ind].index, if l[c.ind].d < lim then -1 else -2)]) hn.2
        (fun i hi => by rw [List.length_modify]; exact hlt i (List.mem_cons_of_mem _ hi))
      have hstep : collapseStep lim (l, imp) c = .ok (l.modify c.ind (ended lim), imp ++ [(l[c.ind].index, if l[c.ind].d < lim then -1 else -2)]) := by
        have hmod : ∀ x : K, (if l[c.ind].d < lim then (0 : K) else 1) = x → l.modify c.ind (fun s => { s with d := x }) = l.modify c.ind (ended lim) := by
          intro x hx
          apply List.ext_getElem?
          intro j
          rw [List.getElem?_modify, List.getElem?_modify]
          by_cases hj : c.ind = j
          · subst hj
            rw [List.getElem?_eq_getElem hi]
            simp only [if_true, Option.map_eq_map, Option.map_some, ended, hx]
          · simp only [if_neg hj]
        unfold collapseStep
        rw [if_pos hc, elemAt_nat l c.ind hi]
        show (if l[c.ind].d < lim then _ else _) = _
        by_cases hd : l[c.ind].d < lim
        · rw [if_pos hd, hmod 0 (if_pos hd), if_pos hd]
        · rw [if_neg hd, hmod 1 (if_neg hd), if_neg hd]
      refine ⟨l', ?_, ?_⟩
      · rw [List.foldlM_cons, hstep]
        show cells.foldlM (m := Except Fault) _ _ = _
        rw [h1]
        have hr : report lim l c = some (l[c.ind].index, if l[c.ind].d < lim then -1 else -2) := by
          unfold report
          rw [if_pos hc, List.getElem?_eq_getElem hi]
          rfl
        rw [List.filterMap_cons_some hr, List.append_assoc, List.singleton_append]
        have hrest : cells.filterMap (report lim (l.modify c.ind (ended lim))) = cells.filterMap (report lim l) := by
          apply List.filterMap_congr
          intro c' hc'
          unfold report
          by_cases h2 : 2 ≤ c'.cnt
          · rw [if_pos h2, if_pos h2, List.getElem?_modify]
            have : c.ind ≠ c'.ind := by
              intro hh
              exact hn.1 (List.mem_filterMap.2 ⟨c', hc', by unfold picked; rw [if_pos h2, hh]⟩)
            simp only [if_neg this, Option.map_eq_map, Option.map_id']
          · rw [if_neg h2, if_neg h2]
        rw [hrest]
      · intro i
        rw [h2, List.getElem?_modify]
        cases hli : l[i]? with
        | none => rfl
        | some s =>
          simp only [Option.map_eq_map, Option.map_some, List.mem_cons]
          by_cases hii : c.ind = i
          · subst hii
            rw [if_neg hn.1, if_pos rfl, if_pos (.inl rfl)]
          · simp only [if_neg hii]
            have : (i = c.ind ∨ i ∈ cells.filterMap picked) ↔ i ∈ cells.filterMap picked := ⟨fun h => h.resolve_left fun h => hii h.symm, .inr⟩
            simp only [this]
    · have hp : picked c = none := by unfold picked; rw [if_neg hc]
      have hr : report lim l c = none := by unfold report; rw [if_neg hc]
      rw [List.filterMap_cons_none hp] at hn hlt ⊢
      obtain ⟨l', h1, h2⟩ := ih l imp hn hlt
      refine ⟨l', ?_, h2⟩
      rw [List.foldlM_cons, List.filterMap_cons_none hr]
      unfold collapseStep
      rw [if_neg hc]
      exact h1

theorem two_filter {α : Type} (p : α → Bool) : ∀ l : List α, 2 ≤ (l.filter p).length ↔
    ∃ (i j : Nat) (s t : α), i ≠ j ∧ l[i]? = some s ∧ l[j]? = some t ∧ p s = true ∧ p t = true := by
  intro l
  induction l with
  | nil => simp
  | cons a l ih =>
    have one : 1 ≤ (l.filter p).length ↔ ∃ (j : Nat) (t : α), l[j]? = some t ∧ p t = true := by
      constructor
      · intro h
        obtain ⟨t, ht⟩ := List.exists_mem_of_length_pos h
        obtain ⟨ht, hp⟩ := List.mem_filter.1 ht
        obtain ⟨j, hj⟩ := List.mem_iff_getElem?.1 ht
        exact ⟨j, t, hj, hp⟩
      · rintro ⟨j, t, hj, hp⟩
        exact List.length_pos_of_mem (List.mem_filter.2 ⟨List.mem_of_getElem? hj, hp⟩)
    by_cases ha : p a = true
    · rw [List.filter_cons_of_pos ha, List.length_cons]
      constructor
      · intro h
        obtain ⟨j, t, h1, h2⟩ := one.1 (by omega)
        exact ⟨0, j + 1, a, t, by omega, rfl, h1, ha, h2⟩
      · rintro ⟨i, j, s, t, hne, h1, h2, h3, h4⟩
        have : 1 ≤ (l.filter p).length := by
          rw [one]
          cases i with
          | succ i => exact ⟨i, s, h1, h3⟩
          | zero =>
            cases j with
            | zero => exact absurd rfl hne
            | succ j => exact ⟨j, t, h2, h4⟩
        omega
    · rw [List.filter_cons_of_neg ha, ih]
      constructor
      · rintro ⟨i, j, s, t, hne, h⟩
        exact ⟨i + 1, j + 1, s, t, by omega, h⟩
      · rintro ⟨i, j, s, t, hne, h1, h2, h3, h4⟩
        cases i with
        | zero => cases h1; exact absurd h3 ha
        | succ i =>
          cases j with
          | zero => cases h2; exact absurd h4 ha
          | succ j => exact ⟨i, j, s, t, by omega, h1, h2, h3, h4⟩

end RSVS.Almost
