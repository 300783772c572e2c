import Mathlib.Data.List.Nodup
import Mathlib.Data.List.Perm.Basic
import Mathlib.Data.List.Perm.Subperm
import Mathlib.Tactic.Common
import Verif.Model.Order
import Verif.Spec.Order
import Verif.Lemmas.FloodMesh

/-!
# Ordered edge lists: lemmas
-/

namespace RSVS.Order

open RSVS.Spec RSVS.Mesh

/-! ### The table -/

theorem fromKey_grouped {t : Table} (h : Grouped t) (v : Int) :
    ∃ rest, fromKey t v = t.filter (fun p => p.1 == v) ++ rest := by
  induction t with
  | nil => exact ⟨[], rfl⟩
  | cons a r ih =>
    obtain ⟨rest, hr⟩ := ih h.1
    unfold fromKey at hr ⊢
    by_cases ha : a.1 = v
    · have e1 : (a :: r).dropWhile (fun p => p.1 != v) = a :: r := by
        rw [List.dropWhile_cons_of_neg]; simp [ha]
      have e2 : (a :: r).filter (fun p => p.1 == v) = a :: r.filter (fun p => p.1 == v) := by
        rw [List.filter_cons_of_pos]; simp [ha]
      rw [e1, e2]
      by_cases hm : v ∈ r.map Prod.fst
      · have hh := h.2 (ha ▸ hm)
        have : r.dropWhile (fun p => p.1 != v) = r := by
          cases r with
          | nil => rfl
          | cons b r' =>
            rw [List.dropWhile_cons_of_neg]
            simp only [List.head?_cons, Option.map_some, Option.some.injEq] at hh
            simp [hh, ha]
        rw [this] at hr
        exact ⟨rest, by rw [List.cons_append, ← hr]⟩
      · have : r.filter (fun p => p.1 == v) = [] := by
          rw [List.filter_eq_nil_iff]
          intro x hx hk
          exact hm (List.mem_map.mpr ⟨x, hx, by simpa using hk⟩)
        rw [this]
        exact ⟨r, rfl⟩
    · have e1 : (a :: r).dropWhile (fun p => p.1 != v) = r.dropWhile (fun p => p.1 != v) := by
        rw [List.dropWhile_cons_of_pos]; simp [ha]
      have e2 : (a :: r).filter (fun p => p.1 == v) = r.filter (fun p => p.1 == v) := by
        rw [List.filter_cons_of_neg]; simp [ha]
      rw [e1, e2]
      exact ⟨rest, hr⟩

theorem mem_filter_table {l : List Int} {t : Table} (h : IsTable l t) {v : Int} {k : Int} {p : Nat} :
    (k, p) ∈ t.filter (fun p => p.1 == v) ↔ k = v ∧ l[p]? = some v := by
  rw [List.mem_filter, h.1.mem_iff, List.mem_zipIdx_iff_getElem?]
  simp only [beq_iff_eq]
  constructor
  · rintro ⟨h1, rfl⟩; exact ⟨rfl, h1⟩
  · rintro ⟨rfl, h1⟩; exact ⟨h1, rfl⟩

theorem count_zipIdx (l : List Int) (v : Int) :
    ∀ n, ((l.zipIdx n).filter (fun p => p.1 == v)).length = l.count v := by
  induction l with
  | nil => intro n; rfl
  | cons a l ih =>
    intro n
    rw [List.zipIdx_cons, List.filter_cons, List.count_cons]
    by_cases ha : a = v
    · simp [ha, ih (n + 1)]
    · simp [ha, ih (n + 1)]

theorem keyCount_eq {l : List Int} {t : Table} (h : IsTable l t) (v : Int) :
    keyCount t v = l.count v := by
  unfold keyCount
  rw [(h.1.filter _).length_eq, count_zipIdx]

theorem nodup_table {l : List Int} {t : Table} (h : IsTable l t) : t.Nodup := by
  rw [h.1.nodup_iff]
  apply List.Nodup.of_map Prod.snd
  rw [List.zipIdx_map_snd]
  exact List.nodup_range'

/-- A vertex with two ends: both entries, adjacent in the table. -/
theorem range_two {l : List Int} {t : Table} (h : IsTable l t) {v : Int} (hc : l.count v = 2) :
    ∃ p q rest, fromKey t v = (v, p) :: (v, q) :: rest ∧ p ≠ q ∧ l[p]? = some v ∧ l[q]? = some v ∧
      ∀ x : Nat, l[x]? = some v → x = p ∨ x = q := by
  obtain ⟨rest, hr⟩ := fromKey_grouped h.2 v
  have hlen := keyCount_eq h v
  rw [hc] at hlen
  unfold keyCount at hlen
  obtain ⟨⟨k1, p⟩, ⟨k2, q⟩, he⟩ := List.length_eq_two.mp hlen
  have m1 := (mem_filter_table h (v := v) (k := k1) (p := p)).mp (by rw [he]; simp)
  have m2 := (mem_filter_table h (v := v) (k := k2) (p := q)).mp (by rw [he]; simp)
  obtain ⟨rfl, m1⟩ := m1
  obtain ⟨rfl, m2⟩ := m2
  refine ⟨p, q, rest, by rw [hr, he]; rfl, ?_, m1, m2, ?_⟩
  · rintro rfl
    have hn := (nodup_table h).filter (fun p => p.1 == k2)
    rw [he] at hn
    simp at hn
  · intro x hx
    have := (mem_filter_table h (v := k2) (k := k2) (p := x)).mpr ⟨rfl, hx⟩
    rw [he] at this
    simpa using this

/-- A vertex with at least two ends: the first two entries at it. -/
theorem range_more {l : List Int} {t : Table} (h : IsTable l t) {v : Int} (hm : v ∈ l)
    (hc : l.count v ≠ 1) :
    ∃ p q rest, fromKey t v = (v, p) :: (v, q) :: rest ∧ p ≠ q ∧ l[p]? = some v ∧
      l[q]? = some v := by
  obtain ⟨rest, hr⟩ := fromKey_grouped h.2 v
  have hlen := keyCount_eq h v
  have hpos : 0 < l.count v := List.count_pos_iff.mpr hm
  unfold keyCount at hlen
  cases hf : t.filter (fun p => p.1 == v) with
  | nil => rw [hf] at hlen; simp at hlen; omega
  | cons x r =>
    cases r with
    | nil => rw [hf] at hlen; simp at hlen; omega
    | cons y r =>
      obtain ⟨k1, p⟩ := x
      obtain ⟨k2, q⟩ := y
      have m1 := (mem_filter_table h (v := v) (k := k1) (p := p)).mp (by rw [hf]; simp)
      have m2 := (mem_filter_table h (v := v) (k := k2) (p := q)).mp (by rw [hf]; simp)
      obtain ⟨rfl, m1⟩ := m1
      obtain ⟨rfl, m2⟩ := m2
      refine ⟨p, q, r ++ rest, by rw [hr, hf]; rfl, ?_, m1, m2⟩
      rintro rfl
      have hn := (nodup_table h).filter (fun p => p.1 == k2)
      rw [hf] at hn
      simp at hn

theorem vecGet_nat {α : Type} {l : List α} {k : Nat} {a : α} (h : l[k]? = some a) :
    vecGet l (k : Int) = .ok a := by
  unfold vecGet
  rw [if_neg (by omega)]
  simp [h]

theorem lt_of_get {α : Type} {l : List α} {k : Nat} {a : α} (h : l[k]? = some a) :
    k < l.length := by
  by_contra hk
  rw [List.getElem?_eq_none (by omega)] at h
  cases h

theorem inj_of_get {l : List Int} (hn : l.Nodup) {i j : Nat} {a : Int} (hi : l[i]? = some a)
    (hj : l[j]? = some a) : i = j := by
  have h1 := lt_of_get hi
  have h2 := lt_of_get hj
  rw [List.getElem?_eq_getElem h1] at hi
  rw [List.getElem?_eq_getElem h2] at hj
  exact (List.Nodup.getElem_inj_iff hn).mp (by
    rw [Option.some.injEq] at hi hj; rw [hi, hj])

/-! ### The walk when every vertex has two ends -/

/-- The other end of the same edge. -/
def flip (d : Nat) : Nat := if d % 2 = 0 then d + 1 else d - 1

theorem flip_div (d : Nat) : flip d / 2 = d / 2 := by unfold flip; split <;> omega
theorem flip_ne (d : Nat) : flip d ≠ d := by unfold flip; split <;> omega
theorem eq_or_flip {x d : Nat} (h : x / 2 = d / 2) : x = d ∨ x = flip d := by
  unfold flip; split <;> omega

structure Inv (orig e2v : List Int) (P : List Nat) (d : Nat) (w : Nat → Int) (s : Walk) : Prop where
  nodup : P.Nodup
  lt : ∀ k ∈ P, k < orig.length
  zero : P[0]? = some 0
  done : ∀ k, k ∈ s.done ↔ k ∈ P
  found : s.found = P.map (fun k => orig.getD k 0)
  dart : e2v[d]? = some s.vert
  dP : d / 2 ∈ P
  d1 : d ≠ 1
  edge : orig[d / 2]? = some s.edge
  walk : ∀ (i k : Nat), P[i]? = some k →
    ((e2v[2 * k]? = some (w i) ∧ e2v[2 * k + 1]? = some (w (i + 1))) ∨
      (e2v[2 * k]? = some (w (i + 1)) ∧ e2v[2 * k + 1]? = some (w i)))
  wend : w P.length = s.vert
  w0 : e2v[1]? = some (w 0)
  junction : ∀ i, 0 < i → i < P.length → ∃ x, x ≠ 1 ∧ x ≠ d ∧ x / 2 ∈ P ∧ e2v[x]? = some (w i)
  inj : ∀ i j, i < P.length → j < P.length → w i = w j → i = j
  closed : ∀ (x : Nat) (a : Int), x / 2 ∈ P → x ≠ 1 → x ≠ d → e2v[x]? = some a →
    ∃ y, y ≠ x ∧ y ≠ 1 ∧ y ≠ d ∧ y / 2 ∈ P ∧ e2v[y]? = some a
  ends : s.ends = false

/-- The other end at the same vertex. -/
def Partner (e2v : List Int) (d q : Nat) : Prop :=
  q ≠ d ∧ e2v[q]? = e2v[d]? ∧ ∀ x : Nat, e2v[x]? = e2v[d]? → x = d ∨ x = q

theorem exists_partner {e2v : List Int} (h2 : TwoRegular e2v) {t : Table} (ht : IsTable e2v t)
    {d : Nat} {v : Int} (hd : e2v[d]? = some v) : ∃ q, Partner e2v d q := by
  obtain ⟨p1, p2, rest, _, hne, g1, g2, huniq⟩ :=
    range_two ht (h2 v (List.mem_of_getElem? hd))
  unfold Partner
  rw [hd]
  rcases huniq d hd with rfl | rfl
  · exact ⟨p2, hne.symm, g2, huniq⟩
  · exact ⟨p1, hne, g1, fun x hx => (huniq x hx).symm⟩

section

variable {orig e2v : List Int} {t : Table} {P : List Nat} {d : Nat} {w : Nat → Int} {s : Walk}

theorem Inv.next (h : Inv orig e2v P d w s) (hn : orig.Nodup) (hlen : e2v.length = 2 * orig.length)
    (h2 : TwoRegular e2v) (ht : IsTable e2v t) {q : Nat} (hq : Partner e2v d q) :
    ∃ q', nextEntry t orig s = .ok q' ∧ q' / 2 = q / 2 ∧ (q / 2 ≠ d / 2 → q' = q) := by
  obtain ⟨p1, p2, rest, hf, hne, g1, g2, huniq⟩ :=
    range_two ht (h2 s.vert (List.mem_of_getElem? h.dart))
  have hlt : p1 / 2 < orig.length := by have := lt_of_get g1; omega
  have ho : orig[p1 / 2]? = some (orig[p1 / 2]) := List.getElem?_eq_getElem hlt
  obtain ⟨q1, q2, q3⟩ := hq
  rw [h.dart] at q2 q3
  unfold nextEntry
  rw [hf]
  simp only
  rw [vecGet_nat ho]
  show ∃ q', (if orig[p1 / 2] = s.edge then _ else _) = _ ∧ _
  rcases huniq d h.dart with rfl | rfl
  · have e : orig[d / 2] = s.edge := by
      have := h.edge; rw [ho] at this; exact Option.some.inj this
    rw [if_pos e]
    have : p2 = q := by
      rcases q3 p2 g2 with h | h
      · exact absurd h.symm hne
      · exact h
    exact ⟨p2, rfl, by rw [this], fun _ => this⟩
  · have hpq : p1 = q := by
      rcases q3 p1 g1 with h | h
      · exact absurd h hne
      · exact h
    by_cases e : orig[p1 / 2] = s.edge
    · have : p1 / 2 = d / 2 := inj_of_get hn (ho.trans (by rw [e])) h.edge
      rw [if_pos e]
      exact ⟨d, rfl, by rw [← hpq, this], fun hx => absurd (hpq ▸ this) hx⟩
    · rw [if_neg e]
      exact ⟨p1, rfl, by rw [hpq], fun _ => hpq⟩

theorem Inv.deadEnd (h : Inv orig e2v P d w s) (h2 : TwoRegular e2v) (ht : IsTable e2v t)
    (errout : Bool) : deadEnd t e2v errout s = .ok (some s) := by
  unfold Order.deadEnd
  rw [keyCount_eq ht, h2 s.vert (List.mem_of_getElem? h.dart)]
  rfl

/-- When the next edge is already in the walk, it is the first one, met at its other end. -/
theorem Inv.close (h : Inv orig e2v P d w s) {q : Nat} (hq : Partner e2v d q)
    (hP : q / 2 ∈ P) : q = 1 := by
  by_contra h1
  obtain ⟨q1, q2, q3⟩ := hq
  obtain ⟨y, y1, y2, y3, y4, y5⟩ := h.closed q s.vert hP h1 q1 (by rw [q2, h.dart])
  rcases q3 y (by rw [y5, h.dart]) with h | h
  · exact y3 h
  · exact y1 h

theorem Inv.step (h : Inv orig e2v P d w s) {q : Nat}
    (hq : Partner e2v d q) (hP : q / 2 ∉ P) {e v : Int} (he : orig[q / 2]? = some e)
    (hv : e2v[flip q]? = some v) :
    Inv orig e2v (P ++ [q / 2]) (flip q) (fun i => if i = P.length + 1 then v else w i)
      { done := (q / 2) :: s.done, vert := v, edge := e, found := s.found ++ [e],
        ends := s.ends } := by
  obtain ⟨q1, q2, q3⟩ := hq
  have h0P : (0 : Nat) ∈ P := List.mem_of_getElem? h.zero
  have hq2 : e2v[q]? = some s.vert := by rw [q2, h.dart]
  have hpos : 0 < P.length := List.length_pos_of_mem h0P
  have hq1 : q ≠ 1 := by rintro rfl; exact hP h0P
  have hf1 : flip q ≠ 1 := by
    intro h; have := flip_div q; rw [h] at this; exact hP (by rw [← this]; exact h0P)
  have hnotf : ∀ x, x / 2 ∈ P → x ≠ flip q := by
    rintro x hx rfl; rw [flip_div] at hx; exact hP hx
  have hnotq : ∀ x, x / 2 ∈ P → x ≠ q := by
    rintro x hx rfl; exact hP hx
  refine { nodup := ?_, lt := ?_, zero := ?_, done := ?_, found := ?_, dart := hv, dP := ?_,
           d1 := hf1, edge := ?_, walk := ?_, wend := ?_, w0 := ?_, junction := ?_, inj := ?_,
           closed := ?_, ends := h.ends }
  · rw [List.nodup_append]
    exact ⟨h.nodup, List.nodup_singleton _, by
      intro a ha b hb; rw [List.mem_singleton] at hb; subst hb; rintro rfl; exact hP ha⟩
  · intro k hk
    rcases List.mem_append.mp hk with hk | hk
    · exact h.lt k hk
    · rw [List.mem_singleton] at hk; subst hk; exact lt_of_get he
  · rw [List.getElem?_append_left hpos]; exact h.zero
  · intro k
    simp only [List.mem_cons, List.mem_append, h.done, List.not_mem_nil, or_false]
    tauto
  · simp only [h.found, List.map_append, List.map_cons, List.map_nil]
    rw [List.getD_eq_getElem?_getD, he]; rfl
  · rw [flip_div]; simp
  · rw [flip_div]; exact he
  · intro i k hik
    by_cases hi : i < P.length
    · rw [List.getElem?_append_left hi] at hik
      rw [if_neg (by omega), if_neg (by omega)]
      exact h.walk i k hik
    · have hil := lt_of_get hik
      simp only [List.length_append, List.length_singleton] at hil
      have : i = P.length := by omega
      subst this
      rw [List.getElem?_append_right (by omega)] at hik
      simp at hik
      subst hik
      rw [if_neg (by omega), if_pos rfl, h.wend]
      unfold flip at hv
      by_cases hpar : q % 2 = 0
      · rw [if_pos hpar] at hv
        left
        rw [show 2 * (q / 2) = q by omega]
        exact ⟨hq2, hv⟩
      · rw [if_neg hpar] at hv
        right
        rw [show 2 * (q / 2) + 1 = q by omega, show 2 * (q / 2) = q - 1 by omega]
        exact ⟨hv, hq2⟩
  · simp
  · rw [if_neg (by omega)]; exact h.w0
  · intro i hi0 hi
    simp only [List.length_append, List.length_singleton] at hi
    simp only [List.mem_append, List.mem_singleton]
    rw [if_neg (by omega)]
    by_cases hil : i = P.length
    · subst hil
      exact ⟨d, h.d1, hnotf d h.dP, Or.inl h.dP, by rw [h.wend]; exact h.dart⟩
    · obtain ⟨x, x1, x2, x3, x4⟩ := h.junction i hi0 (by omega)
      exact ⟨x, x1, hnotf x x3, Or.inl x3, x4⟩
  · have key : ∀ i, i < P.length → w i ≠ s.vert := by
      intro i hi hw
      by_cases hi0 : i = 0
      · subst hi0
        have := h.w0
        rw [hw] at this
        rcases q3 1 (by rw [this, h.dart]) with h' | h'
        · exact h.d1 h'.symm
        · exact hq1 h'.symm
      · obtain ⟨x, x1, x2, x3, x4⟩ := h.junction i (by omega) hi
        rcases q3 x (by rw [x4, h.dart, hw]) with h' | h'
        · exact x2 h'
        · exact hnotq x x3 h'
    intro i j hi hj hw
    simp only [List.length_append, List.length_singleton] at hi hj
    rw [if_neg (by omega), if_neg (by omega)] at hw
    by_cases hi' : i < P.length
    · by_cases hj' : j < P.length
      · exact h.inj i j hi' hj' hw
      · have : j = P.length := by omega
        subst this
        rw [h.wend] at hw
        exact absurd hw (key i hi')
    · have : i = P.length := by omega
      subst this
      by_cases hj' : j < P.length
      · rw [h.wend] at hw
        exact absurd hw.symm (key j hj')
      · omega
  · intro x a hx hx1 hxf hxa
    simp only [List.mem_append, List.mem_singleton] at hx ⊢
    rcases hx with hx | hx
    · by_cases hxd : x = d
      · subst hxd
        exact ⟨q, q1, hq1, (flip_ne q).symm, Or.inr rfl, by rw [q2, hxa]⟩
      · obtain ⟨y, y1, y2, y3, y4, y5⟩ := h.closed x a hx hx1 hxd hxa
        exact ⟨y, y1, y2, hnotf y y4, Or.inl y4, y5⟩
    · rcases eq_or_flip hx with rfl | rfl
      · exact ⟨d, q1.symm, h.d1, hnotf d h.dP, Or.inl h.dP, by rw [← q2, hxa]⟩
      · exact absurd rfl hxf

theorem otherEnd_ok {q : Nat} {a v : Int}
    (hq : e2v[q]? = some a) (hv : e2v[flip q]? = some v) (hne : v ≠ a ∨ q % 2 = 0) :
    otherEnd e2v (q / 2) a = .ok v := by
  unfold otherEnd
  unfold flip at hv
  by_cases hpar : q % 2 = 0
  · rw [if_pos hpar] at hv
    rw [vecGet_nat (a := a) (by rw [show 2 * (q / 2) = q by omega]; exact hq)]
    show vecGet e2v ((2 * (q / 2) + (if a = a then 1 else 0) : Nat) : Int) = _
    rw [if_pos rfl]
    exact vecGet_nat (by rw [show 2 * (q / 2) + 1 = q + 1 by omega]; exact hv)
  · rw [if_neg hpar] at hv
    have h0 : e2v[2 * (q / 2)]? = some v := by rw [show 2 * (q / 2) = q - 1 by omega]; exact hv
    rw [vecGet_nat h0]
    show vecGet e2v ((2 * (q / 2) + (if v = a then 1 else 0) : Nat) : Int) = _
    rcases hne with hne | hne
    · rw [if_neg hne]
      exact vecGet_nat h0
    · exact absurd hne hpar

/-- The end of the loop: the walk is closed. -/
structure Closed (orig e2v : List Int) (r : List Int) (f : Int) (P : List Nat) (d : Nat)
    (w : Nat → Int) (s : Walk) : Prop where
  inv : Inv orig e2v P d w s
  found : r = s.found
  partner : Partner e2v d 1
  flag : (f = 0 ∧ P.length = orig.length) ∨ (f = 1 ∧ P.length < orig.length)

theorem all_of_length {P : List Nat} {n : Nat} (hn : P.Nodup) (hl : ∀ k ∈ P, k < n)
    (h : n ≤ P.length) : ∀ k, k < n → k ∈ P := by
  intro k hk
  have hs : P.Subperm (List.range n) := hn.subperm (fun x hx => List.mem_range.mpr (hl x hx))
  have hp : P.Perm (List.range n) := hs.perm_of_length_le (by simpa using h)
  exact hp.mem_iff.mpr (List.mem_range.mpr hk)

theorem orderLoop_two (hn : orig.Nodup) (hlen : e2v.length = 2 * orig.length)
    (h2 : TwoRegular e2v) (ht : IsTable e2v t) (full : List Int) (errout : Bool) :
    ∀ (k : Nat) (P : List Nat) (d : Nat) (w : Nat → Int) (s : Walk),
      Inv orig e2v P d w s → P.length + k = orig.length →
      ∃ r f, orderLoop t orig e2v full errout k s = .ok (r, f) ∧
        ∃ P d w s, Closed orig e2v r f P d w s := by
  intro k
  induction k with
  | zero =>
    intro P d w s h hk
    obtain ⟨q, hq⟩ := exists_partner h2 ht h.dart
    have hqlt : q / 2 < orig.length := by
      have : e2v[q]? = some s.vert := by rw [hq.2.1, h.dart]
      have := lt_of_get this; omega
    have hqP := all_of_length h.nodup h.lt (by omega) (q / 2) hqlt
    have h1 := h.close hq hqP
    subst h1
    exact ⟨s.found, 0, rfl, P, d, w, s, h, rfl, hq, Or.inl ⟨rfl, by omega⟩⟩
  | succ k ih =>
    intro P d w s h hk
    obtain ⟨q, hq⟩ := exists_partner h2 ht h.dart
    have hqv : e2v[q]? = some s.vert := by rw [hq.2.1, h.dart]
    have hqlt : q / 2 < orig.length := by
      have := lt_of_get hqv; omega
    obtain ⟨q', n1, n2, n3⟩ := h.next hn hlen h2 ht hq
    have he : orig[q / 2]? = some (orig[q / 2]) := List.getElem?_eq_getElem hqlt
    unfold orderLoop
    rw [h.deadEnd h2 ht]
    show ∃ r f, (nextEntry t orig s >>= _) = _ ∧ _
    rw [n1]
    show ∃ r f, (vecGet orig ((q' / 2 : Nat) : Int) >>= _) = _ ∧ _
    rw [n2, vecGet_nat he]
    show ∃ r f, (if s.done.contains (q / 2) then _ else _) = _ ∧ _
    by_cases hqP : q / 2 ∈ P
    · have h1 := h.close hq hqP
      subst h1
      rw [if_pos (by rw [List.contains_iff_mem]; exact (h.done _).mpr hqP), if_neg (by simp [h.ends])]
      exact ⟨s.found, 1, rfl, P, d, w, s, h, rfl, hq, Or.inr ⟨rfl, by omega⟩⟩
    · rw [if_neg (by rw [List.contains_iff_mem, h.done]; exact hqP)]
      have hfl : flip q < e2v.length := by
        have := flip_div q; omega
      have hv : e2v[flip q]? = some (e2v[flip q]) := List.getElem?_eq_getElem hfl
      have hne : e2v[flip q] ≠ s.vert := by
        intro he'
        rcases hq.2.2 (flip q) (by rw [hv, h.dart, he']) with h' | h'
        · apply hqP
          have := flip_div q
          rw [h'] at this
          rw [← this]; exact h.dP
        · exact flip_ne q h'
      rw [otherEnd_ok hqv hv (Or.inl hne)]
      have := ih _ _ _ _ (h.step hq hqP he hv) (by simp; omega)
      exact this

theorem orderListPtr_two (hn : orig.Nodup) (hne : orig ≠ [])
    (hlen : e2v.length = 2 * orig.length)
    (h2 : TwoRegular e2v) (ht : IsTable e2v t) (errout : Bool) :
    ∃ r f, orderListPtr t orig orig e2v errout = .ok (r, f) ∧
        ∃ P d w s, Closed orig e2v r f P d w s := by
  unfold orderListPtr
  cases ho : orig with
  | nil => exact absurd ho hne
  | cons e0 rest =>
    simp only
    have hl : 2 ≤ e2v.length := by rw [hlen, ho]; simp only [List.length_cons]; omega
    have g0 : e2v[0]? = some (e2v[0]) := List.getElem?_eq_getElem (by omega)
    have g1 : e2v[1]? = some (e2v[1]) := List.getElem?_eq_getElem (by omega)
    rw [show vecGet (e0 :: rest) 0 = .ok e0 from rfl]
    show ∃ r f, (vecGet e2v 0 >>= _) = _ ∧ _
    rw [show vecGet e2v 0 = .ok (e2v[0]) from vecGet_nat (k := 0) g0]
    rw [ho] at hn hlen
    apply orderLoop_two hn hlen h2 ht (e0 :: rest) errout _ [0] 0
      (fun i => if i = 0 then e2v[1] else e2v[0])
    · refine { nodup := by simp, lt := by simp, zero := rfl, done := by simp, found := rfl,
               dart := g0, dP := by simp, d1 := by simp, edge := rfl, walk := ?_, wend := by simp,
               w0 := by simp, junction := ?_, inj := ?_, closed := ?_, ends := rfl }
      · intro i k hik
        have hi : i < 1 := by simpa using lt_of_get hik
        have : i = 0 := by omega
        subst this
        simp at hik
        subst hik
        right
        exact ⟨by simp, by simp⟩
      · intro i h1 h2; simp at h2; omega
      · intro i j h1 h2 _; simp at h1 h2; omega
      · intro x a hx h1 h0
        simp at hx
        omega
    · simp only [List.length_cons, List.length_nil]; omega

end

end RSVS.Order
