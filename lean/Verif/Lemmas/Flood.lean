import Mathlib.Data.Finset.Card
import Mathlib.Data.Finset.Range
import Mathlib.Logic.Relation
import Verif.Model.Flood
import Verif.Lemmas.Mesh

/-!
# The flood fill computes connected components
-/

namespace RSVS

section
variable (nbrs : Nat → Res (List Nat)) (n : Nat) (pre : Nat → Bool)

/-- A step from a free position to a free position. -/
def FloodAdj (u w : Nat) : Prop :=
  u < n ∧ w < n ∧ pre u = false ∧ pre w = false ∧ ∃ l, nbrs u = .ok l ∧ w ∈ l

/-- Joined by such steps. -/
def FloodConn : Nat → Nat → Prop := Relation.ReflTransGen (FloodAdj nbrs n pre)

variable {nbrs n pre}

theorem FloodConn.symm (hsym : ∀ u w, FloodAdj nbrs n pre u w → FloodAdj nbrs n pre w u)
    {u w : Nat} (h : FloodConn nbrs n pre u w) : FloodConn nbrs n pre w u := by
  induction h with
  | refl => exact Relation.ReflTransGen.refl
  | tail _ h ih => exact Relation.ReflTransGen.head (hsym _ _ h) ih

theorem FloodConn.trans {u v w : Nat} (h : FloodConn nbrs n pre u v)
    (h' : FloodConn nbrs n pre v w) : FloodConn nbrs n pre u w :=
  Relation.ReflTransGen.trans h h'

variable (nbrs n pre) in
/-- Number of explored positions. -/
def numDone (d : Nat → Bool) : Nat := ((Finset.range n).filter (fun i => d i = true)).card

theorem numDone_set {d : Nat → Bool} {q : Nat} (hq : q < n) (hd : d q = false) :
    numDone n (setAt d q true) = numDone n d + 1 := by
  unfold numDone
  have : (Finset.range n).filter (fun i => setAt d q true i = true) =
      insert q ((Finset.range n).filter (fun i => d i = true)) := by
    ext i
    simp only [Finset.mem_filter, Finset.mem_range, Finset.mem_insert, setAt]
    by_cases hi : i = q
    · simp [hi, hq]
    · simp [hi]
  rw [this, Finset.card_insert_of_notMem]
  simp [hd]

theorem numDone_le (d : Nat → Bool) : numDone n d ≤ n := by
  unfold numDone
  calc _ ≤ (Finset.range n).card := Finset.card_filter_le _ _
    _ = n := Finset.card_range n

theorem all_done_of_numDone {d : Nat → Bool} (h : n ≤ numDone n d) : ∀ i < n, d i = true := by
  unfold numDone at h
  have h1 : (Finset.range n).filter (fun i => d i = true) = Finset.range n :=
    Finset.eq_of_subset_of_card_le (Finset.filter_subset _ _) (by simpa using h)
  intro i hi
  have : i ∈ (Finset.range n).filter (fun i => d i = true) := by
    rw [h1]; exact Finset.mem_range.mpr hi
  exact (Finset.mem_filter.mp this).2

theorem numDone_countP (d : Nat → Bool) : numDone n d = (List.range n).countP d := by
  unfold numDone
  rw [Finset.card_def, Finset.filter_val, Finset.range_val, ← Multiset.coe_range]
  rw [List.countP_eq_length_filter]
  simp [Multiset.filter_coe]

variable (nbrs n pre) in
/-- The invariant; `Q` is everything still to be looked at. -/
structure FloodInv (lab0 : Nat → Int) (s : FloodState) (Q : List Nat) (nB : Int) : Prop where
  nonneg : 0 ≤ nB
  fixed : ∀ i, pre i = true → s.done i = true ∧ s.label i = lab0 i
  range : ∀ i < n, pre i = false → s.done i = true → 1 ≤ s.label i ∧ s.label i ≤ nB
  count : s.count = numDone n s.done
  closed : ∀ u w, FloodAdj nbrs n pre u w → s.done u = true → s.label u < nB →
    s.done w = true ∧ s.label w = s.label u
  front : ∀ u w, FloodAdj nbrs n pre u w → s.done u = true → s.label u = nB →
    (s.done w = true ∧ s.label w = nB) ∨ (s.done w = false ∧ w ∈ Q)
  bound : ∀ q ∈ Q, q < n
  reach : ∀ q ∈ Q, s.done q = false → ∀ u < n, pre u = false → s.done u = true →
    s.label u = nB → FloodConn nbrs n pre u q
  together : ∀ q ∈ Q, ∀ q' ∈ Q, s.done q = false → s.done q' = false → FloodConn nbrs n pre q q'
  conn : ∀ u < n, ∀ w < n, pre u = false → pre w = false → s.done u = true → s.done w = true →
    s.label u = s.label w → FloodConn nbrs n pre u w
  used : ∀ b, 1 ≤ b → b < nB → ∃ u < n, pre u = false ∧ s.done u = true ∧ s.label u = b

/-- One visit keeps the invariant. -/
theorem floodVisit_inv
    (hsym : ∀ u w, FloodAdj nbrs n pre u w → FloodAdj nbrs n pre w u)
    (hok : ∀ u < n, pre u = false → ∃ l, nbrs u = .ok l ∧ ∀ w ∈ l, w < n)
    {lab0 : Nat → Int} {s : FloodState} {q : Nat} {rest : List Nat} {nB : Int} (hnB : 1 ≤ nB)
    (h : FloodInv nbrs n pre lab0 s (q :: rest ++ s.next) nB) :
    ∃ s', floodVisit nbrs nB s q = .ok s' ∧
      FloodInv nbrs n pre lab0 s' (rest ++ s'.next) nB ∧
      (s.done q = true → s' = s) ∧
      (s.done q = false → s'.count = s.count + 1 ∧ s'.done q = true ∧ s'.label q = nB ∧
        pre q = false) ∧
      (∀ i, s.done i = true → s'.done i = true ∧ s'.label i = s.label i) := by
  have hqn : q < n := h.bound q (by simp)
  by_cases hd : s.done q = true
  · refine ⟨s, by unfold floodVisit; rw [if_pos hd], ?_, fun _ => rfl, fun h' => ?_, fun i hi => ⟨hi, rfl⟩⟩
    · refine ⟨h.nonneg, h.fixed, h.range, h.count, h.closed, ?_, ?_, ?_, ?_, h.conn, h.used⟩
      · intro u w ha hu hl
        rcases h.front u w ha hu hl with h1 | ⟨h1, h2⟩
        · exact Or.inl h1
        · refine Or.inr ⟨h1, ?_⟩
          have h3 : w ≠ q := by rintro rfl; rw [hd] at h1; cases h1
          simpa [h3] using h2
      · intro x hx; exact h.bound x (by simp at hx ⊢; tauto)
      · intro x hx; exact h.reach x (by simp at hx ⊢; tauto)
      · intro x hx y hy
        exact h.together x (by simp at hx ⊢; tauto) y (by simp at hy ⊢; tauto)
    · rw [hd] at h'; cases h'
  · have hd' : s.done q = false := by simpa using hd
    have hpq : pre q = false := by
      by_contra hc
      have := (h.fixed q (by simpa using hc)).1
      rw [hd'] at this; cases this
    obtain ⟨l, hl, hln⟩ := hok q hqn hpq
    refine ⟨{ done := setAt s.done q true, label := setAt s.label q nB, next := s.next ++ l,
              count := s.count + 1 }, ?_, ?_, fun h' => absurd h' hd, ?_, ?_⟩
    · unfold floodVisit
      rw [if_neg hd, hl]
      rfl
    · have hne : ∀ i, s.done i = true → i ≠ q := by
        rintro i hi rfl; rw [hd'] at hi; cases hi
      have hadj : ∀ w, w < n → pre w = false → w ∈ l → FloodAdj nbrs n pre q w :=
        fun w hw hp hwl => ⟨hqn, hw, hpq, hp, l, hl, hwl⟩
      -- every free position with the present label is joined to q
      have hjoin : ∀ u < n, pre u = false → s.done u = true → s.label u = nB →
          FloodConn nbrs n pre u q := fun u hu hp hdu hlu => h.reach q (by simp) hd' u hu hp hdu hlu
      -- every pending position is joined to q
      have hpend : ∀ x ∈ rest ++ (s.next ++ l), setAt s.done q true x = false →
          FloodConn nbrs n pre q x := by
        intro x hx hdx
        have hxq : x ≠ q := by rintro rfl; simp [setAt] at hdx
        have hdx' : s.done x = false := by simpa [setAt, hxq] using hdx
        have hpx : pre x = false := by
          by_contra hc
          have := (h.fixed x (by simpa using hc)).1
          rw [hdx'] at this; cases this
        rw [← List.append_assoc, List.mem_append] at hx
        rcases hx with hx | hx
        · exact h.together q (by simp) x (by simp at hx ⊢; tauto) hd' hdx'
        · exact Relation.ReflTransGen.single (hadj x (hln x hx) hpx hx)
      constructor
      · exact h.nonneg
      · intro i hi
        have h1 := h.fixed i hi
        have h2 := hne i h1.1
        simp only [setAt, if_neg h2]
        exact h1
      · intro i hi hp hdi
        by_cases hiq : i = q
        · simp [setAt, hiq]; omega
        · simp only [setAt, if_neg hiq] at hdi ⊢
          exact h.range i hi hp hdi
      · show s.count + 1 = numDone n (setAt s.done q true)
        rw [numDone_set hqn hd', h.count]
      · intro u w ha hu hlt
        have huq : u ≠ q := by
          rintro rfl; simp [setAt] at hlt
        simp only [setAt, if_neg huq] at hu hlt ⊢
        have h1 := h.closed u w ha hu hlt
        simp only [if_neg (hne w h1.1)]
        exact h1
      · intro u w ha hu hlu
        by_cases huq : u = q
        · subst huq
          obtain ⟨_, hwn, _, hpw, l', hl', hwl⟩ := id ha
          rw [hl] at hl'
          cases hl'
          by_cases hwu : w = u
          · left; simp [setAt, hwu]
          · simp only [setAt, if_neg hwu]
            by_cases hdw : s.done w = true
            · left
              refine ⟨hdw, ?_⟩
              -- the label of w is the present one: otherwise its block would be closed
              have hr := h.range w hwn hpw hdw
              by_contra hc
              have := (h.closed w u (hsym _ _ ha) hdw (by omega)).1
              rw [hd'] at this; cases this
            · right
              exact ⟨by simpa using hdw, by simp [hwl]⟩
        · simp only [setAt, if_neg huq] at hu hlu
          by_cases hwq : w = q
          · left; simp [setAt, hwq]
          · simp only [setAt, if_neg hwq]
            rcases h.front u w ha hu hlu with h1 | ⟨h1, h2⟩
            · exact Or.inl h1
            · refine Or.inr ⟨h1, ?_⟩
              simp only [List.cons_append, List.mem_cons, List.mem_append] at h2 ⊢
              rcases h2 with h2 | h2 | h2
              · exact absurd h2 hwq
              · exact Or.inl h2
              · exact Or.inr (Or.inl h2)
      · intro x hx
        rw [← List.append_assoc, List.mem_append] at hx
        rcases hx with hx | hx
        · exact h.bound x (by simp at hx ⊢; tauto)
        · exact hln x hx
      · intro x hx hdx u hu hp hdu hlu
        have h1 := hpend x hx hdx
        by_cases huq : u = q
        · rw [huq]; exact h1
        · simp only [setAt, if_neg huq] at hdu hlu
          exact (hjoin u hu hp hdu hlu).trans h1
      · intro x hx y hy hdx hdy
        exact (FloodConn.symm hsym (hpend x hx hdx)).trans (hpend y hy hdy)
      · intro u hu w hw hpu hpw hdu hdw hl'
        by_cases huq : u = q
        · by_cases hwq : w = q
          · rw [huq, hwq]; exact Relation.ReflTransGen.refl
          · simp only [setAt, if_neg hwq, huq, if_true] at hdw hl'
            rw [huq]
            exact FloodConn.symm hsym (hjoin w hw hpw hdw hl'.symm)
        · by_cases hwq : w = q
          · simp only [setAt, if_neg huq, hwq, if_true] at hdu hl'
            rw [hwq]
            exact hjoin u hu hpu hdu hl'
          · simp only [setAt, if_neg huq, if_neg hwq] at hdu hdw hl'
            exact h.conn u hu w hw hpu hpw hdu hdw hl'
      · intro b h1 h2
        obtain ⟨u, hu, hp, hdu, hlu⟩ := h.used b h1 h2
        refine ⟨u, hu, hp, ?_, ?_⟩
        · simp only [setAt, if_neg (hne u hdu)]; exact hdu
        · simp only [setAt, if_neg (hne u hdu)]; exact hlu
    · intro _
      exact ⟨rfl, by simp [setAt], by simp [setAt], hpq⟩
    · intro i hi
      have : i ≠ q := by rintro rfl; rw [hd'] at hi; cases hi
      simp [setAt, this, hi]

/-- The whole queue. -/
theorem floodQueue_inv
    (hsym : ∀ u w, FloodAdj nbrs n pre u w → FloodAdj nbrs n pre w u)
    (hok : ∀ u < n, pre u = false → ∃ l, nbrs u = .ok l ∧ ∀ w ∈ l, w < n)
    {lab0 : Nat → Int} {nB : Int} (hnB : 1 ≤ nB) :
    ∀ (curr : List Nat) (s : FloodState),
      FloodInv nbrs n pre lab0 s (curr ++ s.next) nB →
      ((∃ u < n, pre u = false ∧ s.done u = true ∧ s.label u = nB) ∨
        ∃ q ∈ curr, s.done q = false) →
      ∃ s', curr.foldlM (floodVisit nbrs nB) s = .ok s' ∧
        FloodInv nbrs n pre lab0 s' s'.next nB ∧
        (∃ u < n, pre u = false ∧ s'.done u = true ∧ s'.label u = nB) ∧
        s.count ≤ s'.count ∧ ((∃ q ∈ curr, s.done q = false) → s.count < s'.count) ∧
        (s'.count = s.count → s'.next = s.next) := by
  intro curr
  induction curr with
  | nil =>
    intro s h hu
    refine ⟨s, rfl, by simpa using h, ?_, Nat.le_refl _, by simp, fun _ => rfl⟩
    rcases hu with hu | ⟨q, hq, _⟩
    · exact hu
    · simp at hq
  | cons q rest ih =>
    intro s h hu
    obtain ⟨s1, h1, h2, h3, h4, h5⟩ := floodVisit_inv hsym hok hnB (by simpa using h)
    have hu' : (∃ u < n, pre u = false ∧ s1.done u = true ∧ s1.label u = nB) ∨
        ∃ q ∈ rest, s1.done q = false := by
      by_cases hd : s.done q = true
      · rw [h3 hd]
        rcases hu with hu | ⟨x, hx, hdx⟩
        · exact Or.inl hu
        · rcases List.mem_cons.mp hx with rfl | hx
          · rw [hd] at hdx; cases hdx
          · exact Or.inr ⟨x, hx, hdx⟩
      · have hd' : s.done q = false := by simpa using hd
        obtain ⟨_, a, b, c⟩ := h4 hd'
        exact Or.inl ⟨q, h.bound q (by simp), c, a, b⟩
    obtain ⟨s', g1, g2, g3, g4, g5, g6⟩ := ih s1 h2 hu'
    refine ⟨s', ?_, g2, g3, ?_, ?_, ?_⟩
    · rw [List.foldlM_cons, h1]
      exact g1
    · by_cases hd : s.done q = true
      · rw [h3 hd] at g4; exact g4
      · have := (h4 (by simpa using hd)).1; omega
    · rintro ⟨x, hx, hdx⟩
      by_cases hd : s.done q = true
      · have hs := h3 hd
        rw [hs] at g5
        rcases List.mem_cons.mp hx with rfl | hx
        · rw [hd] at hdx; cases hdx
        · exact g5 ⟨x, hx, hdx⟩
      · have := (h4 (by simpa using hd)).1; omega
    · intro hc
      by_cases hd : s.done q = true
      · rw [h3 hd] at g6; exact g6 hc
      · have := (h4 (by simpa using hd)).1; omega

variable (nbrs n pre) in
/-- What the labels are in the end. -/
structure FloodResult (lab0 label : Nat → Int) (nB : Int) : Prop where
  nonneg : 0 ≤ nB
  fixed : ∀ i, pre i = true → label i = lab0 i
  range : ∀ i < n, pre i = false → 1 ≤ label i ∧ label i ≤ nB
  iff : ∀ u < n, ∀ w < n, pre u = false → pre w = false →
    (label u = label w ↔ FloodConn nbrs n pre u w)
  used : ∀ b, 1 ≤ b → b ≤ nB → ∃ u < n, pre u = false ∧ label u = b

theorem floodLoop_spec
    (hsym : ∀ u w, FloodAdj nbrs n pre u w → FloodAdj nbrs n pre w u)
    (hok : ∀ u < n, pre u = false → ∃ l, nbrs u = .ok l ∧ ∀ w ∈ l, w < n)
    {lab0 : Nat → Int} :
    ∀ (fuel : Nat) (s : FloodState) (curr : List Nat) (nB : Int),
      FloodInv nbrs n pre lab0 s curr nB →
      (∀ b, 1 ≤ b → b ≤ nB → ∃ u < n, pre u = false ∧ s.done u = true ∧ s.label u = b) →
      (curr ≠ [] → 1 ≤ nB) →
      2 * (n - s.count) + (if curr = [] then 0 else 1) < fuel →
      ∃ label nB', floodLoop nbrs n fuel s curr nB = .ok (label, nB') ∧
        FloodResult nbrs n pre lab0 label nB' := by
  intro fuel
  induction fuel with
  | zero => intro s curr nB _ _ _ hf; omega
  | succ fuel ih =>
    intro s curr nB h hused hcurr hfuel
    have hcn : s.count ≤ n := by rw [h.count]; exact numDone_le _
    unfold floodLoop
    by_cases hc : s.count < n
    · rw [if_pos hc]
      by_cases he : curr = []
      · subst he
        rw [if_pos rfl]
        cases hf : (List.range n).find? (fun i => !s.done i) with
        | none =>
          exfalso
          rw [List.find?_eq_none] at hf
          have hall : ∀ i < n, s.done i = true := by
            intro i hi
            have := hf i (List.mem_range.mpr hi)
            simpa using this
          have : numDone n s.done = n := by
            unfold numDone
            rw [Finset.filter_true_of_mem (fun i hi => hall i (Finset.mem_range.mp hi))]
            exact Finset.card_range n
          rw [h.count] at hc
          omega
        | some i =>
          have hi1 := List.find?_some hf
          have hi2 := List.mem_range.mp (List.mem_of_find?_eq_some hf)
          have hdi : s.done i = false := by simpa using hi1
          have hnB := h.nonneg
          have hinv : FloodInv nbrs n pre lab0 { s with next := [] } ([i] ++ []) (nB + 1) := by
            refine ⟨by omega, h.fixed, ?_, h.count, ?_, ?_, ?_, ?_, ?_, h.conn, ?_⟩
            · intro j hj hp hdj
              have h1 := h.range j hj hp hdj
              exact ⟨h1.1, by have := h1.2; show s.label j ≤ nB + 1; omega⟩
            · intro u w ha hu hl
              by_cases hl' : s.label u = nB
              · rcases h.front u w ha hu hl' with h1 | ⟨_, h1⟩
                · exact ⟨h1.1, by rw [h1.2]; exact hl'.symm⟩
                · simp at h1
              · have h1 := h.range u ha.1 ha.2.2.1 hu
                exact h.closed u w ha hu (by omega)
            · intro u w ha hu hl
              have h1 := h.range u ha.1 ha.2.2.1 hu
              have hl2 : s.label u = nB + 1 := hl
              omega
            · intro q hq
              simp only [List.append_nil, List.mem_singleton] at hq
              rw [hq]; exact hi2
            · intro q hq _ u hu hp hdu hlu
              have h1 := h.range u hu hp hdu
              have hl2 : s.label u = nB + 1 := hlu
              omega
            · intro q hq q' hq' _ _
              simp only [List.append_nil, List.mem_singleton] at hq hq'
              rw [hq, hq']; exact Relation.ReflTransGen.refl
            · intro b h1 h2; exact hused b h1 (by omega)
          obtain ⟨s', g1, g2, g3, g4, g5, g6⟩ := floodQueue_inv hsym hok (by omega) [i]
            { s with next := [] } hinv (Or.inr ⟨i, by simp, hdi⟩)
          have g5' : s.count < s'.count := g5 ⟨i, by simp, hdi⟩
          have hcn' : s'.count ≤ n := by rw [g2.count]; exact numDone_le _
          obtain ⟨label, nB', k1, k2⟩ := ih s' s'.next (nB + 1) g2 (by
              intro b h1 h2
              by_cases hb : b = nB + 1
              · rw [hb]; exact g3
              · exact g2.used b h1 (by omega)) (by intro _; omega) (by
              rw [if_pos rfl] at hfuel
              split <;> omega)
          refine ⟨label, nB', ?_, k2⟩
          show ([i].foldlM (m := Except Fault) (floodVisit nbrs (nB + 1)) { s with next := [] } >>= _) = _
          rw [g1]
          exact k1
      · rw [if_neg he]
        have hnB : 1 ≤ nB := hcurr he
        have hinv : FloodInv nbrs n pre lab0 { s with next := [] } (curr ++ []) nB := by
          rw [List.append_nil]
          exact ⟨h.nonneg, h.fixed, h.range, h.count, h.closed, h.front, h.bound, h.reach,
            h.together, h.conn, h.used⟩
        obtain ⟨s', g1, g2, g3, g4, g5, g6⟩ := floodQueue_inv hsym hok hnB curr
          { s with next := [] } hinv (Or.inl (hused nB hnB (Int.le_refl _)))
        have g4' : s.count ≤ s'.count := g4
        have g6' : s'.count = s.count → s'.next = [] := g6
        have hcn' : s'.count ≤ n := by rw [g2.count]; exact numDone_le _
        obtain ⟨label, nB', k1, k2⟩ := ih s' s'.next nB g2 (by
            intro b h1 h2
            by_cases hb : b = nB
            · rw [hb]; exact g3
            · exact g2.used b h1 (by omega)) (fun _ => hnB) (by
            rw [if_neg he] at hfuel
            by_cases hcc : s'.count = s.count
            · rw [g6' hcc, if_pos rfl]; omega
            · split <;> omega)
        refine ⟨label, nB', ?_, k2⟩
        show (curr.foldlM (m := Except Fault) (floodVisit nbrs nB) { s with next := [] } >>= _) = _
        rw [g1]
        exact k1
    · rw [if_neg hc]
      have hall : ∀ i < n, s.done i = true :=
        all_done_of_numDone (by rw [← h.count]; omega)
      refine ⟨s.label, nB, rfl, h.nonneg, fun i hi => (h.fixed i hi).2,
        fun i hi hp => h.range i hi hp (hall i hi), ?_, ?_⟩
      · intro u hu w hw hpu hpw
        constructor
        · exact h.conn u hu w hw hpu hpw (hall u hu) (hall w hw)
        · intro hconn
          have step : ∀ a b, FloodAdj nbrs n pre a b → s.label a = s.label b := by
            intro a b hab
            have h1 := h.range a hab.1 hab.2.2.1 (hall a hab.1)
            by_cases hl : s.label a = nB
            · rcases h.front a b hab (hall a hab.1) hl with h2 | ⟨h2, _⟩
              · rw [hl, h2.2]
              · rw [hall b hab.2.1] at h2; cases h2
            · exact (h.closed a b hab (hall a hab.1) (by omega)).2.symm
          clear hpw hw
          induction hconn with
          | refl => rfl
          | tail _ h2 ih2 => exact ih2.trans (step _ _ h2)
      · intro b h1 h2
        obtain ⟨u, hu, hp, _, hl⟩ := hused b h1 h2
        exact ⟨u, hu, hp, hl⟩

/-- The whole flood fill. -/
theorem floodRun_spec {block : List Int} (hb : block.length = 0 ∨ block.length = n)
    (hpre : ∀ i, pre i = decide (block.getD i 0 ≠ 0))
    (hsym : ∀ u w, FloodAdj nbrs n pre u w → FloodAdj nbrs n pre w u)
    (hok : ∀ u < n, pre u = false → ∃ l, nbrs u = .ok l ∧ ∀ w ∈ l, w < n) :
    ∃ label nB, floodRun nbrs n block = .ok ((List.range n).map label, nB) ∧
      FloodResult nbrs n pre (fun i => block.getD i 0) label nB := by
  have hpf : (fun i => decide (block.getD i 0 ≠ 0)) = pre := by
    funext i; exact (hpre i).symm
  obtain ⟨label, nB, h1, h2⟩ := floodLoop_spec (nbrs := nbrs) (n := n) (pre := pre) hsym hok
    (lab0 := fun i => block.getD i 0) (2 * n + 1)
    { done := fun i => decide (block.getD i 0 ≠ 0), label := fun i => block.getD i 0, next := [],
      count := (List.range n).countP (fun i => decide (block.getD i 0 ≠ 0)) } [] 0
    (by
      simp only [hpf]
      refine ⟨Int.le_refl _, fun i hi => ⟨hi, rfl⟩, ?_, ?_, ?_, ?_, ?_, ?_, ?_, ?_, ?_⟩
      · intro i _ hp hd
        have hd' : pre i = true := hd
        rw [hp] at hd'; cases hd'
      · exact (numDone_countP pre).symm
      · intro u w ha hu
        have hu' : pre u = true := hu
        rw [ha.2.2.1] at hu'; cases hu'
      · intro u w ha hu
        have hu' : pre u = true := hu
        rw [ha.2.2.1] at hu'; cases hu'
      · simp
      · simp
      · simp
      · intro u _ w _ hp _ hu
        have hu' : pre u = true := hu
        rw [hp] at hu'; cases hu'
      · intro b h1 h2; omega)
    (by intro b h1 h2; omega) (by simp) (by
      simp only [if_pos]
      omega)
  refine ⟨label, nB, ?_, h2⟩
  unfold floodRun
  rw [if_pos hb]
  show (floodLoop nbrs n (2 * n + 1) _ [] 0 >>= _) = _
  rw [h1]
  rfl

end

end RSVS
