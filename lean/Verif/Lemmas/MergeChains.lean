import Verif.Lemmas.MergePhase

/-!
# Lemmas for the merge of edges: all surfaces
-/

namespace RSVS.MergeEdge

open RSVS.Spec RSVS.Mesh RSVS.SpawnRemove

variable {m : Mesh} {cells : List (Int × Int)} {find : List Int → Int → List Nat} {sibs : Int → List Nat} {live : List Int}

/-- The vertices of the edge at a position. -/
def vAt (m : Mesh) (i : Nat) : List Int := (m.edges[i]?).elim [] Edge.vertind

/-- The index of the edge at a position. -/
def eid (m : Mesh) (i : Nat) : Int := (m.edges[i]?).elim 0 Edge.index

/-- The ends of the edges at some positions. -/
def endsOf (m : Mesh) (sub : List Nat) : Ends := ⟨sub, sub.flatMap (vAt m)⟩

theorem flat_at (f : Nat → List Int) : ∀ (sub : List Nat), (∀ i ∈ sub, (f i).length = 2) → ∀ p : Nat,
    (sub.flatMap f)[p]? = (sub[p / 2]?).bind fun i => (f i)[p % 2]?
  | [], _, p => by simp
  | i :: sub, h, p => by
    have hi := h i (by simp)
    rw [List.flatMap_cons]
    by_cases hp : p < 2
    · rw [List.getElem?_append_left (by omega)]
      have h1 : p / 2 = 0 := by omega
      have h2 : p % 2 = p := by omega
      rw [h1, h2]
      rfl
    · rw [List.getElem?_append_right (by omega), hi, flat_at f sub (fun j hj => h j (by simp [hj])) (p - 2)]
      have h1 : p / 2 = (p - 2) / 2 + 1 := by omega
      have h2 : p % 2 = (p - 2) % 2 := by omega
      rw [h1, h2]
      rfl

theorem flat_length (f : Nat → List Int) : ∀ (sub : List Nat), (∀ i ∈ sub, (f i).length = 2) → (sub.flatMap f).length = 2 * sub.length
  | [], _ => rfl
  | i :: sub, h => by
    rw [List.flatMap_cons, List.length_append, flat_length f sub (fun j hj => h j (by simp [hj])), h i (by simp), List.length_cons]
    omega

/-- What is known about the snake. -/
structure Setting (m : Mesh) (cells : List (Int × Int)) (sibs : Int → List Nat) (live : List Int) (find : List Int → Int → List Nat) : Prop where
  unique : (m.edges.map Edge.index).Nodup
  step : cells.map Prod.fst = m.edges.map Edge.index
  sib : ∀ c, (sibs c).Nodup ∧ ∀ p : Nat, p ∈ sibs c ↔ ∃ x, cells[p]? = some x ∧ x.2 = c ∧ x.1 ∈ live
  two : ∀ x ∈ m.edges, x.index ∈ live → ∃ a b, x.vertind = [a, b] ∧ a ≠ b
  find : ∀ l k, AllPos (fun e => e) l k (find l k)
  most : AtMostTwo m (cells.filter fun x => x.1 ∈ live)

namespace Setting

variable (S : Setting m cells sibs live find)
include S

theorem len : cells.length = m.edges.length := by simpa using congrArg List.length S.step

theorem cell_at {i : Nat} (hi : i < m.edges.length) : ∃ x, cells[i]? = some x ∧ x.1 = eid m i := by
  have hi' : i < cells.length := by rw [S.len]; exact hi
  refine ⟨cells[i], List.getElem?_eq_getElem hi', ?_⟩
  have h4 : (cells.map Prod.fst)[i]? = (m.edges.map Edge.index)[i]? := by rw [S.step]
  rw [List.getElem?_map, List.getElem?_map, List.getElem?_eq_getElem hi', List.getElem?_eq_getElem hi] at h4
  unfold eid
  rw [List.getElem?_eq_getElem hi]
  exact Option.some.inj h4

theorem sib_lt {c : Int} {i : Nat} (h : i ∈ sibs c) : i < m.edges.length := by
  obtain ⟨x, hx, _⟩ := ((S.sib c).2 i).mp h
  have := (List.getElem?_eq_some_iff.mp hx).1
  rw [S.len] at this
  exact this

theorem sib_cell {c c' : Int} {i : Nat} (h : i ∈ sibs c) (h' : i ∈ sibs c') : c = c' := by
  obtain ⟨x, hx, h1, _⟩ := ((S.sib c).2 i).mp h
  obtain ⟨y, hy, h2, _⟩ := ((S.sib c').2 i).mp h'
  rw [hx] at hy
  rw [← h1, ← h2, Option.some.inj hy]

theorem eid_inj {i j : Nat} (hi : i < m.edges.length) (hj : j < m.edges.length) (h : eid m i = eid m j) : i = j := by
  unfold eid at h
  rw [List.getElem?_eq_getElem hi, List.getElem?_eq_getElem hj] at h
  have h1 : i < (m.edges.map Edge.index).length := by simpa using hi
  have h2 : j < (m.edges.map Edge.index).length := by simpa using hj
  exact (List.Nodup.getElem_inj_iff S.unique (hi := h1) (hj := h2)).mp (by simpa using h)

theorem edgeVert {i : Nat} {v : Int} (hi : i < m.edges.length) : EdgeVert m (eid m i) v ↔ v ∈ vAt m i := by
  have h1 : vAt m i = m.edges[i].vertind := by unfold vAt; rw [List.getElem?_eq_getElem hi]; rfl
  have h2 : eid m i = m.edges[i].index := by unfold eid; rw [List.getElem?_eq_getElem hi]; rfl
  rw [h1, h2]
  constructor
  · rintro ⟨x, hx, h3, h4⟩
    rwa [inj_of_nodup S.unique hx (List.getElem_mem hi) h3] at h4
  · intro h4
    exact ⟨_, List.getElem_mem hi, rfl, h4⟩

/-- The edges of a surface of the parent. -/
theorem mem_cells {e c : Int} : (e, c) ∈ cells.filter (fun x => x.1 ∈ live) ↔ ∃ i, i ∈ sibs c ∧ eid m i = e := by
  rw [List.mem_filter]
  constructor
  · rintro ⟨h1, h2⟩
    obtain ⟨i, hi, h3⟩ := List.getElem_of_mem h1
    have hi' : cells[i]? = some (e, c) := by rw [List.getElem?_eq_getElem hi, h3]
    refine ⟨i, ((S.sib c).2 i).mpr ⟨_, hi', rfl, by simpa using h2⟩, ?_⟩
    obtain ⟨x, h4, h5⟩ := S.cell_at (show i < m.edges.length by rw [← S.len]; exact hi)
    rw [hi'] at h4
    rw [← h5, ← Option.some.inj h4]
  · rintro ⟨i, h1, h2⟩
    obtain ⟨x, h3, h4, h5⟩ := ((S.sib c).2 i).mp h1
    obtain ⟨y, h6, h7⟩ := S.cell_at (S.sib_lt h1)
    rw [h3] at h6
    have hxy := Option.some.inj h6
    have : x = (e, c) := by
      rw [← h2, ← h7, ← hxy, ← h4]
    rw [← this]
    exact ⟨List.mem_of_getElem? h3, by simpa using h5⟩

theorem meet {v e f : Int} : EdgesMeetAt m (cells.filter fun x => x.1 ∈ live) v e f ↔
    ∃ c i j, i ∈ sibs c ∧ j ∈ sibs c ∧ eid m i = e ∧ eid m j = f ∧ v ∈ vAt m i ∧ v ∈ vAt m j := by
  constructor
  · rintro ⟨c, h1, h2, h3, h4⟩
    obtain ⟨i, hi, rfl⟩ := S.mem_cells.mp h1
    obtain ⟨j, hj, rfl⟩ := S.mem_cells.mp h2
    exact ⟨c, i, j, hi, hj, rfl, rfl, (S.edgeVert (S.sib_lt hi)).mp h3, (S.edgeVert (S.sib_lt hj)).mp h4⟩
  · rintro ⟨c, i, j, hi, hj, rfl, rfl, h3, h4⟩
    exact ⟨c, S.mem_cells.mpr ⟨i, hi, rfl⟩, S.mem_cells.mpr ⟨j, hj, rfl⟩, (S.edgeVert (S.sib_lt hi)).mpr h3, (S.edgeVert (S.sib_lt hj)).mpr h4⟩

theorem two_at {c : Int} {i : Nat} (h : i ∈ sibs c) : ∃ a b, vAt m i = [a, b] ∧ a ≠ b := by
  have hi := S.sib_lt h
  obtain ⟨x, h3, h4, h5⟩ := ((S.sib c).2 i).mp h
  obtain ⟨y, h6, h7⟩ := S.cell_at hi
  rw [h3] at h6
  have hxy := Option.some.inj h6
  have h8 : m.edges[i].index ∈ live := by
    have : eid m i = m.edges[i].index := by unfold eid; rw [List.getElem?_eq_getElem hi]; rfl
    rw [← this, ← h7, ← hxy]
    exact h5
  obtain ⟨a, b, h9, h10⟩ := S.two _ (List.getElem_mem hi) h8
  exact ⟨a, b, by unfold vAt; rw [List.getElem?_eq_getElem hi]; exact h9, h10⟩

theorem at_iff {c : Int} {p : Nat} {v : Int} : (endsOf m (sibs c)).vec[p]? = some v ↔ ∃ i, (sibs c)[p / 2]? = some i ∧ (vAt m i)[p % 2]? = some v := by
  show ((sibs c).flatMap (vAt m))[p]? = some v ↔ _
  rw [flat_at]
  · rw [Option.bind_eq_some_iff]
  · intro i hi
    obtain ⟨a, b, h, _⟩ := S.two_at hi
    rw [h]; rfl

theorem own_at {c : Int} {p i : Nat} (h : (sibs c)[p / 2]? = some i) : own (endsOf m (sibs c)) p = i := by
  show (sibs c).getD (p / 2) 0 = i
  rw [List.getD_eq_getElem?_getD, h]
  rfl

theorem flip_sub {c : Int} {p i : Nat} (h : (sibs c)[p / 2]? = some i) : (sibs c)[flip p / 2]? = some i := by
  rw [flip_half]; exact h

/-- Places of a vertex are places of edges with this vertex. -/
theorem place {c : Int} {i : Nat} {v : Int} : (∃ p, (endsOf m (sibs c)).vec[p]? = some v ∧ own (endsOf m (sibs c)) p = i) ↔ i ∈ sibs c ∧ v ∈ vAt m i := by
  constructor
  · rintro ⟨p, h1, rfl⟩
    obtain ⟨i, h2, h3⟩ := S.at_iff.mp h1
    rw [S.own_at h2]
    exact ⟨List.mem_of_getElem? h2, List.mem_of_getElem? h3⟩
  · rintro ⟨h1, h2⟩
    obtain ⟨k, hk, h3⟩ := List.getElem_of_mem h1
    obtain ⟨a, b, h4, _⟩ := S.two_at h1
    have h5 : (sibs c)[k]? = some i := by rw [List.getElem?_eq_getElem hk, h3]
    rw [h4] at h2
    simp only [List.mem_cons, List.not_mem_nil, or_false] at h2
    rcases h2 with rfl | rfl
    · have h6 : (sibs c)[2 * k / 2]? = some i := by rw [show 2 * k / 2 = k by omega]; exact h5
      exact ⟨2 * k, S.at_iff.mpr ⟨i, h6, by rw [h4, show 2 * k % 2 = 0 by omega]; rfl⟩, S.own_at h6⟩
    · have h6 : (sibs c)[(2 * k + 1) / 2]? = some i := by rw [show (2 * k + 1) / 2 = k by omega]; exact h5
      exact ⟨2 * k + 1, S.at_iff.mpr ⟨i, h6, by rw [h4, show (2 * k + 1) % 2 = 1 by omega]; rfl⟩, S.own_at h6⟩

theorem ends_ne {c : Int} {p : Nat} (hp : p < (endsOf m (sibs c)).vec.length) :
    (endsOf m (sibs c)).vec[p]? ≠ (endsOf m (sibs c)).vec[flip p]? := by
  obtain ⟨v, hv⟩ : ∃ v, (endsOf m (sibs c)).vec[p]? = some v := ⟨_, List.getElem?_eq_getElem hp⟩
  obtain ⟨i, h1, h2⟩ := S.at_iff.mp hv
  obtain ⟨a, b, h3, h4⟩ := S.two_at (List.mem_of_getElem? h1)
  intro e
  rw [hv] at e
  obtain ⟨j, h5, h6⟩ := S.at_iff.mp e.symm
  rw [flip_half, h1] at h5
  have := Option.some.inj h5
  subst this
  rw [h3] at h2 h6
  rcases Nat.mod_two_eq_zero_or_one p with h | h
  · have h' : flip p % 2 = 1 := by unfold flip; rw [if_pos h]; omega
    rw [h] at h2
    rw [h'] at h6
    simp at h2 h6
    exact h4 (h2.trans h6.symm)
  · have h' : flip p % 2 = 0 := by unfold flip; rw [if_neg (by omega)]; omega
    rw [h] at h2
    rw [h'] at h6
    simp at h2 h6
    exact h4 (h6.trans h2.symm)

theorem own_ne {c : Int} {p q : Nat} {v : Int} (hp : (endsOf m (sibs c)).vec[p]? = some v) (hq : (endsOf m (sibs c)).vec[q]? = some v) (h : p ≠ q) :
    own (endsOf m (sibs c)) p ≠ own (endsOf m (sibs c)) q := by
  intro e
  obtain ⟨i, h1, _⟩ := S.at_iff.mp hp
  obtain ⟨j, h2, _⟩ := S.at_iff.mp hq
  rw [S.own_at h1, S.own_at h2] at e
  subst e
  obtain ⟨a, a1⟩ := List.getElem?_eq_some_iff.mp h1
  obtain ⟨b, b1⟩ := List.getElem?_eq_some_iff.mp h2
  rcases half_eq ((List.Nodup.getElem_inj_iff (S.sib c).1).mp (a1.trans b1.symm)) with h3 | h3
  · exact h h3.symm
  · subst h3
    exact S.ends_ne (List.getElem?_eq_some_iff.mp hp).1 (hp.trans hq.symm)

theorem good (c : Int) : Good m.edges.length find (endsOf m (sibs c)) := by
  refine ⟨?_, (S.sib c).1, fun i hi => S.sib_lt hi, fun p hp => S.ends_ne hp, S.find, ?_⟩
  · refine flat_length _ _ ?_
    intro i hi
    obtain ⟨a, b, h, _⟩ := S.two_at hi
    rw [h]; rfl
  · intro v
    by_contra hlt
    have hn := (S.find (endsOf m (sibs c)).vec v).1
    have hm : ∀ p ∈ find (endsOf m (sibs c)).vec v, (endsOf m (sibs c)).vec[p]? = some v := by
      intro p hp
      obtain ⟨e, h1, rfl⟩ := ((S.find _ v).2 p).mp hp
      exact h1
    revert hn hm hlt
    generalize find (endsOf m (sibs c)).vec v = ps
    intro hlt hn hm
    match ps, hlt, hn, hm with
    | [], hlt, _, _ => simp at hlt
    | [_], hlt, _, _ => simp at hlt
    | [_, _], hlt, _, _ => simp at hlt
    | p :: q :: r :: l, _, hn, hm =>
      have hpv := hm p (by simp)
      have hqv := hm q (by simp)
      have hrv := hm r (by simp)
      have hpq : p ≠ q := by rintro rfl; simp at hn
      have hpr : p ≠ r := by rintro rfl; simp at hn
      have hqr : q ≠ r := by rintro rfl; simp at hn
      obtain ⟨ip, vp⟩ := S.place.mp ⟨p, hpv, rfl⟩
      obtain ⟨iq, vq⟩ := S.place.mp ⟨q, hqv, rfl⟩
      obtain ⟨ir, vr⟩ := S.place.mp ⟨r, hrv, rfl⟩
      rcases S.most v _ _ _ (S.meet.mpr ⟨c, _, _, ip, iq, rfl, rfl, vp, vq⟩) (S.meet.mpr ⟨c, _, _, ip, ir, rfl, rfl, vp, vr⟩) with h | h | h
      · exact S.own_ne hpv hqv hpq (S.eid_inj (S.sib_lt ip) (S.sib_lt iq) h)
      · exact S.own_ne hpv hrv hpr (S.eid_inj (S.sib_lt ip) (S.sib_lt ir) h)
      · exact S.own_ne hqv hrv hqr (S.eid_inj (S.sib_lt iq) (S.sib_lt ir) h)

theorem nxt {c : Int} {i j : Nat} : Nxt (endsOf m (sibs c)) i j ↔ i ∈ sibs c ∧ j ∈ sibs c ∧ i ≠ j ∧ ∃ v, v ∈ vAt m i ∧ v ∈ vAt m j := by
  constructor
  · rintro ⟨p, q, ⟨hne, v, h1, h2⟩, rfl, rfl⟩
    obtain ⟨a1, a2⟩ := S.place.mp ⟨p, h1, rfl⟩
    obtain ⟨b1, b2⟩ := S.place.mp ⟨q, h2, rfl⟩
    exact ⟨a1, b1, S.own_ne h1 h2 hne, v, a2, b2⟩
  · rintro ⟨hi, hj, hne, v, h1, h2⟩
    obtain ⟨p, h3, h4⟩ := S.place.mpr ⟨hi, h1⟩
    obtain ⟨q, h5, h6⟩ := S.place.mpr ⟨hj, h2⟩
    exact ⟨p, q, ⟨by rintro rfl; exact hne (h4.symm.trans h6), v, h3, h5⟩, h4, h6⟩

theorem ch_mem {c : Int} {i j : Nat} (hi : i ∈ sibs c) (h : Ch (endsOf m (sibs c)) i j) : j ∈ sibs c := by
  induction h with
  | refl => exact hi
  | tail _ h _ => exact (S.nxt.mp h).2.1

theorem chain {c : Int} {i : Nat} {e : Int} (hi : i ∈ sibs c) :
    EdgeChain m (cells.filter fun x => x.1 ∈ live) (eid m i) e ↔ ∃ j, eid m j = e ∧ Ch (endsOf m (sibs c)) i j := by
  constructor
  · intro h
    induction h with
    | refl => exact ⟨i, rfl, Relation.ReflTransGen.refl⟩
    | tail _ h ih =>
      obtain ⟨j, rfl, hj⟩ := ih
      obtain ⟨v, hv⟩ := h
      obtain ⟨c', i', k, h1, h2, h3, h4, h5, h6⟩ := S.meet.mp hv
      have hjc := S.ch_mem hi hj
      have := S.eid_inj (S.sib_lt h1) (S.sib_lt hjc) h3
      subst this
      have := S.sib_cell h1 hjc
      subst this
      refine ⟨k, h4, ?_⟩
      by_cases hik : i' = k
      · subst hik; exact hj
      · exact hj.tail (S.nxt.mpr ⟨h1, h2, hik, v, h5, h6⟩)
  · rintro ⟨j, rfl, h⟩
    induction h with
    | refl => exact Relation.ReflTransGen.refl
    | tail _ h ih =>
      obtain ⟨h1, h2, _, v, h3, h4⟩ := S.nxt.mp h
      exact ih.tail ⟨v, S.meet.mpr ⟨c, _, _, h1, h2, rfl, rfl, h3, h4⟩⟩

theorem chain_pos {c : Int} {i j : Nat} (hi : i ∈ sibs c) (hj : j < m.edges.length) :
    EdgeChain m (cells.filter fun x => x.1 ∈ live) (eid m i) (eid m j) ↔ Ch (endsOf m (sibs c)) i j := by
  rw [S.chain hi]
  constructor
  · rintro ⟨k, h1, h2⟩
    rw [← S.eid_inj (S.sib_lt (S.ch_mem hi h2)) hj h1]
    exact h2
  · intro h; exact ⟨j, rfl, h⟩

theorem joined {c : Int} {i : Nat} {v : Int} (hi : i ∈ sibs c) :
    JoinedAt m (cells.filter fun x => x.1 ∈ live) v (eid m i) ↔ ∃ p q, Mate (endsOf m (sibs c)) p q ∧ own (endsOf m (sibs c)) p = i ∧
      (endsOf m (sibs c)).vec[p]? = some v := by
  constructor
  · rintro ⟨f, hne, hm⟩
    obtain ⟨c', i', j, h1, h2, h3, rfl, h5, h6⟩ := S.meet.mp hm
    have := S.eid_inj (S.sib_lt h1) (S.sib_lt hi) h3
    subst this
    have := S.sib_cell h1 hi
    subst this
    obtain ⟨p, a1, a2⟩ := S.place.mpr ⟨h1, h5⟩
    obtain ⟨q, b1, b2⟩ := S.place.mpr ⟨h2, h6⟩
    refine ⟨p, q, ⟨?_, v, a1, b1⟩, a2, a1⟩
    rintro rfl
    rw [a2] at b2
    exact hne (by rw [b2])
  · rintro ⟨p, q, ⟨hne, v', h1, h2⟩, rfl, h3⟩
    rw [h3] at h1
    have := Option.some.inj h1
    subst this
    obtain ⟨a1, a2⟩ := S.place.mp ⟨p, h3, rfl⟩
    obtain ⟨b1, b2⟩ := S.place.mp ⟨q, h2, rfl⟩
    refine ⟨eid m (own (endsOf m (sibs c)) q), ?_, S.meet.mpr ⟨c, _, _, a1, b1, rfl, rfl, a2, b2⟩⟩
    intro e
    exact S.own_ne h3 h2 hne (S.eid_inj (S.sib_lt b1) (S.sib_lt a1) e).symm

theorem loop {c : Int} {r : Nat} (hr : r ∈ sibs c) : OnLoop m (cells.filter fun x => x.1 ∈ live) (eid m r) ↔ Lp (endsOf m (sibs c)) r := by
  constructor
  · intro h p hp hch
    obtain ⟨v, hv⟩ : ∃ v, (endsOf m (sibs c)).vec[p]? = some v := ⟨_, List.getElem?_eq_getElem hp⟩
    obtain ⟨a1, a2⟩ := S.place.mp ⟨p, hv, rfl⟩
    obtain ⟨p', q, h1, h2, h3⟩ := (S.joined a1).mp (h _ v ((S.chain hr).mpr ⟨_, rfl, hch⟩) ((S.edgeVert (S.sib_lt a1)).mpr a2))
    have : p' = p := by
      by_contra hne
      exact S.own_ne h3 hv hne h2
    subst this
    exact ⟨q, h1⟩
  · intro h f v hf hv
    obtain ⟨j, rfl, hj⟩ := (S.chain hr).mp hf
    have hjc := S.ch_mem hr hj
    have hv' := (S.edgeVert (S.sib_lt hjc)).mp hv
    obtain ⟨p, h1, h2⟩ := S.place.mpr ⟨hjc, hv'⟩
    obtain ⟨q, hq⟩ := h p (List.getElem?_eq_some_iff.mp h1).1 (by rw [h2]; exact hj)
    exact (S.joined hjc).mpr ⟨p, q, hq, h2, h1⟩

theorem hasEdge {i : Nat} (h : i < m.edges.length) : HasEdge m (eid m i) :=
  ⟨m.edges[i], List.getElem_mem h, by unfold eid; rw [List.getElem?_eq_getElem h]; rfl⟩

/-- An edit of a call is right. -/
theorem edit {c : Int} {scope : List Int} (hsc : ∀ e, e ∈ scope ↔ ∃ i, i ∈ sibs c ∧ eid m i = e) {r : Nat} {d : PathEdit}
    (h : EditOk (endsOf m (sibs c)) cells scope r d) : JoinsChain m (cells.filter fun x => x.1 ∈ live) d ∧ r ∈ sibs c ∧ d.keepE = eid m r := by
  have hr : r ∈ sibs c := h.mem
  have hlt := S.sib_lt hr
  have ids : ∀ {i : Nat} {e : Int}, (∃ x, cells[i]? = some x ∧ x.1 = e) → i < m.edges.length ∧ e = eid m i := by
    rintro i e ⟨x, h1, rfl⟩
    have hi : i < m.edges.length := by rw [← S.len]; exact (List.getElem?_eq_some_iff.mp h1).1
    obtain ⟨y, h2, h3⟩ := S.cell_at hi
    rw [h1] at h2
    exact ⟨hi, by rw [← h3, Option.some.inj h2]⟩
  have hk : d.keepE = eid m r := (ids h.keep).2
  obtain ⟨is, h1, h2, h3⟩ := h.rmv
  have hmap : d.rmvE = is.map (eid m) := by
    clear h2 h3
    revert h1
    generalize d.rmvE = es
    intro h1
    induction h1 with
    | nil => rfl
    | cons h _ ih => rw [List.map_cons, ← ih, (ids h).2]
  have hislt : ∀ i ∈ is, i ∈ sibs c := fun i hi => S.ch_mem hr ((h3 i).mp hi).1
  refine ⟨⟨?_, h.joins, ?_, ?_, h.vonce, ?_, ?_, ?_, ?_⟩, hr, hk⟩
  · rw [hk]; exact S.hasEdge hlt
  · rw [hmap]
    refine List.Nodup.map_on ?_ h2
    intro x hx y hy e
    exact S.eid_inj (S.sib_lt (hislt x hx)) (S.sib_lt (hislt y hy)) e
  · intro e
    rw [hmap, hk, S.loop hr, List.mem_map]
    constructor
    · rintro ⟨i, hi, rfl⟩
      obtain ⟨a1, a2⟩ := (h3 i).mp hi
      refine ⟨(S.chain hr).mpr ⟨i, rfl, a1⟩, a2.imp_left ?_⟩
      intro hne he
      exact hne (S.eid_inj (S.sib_lt (hislt i hi)) hlt he)
    · rintro ⟨a1, a2⟩
      obtain ⟨j, rfl, hj⟩ := (S.chain hr).mp a1
      refine ⟨j, (h3 j).mpr ⟨hj, a2.imp_left ?_⟩, rfl⟩
      rintro hne rfl
      exact hne rfl
  · intro v
    rw [h.verts, hk]
    constructor
    · rintro ⟨p, q, a1, a2, a3⟩
      exact ⟨_, (S.chain hr).mpr ⟨_, rfl, a2⟩, (S.joined (S.ch_mem hr a2)).mpr ⟨p, q, a1, rfl, a3⟩⟩
    · rintro ⟨e, a1, a2⟩
      obtain ⟨j, rfl, hj⟩ := (S.chain hr).mp a1
      obtain ⟨p, q, b1, rfl, b3⟩ := (S.joined (S.ch_mem hr hj)).mp a2
      exact ⟨p, q, b1, hj, b3⟩
  · obtain ⟨p, a1, a2⟩ := h.keepV
    obtain ⟨b1, b2⟩ := S.place.mp ⟨p, a2, rfl⟩
    exact ⟨_, by rw [hk]; exact (S.chain hr).mpr ⟨_, rfl, a1⟩, (S.edgeVert (S.sib_lt b1)).mpr b2⟩
  · rw [h.loopV, hk, S.loop hr]
  · intro e
    rw [h.scope, hsc, hk]
    constructor
    · rintro ⟨i, a1, rfl⟩
      exact ⟨c, S.mem_cells.mpr ⟨r, hr, rfl⟩, S.mem_cells.mpr ⟨i, a1, rfl⟩⟩
    · rintro ⟨c', a1, a2⟩
      obtain ⟨i, b1, b2⟩ := S.mem_cells.mp a1
      have := S.eid_inj (S.sib_lt b1) hlt b2
      subst this
      have := S.sib_cell b1 hr
      subst this
      exact S.mem_cells.mp a2

/-- The indices of the edges of a surface. -/
theorem scope_ok (c : Int) : ∃ scope, (sibs c).mapM (m := Except Fault) (fun p : Nat => (elemAt cells p).map Prod.fst) = .ok scope ∧
    ∀ e, e ∈ scope ↔ ∃ i, i ∈ sibs c ∧ eid m i = e := by
  refine ⟨(sibs c).map (eid m), ?_, by intro e; simp⟩
  have : ∀ l : List Nat, (∀ i ∈ l, i < m.edges.length) →
      l.mapM (m := Except Fault) (fun p : Nat => (elemAt cells p).map Prod.fst) = .ok (l.map (eid m)) := by
    intro l
    induction l with
    | nil => intro _; rfl
    | cons i l ih =>
      intro h
      obtain ⟨x, hx, h1⟩ := S.cell_at (h i (by simp))
      rw [List.mapM_cons, ih (fun j hj => h j (by simp [hj])), elemAt_of hx]
      show Except.ok (x.1 :: l.map (eid m)) = _
      rw [h1]
      rfl
  exact this _ fun i hi => S.sib_lt hi

/-- One call. -/
theorem call (c : Int) {done : List Bool} (hd : done.length = m.edges.length) (E0 : List PathEdit) :
    ∃ done' E, mergeEdges m cells find done E0 (sibs c) = .ok (done', E0 ++ E) ∧ done'.length = m.edges.length ∧
      (∀ i, i ∉ sibs c → done'[i]? = done[i]?) ∧ (∀ i ∈ sibs c, done'[i]? = some true) ∧
      (∀ d ∈ E, JoinsChain m (cells.filter fun x => x.1 ∈ live) d ∧ ∃ r ∈ sibs c, d.keepE = eid m r) ∧
      JoinedOnce m (cells.filter fun x => x.1 ∈ live) E ∧
      ∀ y ∈ sibs c, (∀ j, Ch (endsOf m (sibs c)) y j → j = y) ∨ ∃ d ∈ E, EdgeChain m (cells.filter fun x => x.1 ∈ live) d.keepE (eid m y) := by
  obtain ⟨scope, h1, h2⟩ := S.scope_ok c
  obtain ⟨a, a', E, rs, g1, g2, g3, g4, g5, g6, g7, g8, g9⟩ := rounds_ok (S.good c) S.len (scope := scope) hd E0
  refine ⟨a'.done, E, ?_, g4, g5, g6, ?_, ?_, ?_⟩
  · unfold mergeEdges
    have hv : concatField m.edges Edge.vertind ((sibs c).map fun p : Nat => (p : Int)) = .ok (endsOf m (sibs c)).vec := by
      unfold concatField
      rw [concatField_at m.edges Edge.vertind (sibs c) [] (fun i hi => S.sib_lt hi), List.nil_append]
      rfl
    rw [hv, ok_bind, h1, ok_bind]
    show Except.bind (phase cells find (endsOf m (sibs c)) scope 1 _ _) _ = _
    rw [g1, ok_bind]
    show Except.map _ (phase cells find (endsOf m (sibs c)) scope 2 _ a) = _
    rw [g2]
    show Except.ok (a'.done, a'.edits) = _
    rw [g3]
  · intro d hd'
    obtain ⟨i, hi, rfl⟩ := List.getElem_of_mem hd'
    have hlen := g7.length_eq
    have := g7.get (by omega) hi
    obtain ⟨h3, h4, h5⟩ := S.edit h2 this
    exact ⟨h3, _, h4, h5⟩
  · have hroots : ∀ r ∈ rs, r ∈ sibs c := by
      intro r hr
      obtain ⟨i, hi, rfl⟩ := List.getElem_of_mem hr
      have hlen := g7.length_eq
      exact (g7.get hi (by omega)).mem
    unfold JoinedOnce
    clear g3 g9
    induction g7 with
    | nil => simp
    | @cons r d rs' E' h _ ih =>
      obtain ⟨p1, p2⟩ := List.pairwise_cons.mp g8
      rw [List.pairwise_cons]
      refine ⟨?_, ih p2 (fun r hr => hroots r (by simp [hr]))⟩
      intro d' hd' hch
      rename_i hrest
      obtain ⟨i, hi, rfl⟩ := List.getElem_of_mem hd'
      have hlen := hrest.length_eq
      have h3 := hrest.get (i := i) (by omega) hi
      obtain ⟨_, b2, b3⟩ := S.edit h2 h3
      obtain ⟨_, c2, c3⟩ := S.edit h2 h
      have b3' : E'[i].keepE = eid m (rs'.get ⟨i, by omega⟩) := b3
      rw [c3, b3', S.chain_pos c2 (S.sib_lt b2)] at hch
      exact p1 _ (List.get_mem _ _) hch
  · intro y hy
    rcases g9 y hy with h | ⟨r, h3, h4⟩
    · exact Or.inl h
    · right
      obtain ⟨i, hi, rfl⟩ := List.getElem_of_mem h3
      have hlen := g7.length_eq
      have h5 := g7.get hi (by omega)
      obtain ⟨_, b2, b3⟩ := S.edit h2 h5
      refine ⟨E[i], List.getElem_mem _, ?_⟩
      have b3' : E[i].keepE = _ := b3
      rw [b3']
      exact (S.chain b2).mpr ⟨y, rfl, h4⟩

end Setting

/-- What holds while the edges are gone through. -/
structure TopE (m : Mesh) (cells : List (Int × Int)) (sibs : Int → List Nat) (live : List Int) (done : List Bool) (E : List PathEdit) : Prop where
  dlen : done.length = m.edges.length
  edits : ∀ d ∈ E, JoinsChain m (cells.filter fun x => x.1 ∈ live) d ∧ ∃ c, ∃ r ∈ sibs c, d.keepE = eid m r ∧ done[r]? = some true
  cover : ∀ c, ∀ y ∈ sibs c, done[y]? = some true → (∀ j, Ch (endsOf m (sibs c)) y j → j = y) ∨
    ∃ d ∈ E, EdgeChain m (cells.filter fun x => x.1 ∈ live) d.keepE (eid m y)
  once : (∀ x ∈ cells, x.1 ∈ live) → (∀ c, (∀ y ∈ sibs c, done[y]? = some false) ∨ (∀ y ∈ sibs c, done[y]? = some true)) ∧
    JoinedOnce m (cells.filter fun x => x.1 ∈ live) E

theorem topE_step (S : Setting m cells sibs live find) {done : List Bool} {E : List PathEdit} (h : TopE m cells sibs live done E) {i : Nat}
    (hi : i < cells.length) :
    ∃ done' E', ((vecGet done i).bind fun d =>
      if !d then
        (elemAt cells i).bind fun x =>
        (if (sibs x.2).length > 1 then mergeEdges m cells find done E (sibs x.2) else .ok (done, E)).map fun r => (r.1.set i true, r.2)
      else .ok (done, E)) = .ok (done', E') ∧ TopE m cells sibs live done' E' ∧ done'[i]? = some true ∧
      ∀ j : Nat, done[j]? = some true → done'[j]? = some true := by
  have him : i < m.edges.length := by rw [← S.len]; exact hi
  rcases bool_of (l := done) (i := i) (by rw [h.dlen]; exact him) with hd | hd
  · exact ⟨done, E, by rw [vecGet_of hd]; rfl, h, hd, fun _ hj => hj⟩
  · have hx : cells[i]? = some cells[i] := List.getElem?_eq_getElem hi
    rw [vecGet_of hd, ok_bind]
    simp only [Bool.not_false, if_true]
    rw [elemAt_of hx, ok_bind]
    have hself : ∀ c', i ∈ sibs c' → c' = cells[i].2 := by
      intro c' hc'
      obtain ⟨x, h1, h2, _⟩ := ((S.sib c').2 i).mp hc'
      rw [hx] at h1
      rw [← h2, Option.some.inj h1]
    have hlive : (∀ x ∈ cells, x.1 ∈ live) → i ∈ sibs cells[i].2 := fun h =>
      ((S.sib _).2 i).mpr ⟨_, hx, rfl, h _ (List.getElem_mem hi)⟩
    generalize cells[i].2 = c at hself hlive
    have hset : ∀ (D : List Bool), D.length = m.edges.length → ∀ j : Nat, (D.set i true)[j]? = if j = i then some true else D[j]? :=
      fun D hD j => set_get (by rw [hD]; exact him)
    by_cases hlen : (sibs c).length > 1
    · rw [if_pos hlen]
      obtain ⟨D, E', g1, g2, g3, g4, g5, g6, g7⟩ := S.call c h.dlen E
      have hmono : ∀ j : Nat, done[j]? = some true → (D.set i true)[j]? = some true := by
        intro j hj
        rw [hset D g2]
        split
        · rfl
        · by_cases hjc : j ∈ sibs c
          · exact g4 j hjc
          · rw [g3 j hjc]; exact hj
      rw [g1]
      refine ⟨_, _, rfl, ⟨by simpa using g2, ?_, ?_, ?_⟩, by rw [hset D g2, if_pos rfl], hmono⟩
      · intro d hd'
        rcases List.mem_append.mp hd' with hd' | hd'
        · obtain ⟨a1, c', r, a2, a3, a4⟩ := h.edits d hd'
          exact ⟨a1, c', r, a2, a3, hmono r a4⟩
        · obtain ⟨a1, r, a2, a3⟩ := g5 d hd'
          refine ⟨a1, c, r, a2, a3, ?_⟩
          rw [hset D g2]
          split
          · rfl
          · exact g4 r a2
      · intro c' y hy hyd
        by_cases hcc : c' = c
        · subst hcc
          exact (g7 y hy).imp_right fun ⟨d, a1, a2⟩ => ⟨d, List.mem_append.mpr (Or.inr a1), a2⟩
        · have hyc : y ∉ sibs c := fun hyc => hcc (S.sib_cell hy hyc)
          have hyi : y ≠ i := by rintro rfl; exact hcc (hself c' hy)
          have hyd' : (D.set i true)[y]? = some true := hyd
          rw [hset D g2, if_neg hyi, g3 y hyc] at hyd'
          exact (h.cover c' y hy hyd').imp_right fun ⟨d, a1, a2⟩ => ⟨d, List.mem_append.mpr (Or.inl a1), a2⟩
      · intro hall
        obtain ⟨o1, o2⟩ := h.once hall
        have hic := hlive hall
        have hund : ∀ y ∈ sibs c, done[y]? = some false := by
          rcases o1 c with h1 | h1
          · exact h1
          · have := h1 i hic
            rw [hd] at this
            simp at this
        refine ⟨?_, ?_⟩
        · intro c'
          by_cases hcc : c' = c
          · subst hcc
            right
            intro y hy
            show (D.set i true)[y]? = _
            rw [hset D g2]
            split
            · rfl
            · exact g4 y hy
          · have hk : ∀ y ∈ sibs c', (D.set i true)[y]? = done[y]? := by
              intro y hy
              have hyc : y ∉ sibs c := fun hyc => hcc (S.sib_cell hy hyc)
              have hyi : y ≠ i := by rintro rfl; exact hcc (hself c' hy)
              rw [hset D g2, if_neg hyi, g3 y hyc]
            rcases o1 c' with h1 | h1
            · left; intro y hy; exact (hk y hy).trans (h1 y hy)
            · right; intro y hy; exact (hk y hy).trans (h1 y hy)
        · unfold JoinedOnce
          rw [List.pairwise_append]
          refine ⟨o2, g6, ?_⟩
          intro d hd1 d' hd2 hch
          obtain ⟨_, c', r, a2, a3, a4⟩ := h.edits d hd1
          obtain ⟨_, r', b2, b3⟩ := g5 d' hd2
          rw [a3, b3, S.chain_pos a2 (S.sib_lt b2)] at hch
          have := S.ch_mem a2 hch
          have hcc := S.sib_cell this b2
          subst hcc
          rw [hund r a2] at a4
          simp at a4
    · rw [if_neg hlen]
      have hmono : ∀ j : Nat, done[j]? = some true → (done.set i true)[j]? = some true := by
        intro j hj
        rw [hset done h.dlen]
        split
        · rfl
        · exact hj
      refine ⟨_, _, rfl, ⟨by simpa using h.dlen, ?_, ?_, ?_⟩, by rw [hset done h.dlen, if_pos rfl], hmono⟩
      · intro d hd'
        obtain ⟨a1, c', r, a2, a3, a4⟩ := h.edits d hd'
        exact ⟨a1, c', r, a2, a3, hmono r a4⟩
      · intro c' y hy hyd
        have hyd' : (done.set i true)[y]? = some true := hyd
        rw [hset done h.dlen] at hyd'
        split at hyd'
        · rename_i hyi
          subst hyi
          left
          have hcc := hself c' hy
          subst hcc
          intro j hj
          have hjc := S.ch_mem hy hj
          obtain ⟨a, ha⟩ := List.length_eq_one_iff.mp (show (sibs c').length = 1 by
            have := List.length_pos_of_mem hy; omega)
          rw [ha] at hy hjc
          rw [List.mem_singleton.mp hjc, List.mem_singleton.mp hy]
        · exact h.cover c' y hy hyd'
      · intro hall
        obtain ⟨o1, o2⟩ := h.once hall
        refine ⟨?_, o2⟩
        have hic := hlive hall
        intro c'
        by_cases hcc : c' = c
        · subst hcc
          right
          intro y hy
          obtain ⟨a, ha⟩ := List.length_eq_one_iff.mp (show (sibs c').length = 1 by
            have := List.length_pos_of_mem hic; omega)
          have : y = i := by
            rw [ha] at hy hic
            rw [List.mem_singleton.mp hy, List.mem_singleton.mp hic]
          show (done.set i true)[y]? = _
          rw [hset done h.dlen, if_pos this]
        · have hk : ∀ y ∈ sibs c', (done.set i true)[y]? = done[y]? := by
            intro y hy
            have hyi : y ≠ i := by rintro rfl; exact hcc (hself c' hy)
            rw [hset done h.dlen, if_neg hyi]
          rcases o1 c' with h1 | h1
          · left; intro y hy; exact (hk y hy).trans (h1 y hy)
          · right; intro y hy; exact (hk y hy).trans (h1 y hy)

/-- All edges. -/
theorem joins (S : Setting m cells sibs live find) : ∃ E, identifyMergEdge m cells sibs find = .ok E ∧
    (∀ d ∈ E, JoinsChain m (cells.filter fun x => x.1 ∈ live) d) ∧ AllJoined m (cells.filter fun x => x.1 ∈ live) E ∧
    ((∀ x ∈ cells, x.1 ∈ live) → JoinedOnce m (cells.filter fun x => x.1 ∈ live) E) := by
  have hfalse : ∀ y : Nat, (List.replicate cells.length false)[y]? ≠ some true := by
    intro y hy
    rw [List.getElem?_replicate] at hy
    split at hy <;> simp at hy
  have key : ∀ n, n ≤ cells.length → ∃ E done, (List.range n).foldlM (m := Except Fault)
      (fun (a : List Bool × List PathEdit) (ii : Nat) =>
        (vecGet a.1 ii).bind fun d =>
        if !d then
          (elemAt cells ii).bind fun x =>
          (if (sibs x.2).length > 1 then mergeEdges m cells find a.1 a.2 (sibs x.2) else .ok a).map fun r => (r.1.set ii true, r.2)
        else .ok a) (List.replicate cells.length false, []) = .ok (done, E) ∧ TopE m cells sibs live done E ∧
      ∀ i : Nat, i < n → done[i]? = some true := by
    intro n
    induction n with
    | zero =>
      intro _
      refine ⟨[], _, rfl, ⟨by simpa using S.len, by simp, fun c y _ h => absurd h (hfalse y), ?_⟩, by simp⟩
      intro _
      refine ⟨?_, List.Pairwise.nil⟩
      intro c
      left
      intro y hy
      rw [List.getElem?_replicate, if_pos (by rw [S.len]; exact S.sib_lt hy)]
    | succ n ih =>
      intro hn
      obtain ⟨E, done, h1, h2, h3⟩ := ih (by omega)
      obtain ⟨done', E', h4, h5, h6, h7⟩ := topE_step S h2 (show n < cells.length by omega)
      refine ⟨E', done', ?_, h5, ?_⟩
      · rw [List.range_succ, List.foldlM_append, h1]
        show Except.bind (Except.ok (done, E)) _ = _
        rw [ok_bind, List.foldlM_cons, h4]
        rfl
      · intro i hi
        by_cases hin : i = n
        · subst hin; exact h6
        · exact h7 i (h3 i (by omega))
  obtain ⟨E, done, h1, h2, h3⟩ := key _ (le_refl _)
  refine ⟨E, ?_, fun d hd => (h2.edits d hd).1, ?_, fun h => (h2.once h).2⟩
  · unfold identifyMergEdge
    rw [h1]
    rfl
  · intro e f hne hch
    have hin : ∃ c i, i ∈ sibs c ∧ eid m i = e := by
      rcases Relation.ReflTransGen.cases_head hch with h | ⟨k, ⟨v, hv⟩, _⟩
      · exact absurd h hne
      · obtain ⟨c, i, _, a1, _, a3, _⟩ := S.meet.mp hv
        exact ⟨c, i, a1, a3⟩
    obtain ⟨c, i, hi, rfl⟩ := hin
    rcases h2.cover c i hi (h3 i (by rw [S.len]; exact S.sib_lt hi)) with h | h
    · obtain ⟨j, rfl, hj⟩ := (S.chain hi).mp hch
      exact absurd (by rw [h j hj]) hne
    · exact h

end RSVS.MergeEdge
