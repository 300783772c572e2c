import Verif.Lemmas.OrderMesh
import Verif.Lemmas.MeshTest
import Verif.Props.Mesh

/-!
# Ordered edge lists: properties

C23 (ordering of edges), C24 (orientation from ordered lists), C25 (edge and surface searches),
C63 (`OrderedVerts`) and C64 (`ConnVertFromConnEdge`).
-/

namespace RSVS.Props

open RSVS.Spec RSVS.Order RSVS.Mesh

/-! ### C23 -/

/-- C23: if the elements can be arranged in a simple closed loop, then `OrderList` returns such an
arrangement and `ordered`, whatever the order of the hash table and the value of `errout`. -/
theorem C23_loop (es e2v : List Int) (t : Table) (hn : es.Nodup)
    (hlen : e2v.length = 2 * es.length) (ht : IsTable e2v t) (errout : Bool)
    (h : ∃ r, r.Perm es ∧ IsLoop (Joins es e2v) r) :
    ∃ r, orderListPtr t es es e2v errout = .ok (r, 0) ∧ r.Perm es ∧ IsLoop (Joins es e2v) r := by
  obtain ⟨r, h1, h2⟩ := h
  exact orderListPtr_loop hn hlen ht h1 h2 errout

/-- C23: several disjoint loops (every end is met twice): the loop of the first element is returned
complete, and the flag tells whether it is all of the list. -/
theorem C23_several_loops (e0 : Int) (es e2v : List Int) (t : Table) (hn : (e0 :: es).Nodup)
    (hlen : e2v.length = 2 * (e0 :: es).length) (h2 : TwoRegular e2v) (ht : IsTable e2v t)
    (errout : Bool) :
    ∃ r f, orderListPtr t (e0 :: es) (e0 :: es) e2v errout = .ok (r, f) ∧
      IsLoop (Joins (e0 :: es) e2v) r ∧ r.Nodup ∧ r[0]? = some e0 ∧
      (∀ e, e ∈ r ↔ e ∈ e0 :: es ∧ Linked (Joins (e0 :: es) e2v) e0 e) ∧
      ((f = 0 ∧ r.Perm (e0 :: es)) ∨ (f = 1 ∧ ∃ e ∈ e0 :: es, e ∉ r)) := by
  obtain ⟨r, f, h1, P, d, w, s, hc⟩ := orderListPtr_two hn (by simp) hlen h2 ht errout
  refine ⟨r, f, h1, hc.loop, hc.nodup hn, by rw [hc.head]; rfl, hc.linked h2 hn ht rfl, ?_⟩
  have hsub := (hc.nodup hn).subperm hc.sub
  rcases hc.flag with ⟨h, hl⟩ | ⟨h, hl⟩
  · exact Or.inl ⟨h, hsub.perm_of_length_le (by rw [hc.length]; omega)⟩
  · refine Or.inr ⟨h, ?_⟩
    by_contra hno
    simp only [not_exists, not_and, not_not] at hno
    have := (hn.subperm hno).length_le
    rw [hc.length] at this
    omega

/-- C23, any list with `errout`: no undefined behaviour; the list returned is a walk along
different elements of the list, and `ordered` means that it has all of them.

Missing for the full claim: that `ordered` implies a closed loop, which is false
(`C23_open_violated`). -/
theorem C23_ordered_is_walk_partial (es e2v : List Int) (t : Table) (hn : es.Nodup)
    (hlen : e2v.length = 2 * es.length) (ht : IsTable e2v t) :
    orderListPtr t es es e2v true = .error .throws ∨
    ∃ r f, orderListPtr t es es e2v true = .ok (r, f) ∧ IsChain (Joins es e2v) r ∧ r.Nodup ∧
      (∀ e ∈ r, e ∈ es) ∧ ((f = 0 ∧ r.Perm es) ∨ (f = 1 ∧ r.length < es.length)) := by
  rcases orderListPtr_any hn hlen ht with h | ⟨r, f, h1, h2, h3, h4, h5⟩
  · exact Or.inl h
  · right
    refine ⟨r, f, h1, h2, h3, h4, ?_⟩
    rcases h5 with ⟨h, hl⟩ | h
    · exact Or.inl ⟨h, (h3.subperm h4).perm_of_length_le (by omega)⟩
    · exact Or.inr h

/-- C23 in a mesh: `surf::OrderEdges` puts the edges of a surface whose edges can be arranged in a
loop in such an arrangement. -/
theorem C23_surface (tab : List Int → Table) (ht : ∀ l, IsTable l (tab l)) (m : Mesh) (hm : Sound m)
    (h2 : TwoVerts m) (s : Surf) (hs : s ∈ m.surfs)
    (h : ∃ r, r.Perm (sortUnique s.edgeind) ∧ IsLoop (EdgeJoins m) r) :
    ∃ r, surfOrderEdges tab m s = .ok (r, 0) ∧ IsLoop (EdgeJoins m) r ∧ r.Nodup ∧
      ∀ e, e ∈ r ↔ e ∈ s.edgeind := by
  obtain ⟨r, h1, h3⟩ := h
  obtain ⟨r', g1, g2, g3⟩ := surfOrder_loop ht hm h2 hs h1 h3
  exact ⟨r', g1, g3, g2.nodup_iff.mpr (nodup_sortUnique _),
    fun e => by rw [g2.mem_iff, mem_sortUnique]⟩

/-- C23 in a mesh, any surface: never undefined, and what is returned as ordered is a walk along
all edges. -/
theorem C23_surface_any_partial (tab : List Int → Table) (ht : ∀ l, IsTable l (tab l)) (m : Mesh)
    (hm : Sound m) (h2 : TwoVerts m) (s : Surf) (hs : s ∈ m.surfs) :
    surfOrderEdges tab m s = .error .throws ∨ ∃ r f, surfOrderEdges tab m s = .ok (r, f) ∧
      IsChain (EdgeJoins m) r ∧ r.Nodup ∧ (∀ e ∈ r, e ∈ s.edgeind) ∧
      ((f = 0 ∧ ∀ e ∈ s.edgeind, e ∈ r) ∨ (f = 1 ∧ ∃ e ∈ s.edgeind, e ∉ r)) :=
  surfOrder_any ht hm h2 hs

/-- C23 in a mesh: `vert::OrderEdges` puts the edges of a vertex in the order in which they follow
each other around it, when each is between two surfaces and they close up. -/
theorem C23_vertex (tab : List Int → Table) (ht : ∀ l, IsTable l (tab l)) (m : Mesh) (hm : Sound m)
    (v : Vert) (hv : v ∈ m.verts)
    (h : ∃ r, 2 ≤ r.length ∧ r.Perm (sortUnique v.edgeind) ∧ IsLoop (EdgeParts m) r) :
    ∃ r, vertOrderEdges tab m v = .ok (r, 0) ∧ IsLoop (EdgeParts m) r ∧ r.Nodup ∧
      ∀ e, e ∈ r ↔ e ∈ v.edgeind := by
  obtain ⟨r, h0, h1, h3⟩ := h
  obtain ⟨r', g1, g2, g3⟩ := vertOrder_loop ht hm hv h0 h1 h3
  exact ⟨r', g1, g3, g2.nodup_iff.mpr (nodup_sortUnique _),
    fun e => by rw [g2.mem_iff, mem_sortUnique]⟩

/-- A surface with the two edges of an open path. -/
def openSurf : Mesh where
  verts := [⟨1, [1], [0, 0, 0], false⟩, ⟨2, [1, 2], [1, 0, 0], false⟩, ⟨3, [2], [2, 0, 0], false⟩]
  edges := [⟨1, [2, 1], [1], false⟩, ⟨2, [2, 3], [1], false⟩]
  surfs := [{ index := 1, edgeind := [1, 2], voluind := [] }]
  volus := []
  meshDim := 2

theorem openSurf_sound : Sound openSurf := sound_of_checked (by decide +kernel)

/-- C23 fails: an open path is reported as ordered; that the walk closes is not tested. -/
theorem C23_open_violated :
    ¬ ∀ (tab : List Int → Table), (∀ l, IsTable l (tab l)) → ∀ (m : Mesh), Sound m → TwoVerts m →
      ∀ s ∈ m.surfs, ∀ r, surfOrderEdges tab m s = .ok (r, 0) → IsLoop (EdgeJoins m) r := by
  intro H
  have := H sortTab sortTab_isTable openSurf openSurf_sound
    (by unfold TwoVerts; decide +kernel) _ (by simp [openSurf]; rfl) [1, 2] (by decide +kernel)
  obtain ⟨w, w1, w2, _⟩ := this
  have a1 := w1 0 1 rfl
  have a2 := w1 1 2 rfl
  simp only [EdgeJoins, openSurf, List.mem_cons, List.not_mem_nil, or_false] at a1 a2
  obtain ⟨x, hx, hi, hj⟩ := a1
  obtain ⟨y, hy, hk, hl⟩ := a2
  rcases hx with rfl | rfl <;> simp at hi
  rcases hy with rfl | rfl <;> simp at hk
  have w2 : w 2 = w 0 := w2
  simp only [Nat.zero_add, List.cons.injEq, and_true] at hj hl
  rw [show 1 + 1 = 2 from rfl] at hl
  omega

/-- C23 fails without `errout`: for the path of edges 2, 1, 3 the list is reported as ordered
although the last two elements do not touch. -/
theorem C23_no_errout_violated :
    ¬ ∀ (es e2v : List Int) (t : Table), es.Nodup → e2v.length = 2 * es.length → IsTable e2v t →
      ∀ r, orderListPtr t es es e2v false = .ok (r, 0) → IsChain (Joins es e2v) r := by
  intro H
  obtain ⟨w, w1⟩ := H [1, 2, 3] [1, 2, 1, 3, 2, 4] _ (by decide) rfl (sortTab_isTable _) [1, 2, 3]
    (by decide +kernel)
  have joins : ∀ e a b, Joins [1, 2, 3] [1, 2, 1, 3, 2, 4] e a b →
      (e = 1 ∧ (a = 1 ∧ b = 2 ∨ a = 2 ∧ b = 1)) ∨ (e = 2 ∧ (a = 1 ∧ b = 3 ∨ a = 3 ∧ b = 1)) ∨
      (e = 3 ∧ (a = 2 ∧ b = 4 ∨ a = 4 ∧ b = 2)) := by
    rintro e a b ⟨k, k1, k2⟩
    have hk : k < 3 := by simpa using lt_of_get k1
    match k, hk with
    | 0, _ => simp at k1 k2; omega
    | 1, _ => simp at k1 k2; omega
    | 2, _ => simp at k1 k2; omega
  have a1 := joins _ _ _ (w1 1 2 rfl)
  have a2 := joins _ _ _ (w1 2 3 rfl)
  rw [show 1 + 1 = 2 from rfl] at a1
  omega

/-- C23 fails without `errout`: for two elements which do not touch there is an order of the hash
table for which the walk reads past the end of the table. -/
theorem C23_past_end_violated :
    ¬ ∀ (es e2v : List Int) (t : Table), es.Nodup → e2v.length = 2 * es.length → IsTable e2v t →
      orderListPtr t es es e2v false ≠ .error .ub := by
  intro H
  exact H [1, 2] [1, 2, 3, 4] [(1, 0), (3, 2), (4, 3), (2, 1)] (by decide)
    rfl ⟨by decide +kernel, by simp [Grouped]⟩ (by decide +kernel)

/-- The same list with another order of the table: the two elements are reported as ordered. -/
theorem C23_order_dependent_violated :
    ∃ (es e2v : List Int) (t : Table), es.Nodup ∧ e2v.length = 2 * es.length ∧ IsTable e2v t ∧
      orderListPtr t es es e2v false = .ok (es, 0) ∧ ¬ Linked (Joins es e2v) 1 2 ∧ es = [1, 2] := by
  refine ⟨[1, 2], [1, 2, 3, 4], sortTab [1, 2, 3, 4], by decide, rfl, sortTab_isTable _,
    by decide +kernel, ?_, rfl⟩
  have joins : ∀ e a b, Joins [1, 2] [1, 2, 3, 4] e a b →
      (e = 1 ∧ (a = 1 ∧ b = 2 ∨ a = 2 ∧ b = 1)) ∨ (e = 2 ∧ (a = 3 ∧ b = 4 ∨ a = 4 ∧ b = 3)) := by
    rintro e a b ⟨k, k1, k2⟩
    have hk : k < 2 := by simpa using lt_of_get k1
    match k, hk with
    | 0, _ => simp at k1 k2; omega
    | 1, _ => simp at k1 k2; omega
  intro hl
  have key : ∀ f, Linked (Joins [1, 2] [1, 2, 3, 4]) 1 f → f = 1 := by
    intro f hf
    unfold Linked at hf
    induction hf with
    | refl => rfl
    | tail _ h ih =>
      obtain ⟨v, a, b, h1, h2⟩ := h
      have h1 := joins _ _ _ h1
      have h2 := joins _ _ _ h2
      omega
  exact absurd (key 2 hl) (by decide)

theorem tetra_twoVerts : TwoVerts tetra := by unfold TwoVerts; decide +kernel

/-- The vertices met by the loop. -/
def walkOf (l : List Int) : Nat → Int := fun k => l.getD k 0

/-- Face 1 of the tetrahedron: edges 1 = (1,2), 2 = (1,3), 4 = (2,3). -/
theorem tetra_round : GoesRound (EdgeJoins tetra) [1, 4, 2] (walkOf [1, 2, 3, 1]) := by
  refine ⟨?_, rfl, ?_⟩
  · intro k e hk
    have hlt : k < 3 := by simpa using lt_of_get hk
    match k, hlt with
    | 0, _ => cases hk; exact ⟨⟨1, [1, 2], [1, 2], false⟩, by simp [tetra], rfl, Or.inl rfl⟩
    | 1, _ => cases hk; exact ⟨⟨4, [2, 3], [1, 4], false⟩, by simp [tetra], rfl, Or.inl rfl⟩
    | 2, _ => cases hk; exact ⟨⟨2, [1, 3], [1, 3], false⟩, by simp [tetra], rfl, Or.inr rfl⟩
  · intro i j hi hj h
    simp only [List.length_cons, List.length_nil] at hi hj
    match i, j, hi, hj with
    | 0, 0, _, _ | 1, 1, _, _ | 2, 2, _, _ => rfl
    | 0, 1, _, _ | 0, 2, _, _ | 1, 0, _, _ | 1, 2, _, _ | 2, 0, _, _ | 2, 1, _, _ =>
      simp [walkOf] at h

example : ∃ r, surfOrderEdges sortTab tetra { index := 1, edgeind := [1, 2, 4], voluind := [1, 0] } =
    .ok (r, 0) ∧ IsLoop (EdgeJoins tetra) r ∧ r.Nodup ∧ ∀ e, e ∈ r ↔ e ∈ [1, 2, 4] :=
  C23_surface sortTab sortTab_isTable tetra tetra_sound tetra_twoVerts _ (by simp [tetra])
    ⟨[1, 4, 2], by decide +kernel, _, tetra_round⟩

/-- The edges 1, 2, 3 of vertex 1 are between surfaces 2 and 1, 1 and 3, 3 and 2. -/
example : ∃ r, vertOrderEdges sortTab tetra ⟨1, [1, 2, 3], [0, 0, 0], false⟩ = .ok (r, 0) ∧
    IsLoop (EdgeParts tetra) r ∧ r.Nodup ∧ ∀ e, e ∈ r ↔ e ∈ [1, 2, 3] := by
  refine C23_vertex sortTab sortTab_isTable tetra tetra_sound _ (by simp [tetra])
    ⟨[1, 2, 3], by decide, by decide +kernel, walkOf [2, 1, 3, 2], ?_, rfl, ?_⟩
  · intro k e hk
    have hlt : k < 3 := by simpa using lt_of_get hk
    match k, hlt with
    | 0, _ => cases hk; exact ⟨⟨1, [1, 2], [1, 2], false⟩, by simp [tetra], rfl, Or.inr rfl⟩
    | 1, _ => cases hk; exact ⟨⟨2, [1, 3], [1, 3], false⟩, by simp [tetra], rfl, Or.inl rfl⟩
    | 2, _ => cases hk; exact ⟨⟨3, [1, 4], [2, 3], false⟩, by simp [tetra], rfl, Or.inr rfl⟩
  · intro i j hi hj h
    simp only [List.length_cons, List.length_nil] at hi hj
    match i, j, hi, hj with
    | 0, 0, _, _ | 1, 1, _, _ | 2, 2, _, _ => rfl
    | 0, 1, _, _ | 0, 2, _, _ | 1, 0, _, _ | 1, 2, _, _ | 2, 0, _, _ | 2, 1, _, _ =>
      simp [walkOf] at h

/-- Two loops: edges 1, 2, 3 and 4, 5. -/
example : ∃ r f, orderListPtr (sortTab [1, 2, 2, 3, 3, 1, 4, 5, 5, 4]) [1, 2, 3, 4, 5] [1, 2, 3, 4, 5]
    [1, 2, 2, 3, 3, 1, 4, 5, 5, 4] true = .ok (r, f) ∧ r.length = 3 ∧ f = 1 := by
  obtain ⟨r, f, h, _⟩ := C23_several_loops 1 [2, 3, 4, 5] [1, 2, 2, 3, 3, 1, 4, 5, 5, 4]
    (sortTab _) (by decide) rfl (by unfold TwoRegular; decide +kernel) (sortTab_isTable _) true
  refine ⟨r, f, h, ?_⟩
  have : orderListPtr (sortTab [1, 2, 2, 3, 3, 1, 4, 5, 5, 4]) [1, 2, 3, 4, 5] [1, 2, 3, 4, 5]
    [1, 2, 2, 3, 3, 1, 4, 5, 5, 4] true = .ok ([1, 3, 2], 1) := by decide +kernel
  rw [this] at h
  cases h
  exact ⟨rfl, rfl⟩

/-- A branch: three edges at vertex 1. -/
example : orderListPtr (sortTab [1, 2, 1, 3, 1, 4]) [1, 2, 3] [1, 2, 3] [1, 2, 1, 3, 1, 4] true =
    .error .throws := by decide +kernel

/-! ### C24 -/

/-- C24: in a list of at least three different entries seen as a cycle, the sign is -1 when the
second entry comes directly after the first and 1 when it comes directly before it, the
wrap-around included. -/
theorem C24_direction (l : List Int) (hn : l.Nodup) (h3 : 3 ≤ l.length) (a b : Int) :
    (Follows l a b → orderMatch l a b = (-1, 2)) ∧ (Follows l b a → orderMatch l a b = (1, 2)) := by
  refine ⟨fun h => (orderMatch_follows hn h3 h).1, fun h => ?_⟩
  obtain ⟨h1, h2⟩ := orderMatch_follows hn h3 h
  have hm : b ∈ l ∧ a ∈ l := by
    obtain ⟨i, hi, hj⟩ := h
    exact ⟨List.mem_of_getElem? hi, List.mem_of_getElem? hj⟩
  rw [(orderMatch_swap hn h2 hm.1 hm.2).1, h1]
  rfl

/-- C24: the sign is 1 or -1 and changes when the entries are swapped and when the list is
reversed, for any two different entries. -/
theorem C24_antisymmetric (l : List Int) (hn : l.Nodup) (a b : Int) (hne : a ≠ b) (ha : a ∈ l)
    (hb : b ∈ l) :
    ((orderMatch l a b).1 = 1 ∨ (orderMatch l a b).1 = -1) ∧
    (orderMatch l b a).1 = -(orderMatch l a b).1 ∧
    (orderMatch l.reverse a b).1 = -(orderMatch l a b).1 := by
  obtain ⟨h1, _, h3⟩ := orderMatch_swap hn hne ha hb
  exact ⟨h3, by rw [h1], by rw [orderMatch_reverse hn hne ha hb]⟩

/-- C24: the two implementations agree on all lists; the comparison under `SAFE_ALGO` never
fails. -/
theorem C24_old_new (l1 l2 : List Int) (a b : Int) :
    orderMatch2 l1 l2 a b = orderMatch2Old l1 l2 a b := orderMatch2_eq l1 l2 a b

/-- C24: for two cycles in both of which the entries are neighbours, the result is 1 if they follow
each other in the same direction and -1 if not. -/
theorem C24_relative (l1 l2 : List Int) (h1 : l1.Nodup) (h2 : l2.Nodup) (hl1 : 3 ≤ l1.length)
    (hl2 : 3 ≤ l2.length) (a b : Int) :
    (Follows l1 a b → Follows l2 a b → orderMatch2 l1 l2 a b = .ok 1) ∧
    (Follows l1 b a → Follows l2 b a → orderMatch2 l1 l2 a b = .ok 1) ∧
    (Follows l1 a b → Follows l2 b a → orderMatch2 l1 l2 a b = .ok (-1)) ∧
    (Follows l1 b a → Follows l2 a b → orderMatch2 l1 l2 a b = .ok (-1)) := by
  have key : ∀ o1 o2, orderMatch l1 a b = (o1, 2) → orderMatch l2 a b = (o2, 2) →
      orderMatch2 l1 l2 a b = .ok (if o1 = o2 then 1 else -1) := by
    intro o1 o2 e1 e2
    have e1a := congrArg Prod.fst e1
    have e1b := congrArg Prod.snd e1
    have e2a := congrArg Prod.fst e2
    have e2b := congrArg Prod.snd e2
    rw [C24_old_new]
    unfold orderMatch2Old
    unfold orderMatch at e1a e1b e2a e2b
    simp only at e1a e1b e2a e2b
    rw [if_neg (by rw [e1b]; simp), if_neg (by rw [e2b]; simp), e1a, e2a]
  have d1 := C24_direction l1 h1 hl1 a b
  have d2 := C24_direction l2 h2 hl2 a b
  refine ⟨fun f g => key _ _ (d1.1 f) (d2.1 g), fun f g => key _ _ (d1.2 f) (d2.2 g),
    fun f g => key _ _ (d1.1 f) (d2.2 g), fun f g => key _ _ (d1.2 f) (d2.1 g)⟩

/-- C24: an error is raised exactly when in one of the lists the two entries do not make two
occurrences together. -/
theorem C24_error_iff (l1 l2 : List Int) (a b : Int) (hne : a ≠ b) :
    orderMatch2 l1 l2 a b = .error .throws ↔
      (l1.count a + l1.count b ≠ 2 ∨ l2.count a + l2.count b ≠ 2) := by
  rw [C24_old_new]
  unfold orderMatch2Old
  rw [matchLoop_eq hne, matchLoop_eq hne]
  simp only
  by_cases h1 : l1.count a + l1.count b ≠ 2
  · rw [if_pos h1]; simp [h1]
  · rw [if_neg h1]
    by_cases h2 : l2.count a + l2.count b ≠ 2
    · rw [if_pos h2]; simp [h2]
    · rw [if_neg h2]; simp at h1 h2; simp [h1, h2]

example : Follows [5, 2, 7, 9] 9 5 ∧ orderMatch [5, 2, 7, 9] 9 5 = (-1, 2) :=
  ⟨⟨3, rfl, rfl⟩, (C24_direction [5, 2, 7, 9] (by decide) (by decide) 9 5).1 ⟨3, rfl, rfl⟩⟩

example : orderMatch2 [5, 2, 7, 9] [2, 5, 8] 5 2 = .ok (-1) :=
  (C24_relative [5, 2, 7, 9] [2, 5, 8] (by decide) (by decide) (by decide) (by decide) 5 2).2.2.1
    ⟨0, rfl, rfl⟩ ⟨0, rfl, rfl⟩

/-- Entries which are not neighbours are not noticed. -/
example : orderMatch2 [5, 2, 7, 9] [2, 5, 8] 5 7 = .error .throws ∧
    orderMatch2 [5, 2, 7, 9] [2, 5, 7, 1] 5 7 = .ok (-1) := by decide +kernel

/-! ### C25 -/

/-- C25: `EdgeFromVerts` returns an edge which joins the two vertices, or -1, and -1 only if there
is none. -/
theorem C25_edge (m : Mesh) (hm : Sound m) (h2 : TwoVerts m) (v1 v2 : Int) (h1 : HasVert m v1)
    (hv2 : HasVert m v2) :
    ∃ r, edgeFromVerts m v1 v2 = .ok r ∧ (r = -1 ↔ ∀ e, ¬ EdgeJoins m e v1 v2) ∧
      (r ≠ -1 → EdgeJoins m r v1 v2) := by
  obtain ⟨r, r1, r2⟩ := edgeFromVerts_ok hm h2 h1 hv2
  refine ⟨r, r1, ?_, ?_⟩
  · rcases r2 with h | ⟨h, h'⟩
    · constructor
      · rintro rfl
        obtain ⟨x, x1, x2, _⟩ := h
        have := hm.pos.edges (-1) ⟨x, x1, x2⟩
        omega
      · intro h'; exact absurd h (h' r)
    · exact ⟨fun _ => h', fun _ => h⟩
  · intro hr
    rcases r2 with h | ⟨h, _⟩
    · exact h
    · exact absurd h hr

/-- C25: `SurfFromEdges` for two edges which are not on the outside: without a surface with both
it returns -1; with one it returns it; with several it returns one of them, -1 or an error
according to `repetitionBehaviour` 0, 1 or other.

Missing for the full claim: edges whose list of surfaces has the outside marker 0, for which the
claim is false (`C25_outside_violated`). -/
theorem C25_surface_partial (m : Mesh) (hm : Sound m) (hl : ∀ x ∈ m.edges, x.surfind.Nodup)
    (e1 e2 : Int) (he1 : HasEdge m e1) (he2 : HasEdge m e2) (h1 : ¬ EdgeSurf m e1 0)
    (h2 : ¬ EdgeSurf m e2 0) (rep : Int) :
    ((∀ s, ¬ BothEdges m e1 e2 s) ∧ surfFromEdges m e1 e2 rep = .ok (-1)) ∨
    (∃ s, BothEdges m e1 e2 s ∧ (∀ s', BothEdges m e1 e2 s' → s' = s) ∧
      surfFromEdges m e1 e2 rep = .ok s) ∨
    (∃ s s', s ≠ s' ∧ BothEdges m e1 e2 s ∧ BothEdges m e1 e2 s' ∧
      surfFromEdges m e1 e2 rep =
        if rep = 0 then .ok s else if rep = 1 then .ok (-1) else .error .throws) :=
  surfFromEdges_ok hm hl he1 he2 h1 h2 rep

/-- A triangle whose edges list the outside first, as they do after sorting. -/
def borderTriangle : Mesh where
  verts := [⟨1, [1, 3], [0, 0, 0], false⟩, ⟨2, [1, 2], [1, 0, 0], false⟩, ⟨3, [2, 3], [0, 1, 0], false⟩]
  edges := [⟨1, [1, 2], [0, 1], false⟩, ⟨2, [2, 3], [0, 1], false⟩, ⟨3, [3, 1], [0, 1], false⟩]
  surfs := [{ index := 1, edgeind := [1, 2, 3], voluind := [] }]
  volus := []
  meshDim := 2

theorem borderTriangle_sound : Sound borderTriangle := sound_of_checked (by decide +kernel)

/-- C25 fails on the border: the search looks up surface 0 and fails. -/
theorem C25_outside_violated :
    ¬ ∀ (m : Mesh), Sound m → (∀ x ∈ m.edges, x.surfind.Nodup) → ∀ e1 e2, HasEdge m e1 → HasEdge m e2 →
      ∀ s, BothEdges m e1 e2 s → (∀ s', BothEdges m e1 e2 s' → s' = s) →
      ∀ rep, surfFromEdges m e1 e2 rep = .ok s := by
  intro H
  have := H borderTriangle borderTriangle_sound (by decide +kernel) 1 2
    (by unfold HasEdge; decide +kernel) (by unfold HasEdge; decide +kernel) 1
    ⟨⟨_, List.mem_singleton.mpr rfl, rfl, by decide⟩, ⟨_, List.mem_singleton.mpr rfl, rfl, by decide⟩⟩
    (by
      rintro s' ⟨⟨x, hx, hxi, _⟩, _⟩
      rw [List.mem_singleton.mp hx] at hxi
      exact hxi.symm) 0
  have h2 : surfFromEdges borderTriangle 1 2 0 = .error .throws := by decide +kernel
  rw [h2] at this
  cases this

example : ∃ r, edgeFromVerts tetra 3 2 = .ok r ∧ (r = -1 ↔ ∀ e, ¬ EdgeJoins tetra e 3 2) ∧
    (r ≠ -1 → EdgeJoins tetra r 3 2) :=
  C25_edge tetra tetra_sound tetra_twoVerts 3 2 (by unfold HasVert; decide +kernel)
    (by unfold HasVert; decide +kernel)

example : edgeFromVerts tetra 3 2 = .ok 4 ∧ edgeFromVerts twoEdges 1 3 = .ok (-1) ∧
    surfFromEdges tetra 4 5 (-1) = .ok 4 ∧ surfFromEdges tetra 1 6 (-1) = .ok (-1) ∧
    surfFromEdges tetra 1 1 (-1) = .error .throws ∧ surfFromEdges tetra 1 1 0 = .ok 1 ∧
    surfFromEdges tetra 1 1 1 = .ok (-1) := by decide +kernel

example : HasEdge tetra 4 ∧ ¬ EdgeSurf tetra 4 0 ∧ ¬ EdgeSurf tetra 5 0 ∧
    ∀ x ∈ tetra.edges, x.surfind.Nodup := by
  unfold HasEdge EdgeSurf; decide +kernel

/-! ### C63 -/

/-- C63: for edges in the order of a loop of at least three edges, `OrderedVerts` gives the vertices
in the order of the loop: entry `k` is the vertex between edges `k - 1` and `k`.

Missing for the full claim: loops of two edges, for which it is false
(`C63_two_edges_violated`). -/
theorem C63_orderedVerts_partial (m : Mesh) (hm : Sound m) (es : List Int) (w : Nat → Int)
    (h3 : 3 ≤ es.length) (h : GoesRound (EdgeJoins m) es w) :
    orderedVerts m es = .ok ((List.range es.length).map w) :=
  orderedVerts_ok hm.unique.edges h3 h

/-- Two edges between the same vertices, in the same direction. -/
def digonSame : Mesh where
  verts := [⟨1, [1, 2], [0, 0, 0], false⟩, ⟨2, [1, 2], [1, 0, 0], false⟩]
  edges := [⟨1, [1, 2], [1], false⟩, ⟨2, [1, 2], [1], false⟩]
  surfs := [{ index := 1, edgeind := [1, 2], voluind := [] }]
  volus := []
  meshDim := 2

theorem digonSame_sound : Sound digonSame := sound_of_checked (by decide +kernel)

theorem digonSame_round : GoesRound (EdgeJoins digonSame) [1, 2] (walkOf [1, 2, 1]) := by
  refine ⟨?_, rfl, ?_⟩
  · intro k e hk
    have hlt : k < 2 := by simpa using lt_of_get hk
    match k, hlt with
    | 0, _ => cases hk; exact ⟨⟨1, [1, 2], [1], false⟩, by simp [digonSame], rfl, Or.inl rfl⟩
    | 1, _ => cases hk; exact ⟨⟨2, [1, 2], [1], false⟩, by simp [digonSame], rfl, Or.inr rfl⟩
  · intro i j hi hj h
    simp only [List.length_cons, List.length_nil] at hi hj
    match i, j, hi, hj with
    | 0, 0, _, _ | 1, 1, _, _ => rfl
    | 0, 1, _, _ | 1, 0, _, _ => simp [walkOf] at h

/-- Two edges between the same vertices, in opposite directions. -/
def digon : Mesh where
  verts := [⟨1, [1, 2], [0, 0, 0], false⟩, ⟨2, [1, 2], [1, 0, 0], false⟩]
  edges := [⟨1, [1, 2], [1], false⟩, ⟨2, [2, 1], [1], false⟩]
  surfs := [{ index := 1, edgeind := [1, 2], voluind := [] }]
  volus := []
  meshDim := 2

theorem digon_sound : Sound digon := sound_of_checked (by decide +kernel)

theorem digon_round : GoesRound (EdgeJoins digon) [1, 2] (walkOf [1, 2, 1]) := by
  refine ⟨?_, rfl, ?_⟩
  · intro k e hk
    have hlt : k < 2 := by simpa using lt_of_get hk
    match k, hlt with
    | 0, _ => cases hk; exact ⟨⟨1, [1, 2], [1], false⟩, by simp [digon], rfl, Or.inl rfl⟩
    | 1, _ => cases hk; exact ⟨⟨2, [2, 1], [1], false⟩, by simp [digon], rfl, Or.inl rfl⟩
  · intro i j hi hj h
    simp only [List.length_cons, List.length_nil] at hi hj
    match i, j, hi, hj with
    | 0, 0, _, _ | 1, 1, _, _ => rfl
    | 0, 1, _, _ | 1, 0, _, _ => simp [walkOf] at h

/-- C63 fails for a loop of two edges: one vertex is missing from the list. -/
theorem C63_two_edges_violated :
    ¬ ∀ (m : Mesh), Sound m → ∀ es w, GoesRound (EdgeJoins m) es w →
      ∃ vs, orderedVerts m es = .ok vs ∧ ∀ k, k < es.length → w k ∈ vs := by
  intro H
  obtain ⟨vs, h1, h2⟩ := H digonSame digonSame_sound [1, 2] _ digonSame_round
  have h3 : orderedVerts digonSame [1, 2] = .ok [1, 1] := by decide +kernel
  rw [h3] at h1
  cases h1
  have := h2 1 (by simp)
  simp [walkOf] at this

/-- C63: an empty list is undefined behaviour. -/
theorem C63_empty (m : Mesh) : orderedVerts m [] = .error .ub := rfl

example : orderedVerts tetra [1, 4, 2] = .ok [1, 2, 3] :=
  C63_orderedVerts_partial tetra tetra_sound [1, 4, 2] _ (by decide) tetra_round

/-! ### C64 -/

/-- C64: for edges in the order of a loop of at least three edges, `ConnVertFromConnEdge` gives for
each edge its vertex towards the next edge.

Missing for the full claim: loops of two edges, for which it is false
(`C64_two_edges_violated`). -/
theorem C64_connVert_partial (m : Mesh) (hm : Sound m) (es : List Int) (w : Nat → Int)
    (h3 : 3 ≤ es.length) (h : GoesRound (EdgeJoins m) es w) :
    connVert m es = .ok ((List.range es.length).map (fun k => w (k + 1))) :=
  connVert_ok hm.unique.edges h3 h

/-- C64 fails for a loop of two edges: one vertex is missing from the list. -/
theorem C64_two_edges_violated :
    ¬ ∀ (m : Mesh), Sound m → ∀ es w, GoesRound (EdgeJoins m) es w →
      ∃ vs, connVert m es = .ok vs ∧ ∀ k, k < es.length → w (k + 1) ∈ vs := by
  intro H
  obtain ⟨vs, h1, h2⟩ := H digon digon_sound [1, 2] _ digon_round
  have h3 : connVert digon [1, 2] = .ok [1, 1] := by decide +kernel
  rw [h3] at h1
  cases h1
  have := h2 0 (by simp)
  simp [walkOf] at this

/-- C64: a list with less than two edges is undefined behaviour. -/
theorem C64_short (m : Mesh) (es : List Int) (h : es.length < 2) : connVert m es = .error .ub := by
  match es, h with
  | [], _ => rfl
  | [e], _ => rfl

example : connVert tetra [1, 4, 2] = .ok [2, 3, 1] :=
  C64_connVert_partial tetra tetra_sound [1, 4, 2] _ (by decide) tetra_round

end RSVS.Props
