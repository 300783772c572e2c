import Verif.Lemmas.SameSurfTop
import Verif.Props.MergeEdge

/-!
# C111: edges of the snake in one surface of the parent and on one surface of the snake are joined
-/

namespace RSVS.Props

open RSVS RSVS.Spec RSVS.Mesh RSVS.MergeEdge RSVS.SameSurf

theorem shareAt_iff {m : Mesh} {cells : List (Int × Int)} {sibs : Int → List Nat} {live : List Int} {find : List Int → Int → List Nat}
    (S : Setting m cells sibs live find) {c : Int} {i : Nat} {s : Int} (hi : i ∈ sibs c) :
    SharesSurf m (cells.filter fun x => x.1 ∈ live) (eid m i) s ↔ s ∈ surfAt m i ∧ ShareAt m (sibs c) i s := by
  constructor
  · rintro ⟨f, c', hne, h1, h2, h3, h4⟩
    obtain ⟨i', hi', e1⟩ := S.mem_cells.mp h1
    obtain ⟨j, hj, rfl⟩ := S.mem_cells.mp h2
    have := S.eid_inj (S.sib_lt hi') (S.sib_lt hi) e1
    subst this
    have := S.sib_cell hi' hi
    subst this
    exact ⟨(edgeSurf S (S.sib_lt hi)).mp h3, j, hj, by rintro rfl; exact hne rfl, (edgeSurf S (S.sib_lt hj)).mp h4⟩
  · rintro ⟨h1, j, hj, hne, h2⟩
    exact ⟨eid m j, c, fun e => hne (S.eid_inj (S.sib_lt hj) (S.sib_lt hi) e), S.mem_cells.mpr ⟨i, hi, rfl⟩, S.mem_cells.mpr ⟨j, hj, rfl⟩,
      (edgeSurf S (S.sib_lt hi)).mpr h1, (edgeSurf S (S.sib_lt hj)).mpr h2⟩

/-- **C111** `IdentifyMergEdgeSameSurfConnec`: each edit is about one whole chain of the edges in one
surface of the parent and on one surface of the snake, as in `C110_join_partial`, and no edge is in two
edits.  When no edge shares two surfaces with other edges of its parent surface, every chain gets its
edit.

Partial: every edge which is not alone in its parent surface is asked to share a surface of the snake
with another one there, see `C111_end` and `C111_end_violated`; that each edge shares only one is needed
for the last part, see `C111_second_violated`. -/
theorem C111_join_partial (m : Mesh) (cells : List (Int × Int)) (sibs : Int → List Nat) (live : List Int)
    (find : List Int → Int → List Nat)
    (hu : (m.edges.map Edge.index).Nodup) (hc : cells.map Prod.fst = m.edges.map Edge.index)
    (hs : ∀ c, (sibs c).Nodup ∧ ∀ p : Nat, p ∈ sibs c ↔ ∃ x, cells[p]? = some x ∧ x.2 = c ∧ x.1 ∈ live)
    (h2 : ∀ x ∈ m.edges, x.index ∈ live → ∃ a b, x.vertind = [a, b] ∧ a ≠ b)
    (hf : ∀ l k, AllPos (fun e => e) l k (find l k))
    (ht : AtMostTwo m (cells.filter fun x => x.1 ∈ live))
    (hn : ∀ x ∈ m.edges, x.surfind.Nodup)
    (hsh : ∀ e f c, e ≠ f → (e, c) ∈ cells.filter (fun x => x.1 ∈ live) → (f, c) ∈ cells.filter (fun x => x.1 ∈ live) →
      ∃ s, SharesSurf m (cells.filter fun x => x.1 ∈ live) e s) :
    ∃ E, mergSameSurf true m cells sibs find = .ok E ∧
      (∀ d ∈ E, ∃ c s, JoinsChain m (onSurf m (cells.filter fun x => x.1 ∈ live) c s) d) ∧ ApartEdits E ∧
      ((∀ e s s', SharesSurf m (cells.filter fun x => x.1 ∈ live) e s → SharesSurf m (cells.filter fun x => x.1 ∈ live) e s' → s = s') →
        ∀ c s, AllJoined m (onSurf m (cells.filter fun x => x.1 ∈ live) c s) E) := by
  have S : Setting m cells sibs live find := ⟨hu, hc, hs, h2, hf, ht⟩
  refine same_joins S hn ?_ ?_
  · rintro c i hi ⟨j, hj, hne⟩
    obtain ⟨s, h⟩ := hsh (eid m i) (eid m j) c (fun e => hne (S.eid_inj (S.sib_lt hj) (S.sib_lt hi) e.symm)) (S.mem_cells.mpr ⟨i, hi, rfl⟩)
      (S.mem_cells.mpr ⟨j, hj, rfl⟩)
    exact ⟨s, (shareAt_iff S hi).mp h⟩
  · intro ho c i s s' hi h1 h2 h3 h4
    exact ho _ s s' ((shareAt_iff S hi).mpr ⟨h1, h3⟩) ((shareAt_iff S hi).mpr ⟨h2, h4⟩)

/-- `IndentifyEdgeSameSurf` finds the first surface which the edge shares with another edge of its parent
surface, and all the edges there which are on it, each once. -/
theorem C111_find (m : Mesh) (cells : List (Int × Int)) (sibs : Int → List Nat) (live : List Int)
    (find : List Int → Int → List Nat)
    (hu : (m.edges.map Edge.index).Nodup) (hc : cells.map Prod.fst = m.edges.map Edge.index)
    (hs : ∀ c, (sibs c).Nodup ∧ ∀ p : Nat, p ∈ sibs c ↔ ∃ x, cells[p]? = some x ∧ x.2 = c ∧ x.1 ∈ live)
    (h2 : ∀ x ∈ m.edges, x.index ∈ live → ∃ a b, x.vertind = [a, b] ∧ a ≠ b)
    (hf : ∀ l k, AllPos (fun e => e) l k (find l k))
    (ht : AtMostTwo m (cells.filter fun x => x.1 ∈ live))
    (hn : ∀ x ∈ m.edges, x.surfind.Nodup) (prev : List Nat)
    (x : Edge) (i : Nat) (c : Int) (hx : m.edges[i]? = some x) (hi : i ∈ sibs c)
    (hsh : ∃ s, SharesSurf m (cells.filter fun x => x.1 ∈ live) x.index s) :
    ∃ (k : Nat) (s : Int) (l : List Nat), sameSurf m cells sibs find prev i = .ok (k, l) ∧ x.surfind[k]? = some s ∧
      SharesSurf m (cells.filter fun x => x.1 ∈ live) x.index s ∧
      (∀ (j : Nat) (t : Int), j < k → x.surfind[j]? = some t → ¬ SharesSurf m (cells.filter fun x => x.1 ∈ live) x.index t) ∧
      l.Nodup ∧ ∀ j : Nat, j ∈ l ↔ j ∈ sibs c ∧ ∃ y, m.edges[j]? = some y ∧ s ∈ y.surfind := by
  have S : Setting m cells sibs live find := ⟨hu, hc, hs, h2, hf, ht⟩
  have h1 : eid m i = x.index := by unfold eid; rw [hx]; rfl
  have h3 : surfAt m i = x.surfind := by unfold surfAt; rw [hx]; rfl
  rw [← h1] at hsh ⊢
  obtain ⟨s0, h0⟩ := hsh
  obtain ⟨k, s, l, g1, g2, g3, g4, g5, g6⟩ := sameSurf_ok S hn hi ⟨s0, (shareAt_iff S hi).mp h0⟩ prev
  refine ⟨k, s, l, g1, by rw [← h3]; exact g2, (shareAt_iff S hi).mpr ⟨List.mem_of_getElem? g2, g3⟩, ?_, g5, ?_⟩
  · intro j t hj htt h
    exact g4 j t hj (by rw [h3]; exact htt) ((shareAt_iff S hi).mp h).2
  · intro j
    rw [g6 j]
    refine and_congr_right fun hj => ?_
    have hjl := S.sib_lt hj
    rw [surfAt_of hjl]
    constructor
    · intro h; exact ⟨_, List.getElem?_eq_getElem hjl, h⟩
    · rintro ⟨y, hy, h⟩
      rw [List.getElem?_eq_getElem hjl] at hy
      rw [Option.some.inj hy]
      exact h

/-- When the edge shares no surface with another edge of its parent surface, the counts are read past
their end. -/
theorem C111_end (m : Mesh) (cells : List (Int × Int)) (sibs : Int → List Nat) (live : List Int)
    (find : List Int → Int → List Nat)
    (hu : (m.edges.map Edge.index).Nodup) (hc : cells.map Prod.fst = m.edges.map Edge.index)
    (hs : ∀ c, (sibs c).Nodup ∧ ∀ p : Nat, p ∈ sibs c ↔ ∃ x, cells[p]? = some x ∧ x.2 = c ∧ x.1 ∈ live)
    (h2 : ∀ x ∈ m.edges, x.index ∈ live → ∃ a b, x.vertind = [a, b] ∧ a ≠ b)
    (hf : ∀ l k, AllPos (fun e => e) l k (find l k))
    (ht : AtMostTwo m (cells.filter fun x => x.1 ∈ live))
    (hn : ∀ x ∈ m.edges, x.surfind.Nodup) (prev : List Nat)
    (x : Edge) (i : Nat) (c : Int) (hx : m.edges[i]? = some x) (hi : i ∈ sibs c)
    (hsh : ∀ s, ¬ SharesSurf m (cells.filter fun x => x.1 ∈ live) x.index s) :
    sameSurf m cells sibs find prev i = .error .ub := by
  have S : Setting m cells sibs live find := ⟨hu, hc, hs, h2, hf, ht⟩
  have h1 : eid m i = x.index := by unfold eid; rw [hx]; rfl
  refine sameSurf_ub S hn hi ?_ prev
  intro s hs h
  exact hsh s (by rw [← h1]; exact (shareAt_iff S hi).mpr ⟨hs, h⟩)

/-- A mesh of edges with their surfaces. -/
def edgesOn (l : List (Int × Int × Int × List Int)) : Mesh :=
  ⟨[], l.map fun x => ⟨x.1, [x.2.1, x.2.2.1], x.2.2.2, false⟩, [], [], 3⟩

/-- Two edges in one surface of the parent with no surface of the snake in common. -/
def noShared : Mesh := edgesOn [(1, 1, 2, [10, 11]), (2, 3, 4, [12, 13])]

/-- **C111 violated**: two edges far from each other in one surface of the parent are enough for a read
past the end of the counts. -/
theorem C111_end_violated :
    ∃ (m : Mesh) (cells : List (Int × Int)),
      (m.edges.map Edge.index).Nodup ∧ cells.map Prod.fst = m.edges.map Edge.index ∧
      (∀ x ∈ m.edges, ∃ a b, x.vertind = [a, b] ∧ a ≠ b) ∧ AtMostTwo m cells ∧ (∀ x ∈ m.edges, x.surfind.Nodup) ∧
      mergSameSurf true m cells (siblingsIn cells) lastFirst = .error .ub := by
  refine ⟨noShared, [(1, 1), (2, 1)], by decide +kernel, by decide +kernel, ?_, ?_, by decide +kernel, by decide +kernel⟩
  · intro x hx
    have : ∀ x ∈ noShared.edges, x.vertind = [x.vertind.headD 0, x.vertind.getLastD 0] ∧ x.vertind.headD 0 ≠ x.vertind.getLastD 0 := by
      decide +kernel
    exact ⟨_, _, this x hx⟩
  · rintro v e f g ⟨_, _, _, ⟨x, hx, rfl, h3⟩, ⟨y, hy, rfl, h4⟩⟩ ⟨_, _, _, _, ⟨z, hz, rfl, h6⟩⟩
    have : ∀ x ∈ noShared.edges, ∀ y ∈ noShared.edges, ∀ z ∈ noShared.edges, ∀ v ∈ x.vertind, v ∈ y.vertind → v ∈ z.vertind →
        x.index = y.index ∨ x.index = z.index ∨ y.index = z.index := by
      decide +kernel
    exact this x hx y hy z hz v h3 h4 h6

/-- Edge 1 shares surface 10 with edge 2 and surface 20 with edge 3, which follows it. -/
def twoShared : Mesh := edgesOn [(1, 1, 2, [10, 20]), (2, 3, 4, [10, 30]), (3, 2, 5, [20, 40])]

/-- The surfaces of `twoShared`. -/
def twoSharedCells : List (Int × Int) := [(1, 1), (2, 1), (3, 1)]

theorem twoShared_two : AtMostTwo twoShared twoSharedCells := by
  rintro v e f g ⟨_, _, _, ⟨x, hx, rfl, h3⟩, ⟨y, hy, rfl, h4⟩⟩ ⟨_, _, _, _, ⟨z, hz, rfl, h6⟩⟩
  have : ∀ x ∈ twoShared.edges, ∀ y ∈ twoShared.edges, ∀ z ∈ twoShared.edges, ∀ v ∈ x.vertind, v ∈ y.vertind → v ∈ z.vertind →
      x.index = y.index ∨ x.index = z.index ∨ y.index = z.index := by
    decide +kernel
  exact this x hx y hy z hz v h3 h4 h6

/-- **C111 violated**: only the first shared surface of an edge is looked at, so the chain of edges 1 and
3 on surface 20 gets no edit. -/
theorem C111_second_violated :
    ∃ (m : Mesh) (cells : List (Int × Int)) (c s : Int),
      (m.edges.map Edge.index).Nodup ∧ cells.map Prod.fst = m.edges.map Edge.index ∧ AtMostTwo m cells ∧ (∀ x ∈ m.edges, x.surfind.Nodup) ∧
      mergSameSurf true m cells (siblingsIn cells) lastFirst = .ok [] ∧ ¬ AllJoined m (onSurf m cells c s) [] := by
  refine ⟨twoShared, twoSharedCells, 1, 20, by decide +kernel, by decide +kernel, twoShared_two, by decide +kernel, by decide +kernel, ?_⟩
  intro h
  obtain ⟨d, hd, _⟩ := h 1 3 (by decide) (Relation.ReflTransGen.single ⟨2, 20, by decide +kernel, by decide +kernel,
    ⟨⟨1, [1, 2], [10, 20], false⟩, by decide +kernel, rfl, by simp⟩, ⟨⟨3, [2, 5], [20, 40], false⟩, by decide +kernel, rfl, by simp⟩⟩)
  simp at hd

/-- A chain of three edges on surface 10 and two edges apart on surface 20. -/
def chainOn : Mesh := edgesOn [(1, 1, 2, [10]), (2, 6, 7, [20, 30]), (3, 3, 2, [10, 40]), (4, 8, 9, [20]), (5, 3, 5, [10, 50])]

/-- The surfaces of `chainOn`. -/
def chainOnCells : List (Int × Int) := [(1, 1), (2, 1), (3, 1), (4, 1), (5, 1)]

theorem chainOn_two : AtMostTwo chainOn chainOnCells := by
  rintro v e f g ⟨_, _, _, ⟨x, hx, rfl, h3⟩, ⟨y, hy, rfl, h4⟩⟩ ⟨_, _, _, _, ⟨z, hz, rfl, h6⟩⟩
  have : ∀ x ∈ chainOn.edges, ∀ y ∈ chainOn.edges, ∀ z ∈ chainOn.edges, ∀ v ∈ x.vertind, v ∈ y.vertind → v ∈ z.vertind →
      x.index = y.index ∨ x.index = z.index ∨ y.index = z.index := by
    decide +kernel
  exact this x hx y hy z hz v h3 h4 h6

example : mergSameSurf true chainOn chainOnCells (liveSiblings [1, 2, 3, 4, 5] chainOnCells) lastFirst =
    .ok [⟨5, [3, 1], 1, [3, 2], [5, 3, 1]⟩] := by
  decide +kernel

theorem chainOn_shares : ∀ e f c, e ≠ f → (e, c) ∈ chainOnCells.filter (fun x => x.1 ∈ [1, 2, 3, 4, 5]) →
    (f, c) ∈ chainOnCells.filter (fun x => x.1 ∈ [1, 2, 3, 4, 5]) → ∃ s, SharesSurf chainOn (chainOnCells.filter fun x => x.1 ∈ [1, 2, 3, 4, 5]) e s := by
  intro e f c _ h _
  have key : ∀ x ∈ chainOnCells, x.2 = 1 ∧ ∃ y ∈ chainOn.edges, ∃ z ∈ chainOn.edges, y.index = x.1 ∧ z.index ≠ x.1 ∧ ∃ s ∈ y.surfind, s ∈ z.surfind := by
    decide +kernel
  have hall : ∀ x ∈ chainOn.edges, (x.index, (1 : Int)) ∈ chainOnCells.filter (fun x => x.1 ∈ [1, 2, 3, 4, 5]) := by decide +kernel
  obtain ⟨h1, y, hy, z, hz, h2, h3, s, h4, h5⟩ := key (e, c) (List.mem_filter.mp h).1
  have h1' : c = 1 := h1
  subst h1'
  have h2' : y.index = e := h2
  subst h2'
  exact ⟨s, z.index, 1, h3, hall y hy, hall z hz, ⟨y, hy, rfl, h4⟩, ⟨z, hz, rfl, h5⟩⟩

example : ∃ E, mergSameSurf true chainOn chainOnCells (liveSiblings [1, 2, 3, 4, 5] chainOnCells) lastFirst = .ok E ∧ ApartEdits E :=
  let ⟨E, h1, _, h3, _⟩ := C111_join_partial chainOn chainOnCells _ [1, 2, 3, 4, 5] lastFirst (by decide +kernel) (by decide +kernel)
    (liveSiblings_all _ _)
    (by
      intro x hx _
      have : ∀ x ∈ chainOn.edges, x.vertind = [x.vertind.headD 0, x.vertind.getLastD 0] ∧ x.vertind.headD 0 ≠ x.vertind.getLastD 0 := by
        decide +kernel
      exact ⟨_, _, this x hx⟩)
    lastFirst_all (by rw [show chainOnCells.filter (fun x => x.1 ∈ [1, 2, 3, 4, 5]) = chainOnCells by decide +kernel]; exact chainOn_two)
    (by decide +kernel) chainOn_shares
  ⟨E, h1, h3⟩

end RSVS.Props
