import Verif.Lemmas.MergeChains
import Verif.Props.MergeSurf

/-!
# C110: edges of the snake in one surface of the parent which follow each other are joined
-/

namespace RSVS.Props

open RSVS RSVS.Spec RSVS.Mesh RSVS.MergeEdge

/-- **C110** `IdentifyMergEdgeConnec`: when at most two edges of the snake in one surface of the parent
meet at a vertex, every chain of such edges gets an edit, and every edit is about one whole chain: one
edge is kept, all others of the chain are removed, each once, and so is each vertex inside the chain, each
once; the end at which the walk stops is kept.  In a loop the kept edge and the kept vertex are removed
as well.  `live` are the edges which are still in the table of parents; the others are left alone.  The
walks end, nothing is read out of range, and all this holds for any order in which the hash tables give
their entries.

Partial: that no chain has two edits needs more, see `C110_once_partial` and `C110_once_violated`, and
so does the vertex with three edges, see `C110_three_violated`. -/
theorem C110_join_partial (m : Mesh) (cells : List (Int × Int)) (sibs : Int → List Nat) (live : List Int)
    (find : List Int → Int → List Nat)
    (hu : (m.edges.map Edge.index).Nodup) (hc : cells.map Prod.fst = m.edges.map Edge.index)
    (hs : ∀ c, (sibs c).Nodup ∧ ∀ p : Nat, p ∈ sibs c ↔ ∃ x, cells[p]? = some x ∧ x.2 = c ∧ x.1 ∈ live)
    (h2 : ∀ x ∈ m.edges, x.index ∈ live → ∃ a b, x.vertind = [a, b] ∧ a ≠ b)
    (hf : ∀ l k, AllPos (fun e => e) l k (find l k))
    (ht : AtMostTwo m (cells.filter fun x => x.1 ∈ live)) :
    ∃ E, identifyMergEdge m cells sibs find = .ok E ∧
      (∀ d ∈ E, JoinsChain m (cells.filter fun x => x.1 ∈ live) d) ∧ AllJoined m (cells.filter fun x => x.1 ∈ live) E := by
  obtain ⟨E, h3, h4, h5, _⟩ := joins ⟨hu, hc, hs, h2, hf, ht⟩
  exact ⟨E, h3, h4, h5⟩

/-- When every edge is in the table of parents no chain has two edits. -/
theorem C110_once_partial (m : Mesh) (cells : List (Int × Int)) (sibs : Int → List Nat) (find : List Int → Int → List Nat)
    (hu : (m.edges.map Edge.index).Nodup) (hc : cells.map Prod.fst = m.edges.map Edge.index)
    (hs : ∀ c, AllPos Prod.snd cells c (sibs c))
    (h2 : ∀ x ∈ m.edges, ∃ a b, x.vertind = [a, b] ∧ a ≠ b)
    (hf : ∀ l k, AllPos (fun e => e) l k (find l k))
    (ht : AtMostTwo m cells) :
    ∃ E, identifyMergEdge m cells sibs find = .ok E ∧
      (∀ d ∈ E, JoinsChain m cells d) ∧ AllJoined m cells E ∧ JoinedOnce m cells E := by
  have hall : ∀ x ∈ cells, x.1 ∈ cells.map Prod.fst := fun x hx => List.mem_map_of_mem hx
  have hfil : (cells.filter fun x => x.1 ∈ cells.map Prod.fst) = cells := by
    rw [List.filter_eq_self]
    intro x hx
    simpa using hall x hx
  have S : Setting m cells sibs (cells.map Prod.fst) find := by
    refine ⟨hu, hc, fun c => ⟨(hs c).1, fun p => ?_⟩, fun x hx _ => h2 x hx, hf, by rw [hfil]; exact ht⟩
    rw [(hs c).2 p]
    constructor
    · rintro ⟨x, h1, h3⟩; exact ⟨x, h1, h3, hall x (List.mem_of_getElem? h1)⟩
    · rintro ⟨x, h1, h3, _⟩; exact ⟨x, h1, h3⟩
  obtain ⟨E, h3, h4, h5, h6⟩ := joins S
  rw [hfil] at h4 h5 h6
  exact ⟨E, h3, h4, h5, h6 hall⟩

/-- The siblings which are still in the table of parents. -/
def liveSiblings (live : List Int) (cells : List (Int × Int)) (c : Int) : List Nat :=
  (List.range cells.length).filter fun p => (cells[p]?).elim false fun x => decide (x.2 = c ∧ x.1 ∈ live)

theorem liveSiblings_all (live : List Int) (cells : List (Int × Int)) (c : Int) :
    (liveSiblings live cells c).Nodup ∧
      ∀ p : Nat, p ∈ liveSiblings live cells c ↔ ∃ x, cells[p]? = some x ∧ x.2 = c ∧ x.1 ∈ live := by
  refine ⟨List.nodup_range.filter _, fun p => ?_⟩
  rw [liveSiblings, List.mem_filter, List.mem_range]
  constructor
  · rintro ⟨h, h1⟩
    rw [List.getElem?_eq_getElem h] at h1
    exact ⟨_, List.getElem?_eq_getElem h, by simpa using h1⟩
  · rintro ⟨x, h1, h2⟩
    refine ⟨(List.getElem?_eq_some_iff.mp h1).1, ?_⟩
    rw [h1]
    simpa using h2

/-- A mesh of edges only. -/
def onlyEdges (l : List (Int × Int × Int)) : Mesh :=
  ⟨[], l.map fun x => ⟨x.1, [x.2.1, x.2.2], [], false⟩, [], [], 3⟩

/-- A path of three edges and a triangle in one surface, and an edge in another. -/
def pathLoop : Mesh := onlyEdges [(1, 1, 2), (2, 3, 2), (3, 3, 4), (4, 5, 6), (5, 6, 7), (6, 5, 7), (7, 4, 8)]

/-- The surfaces of `pathLoop`. -/
def pathCells : List (Int × Int) := [(1, 1), (2, 1), (3, 1), (4, 1), (5, 1), (6, 1), (7, 2)]

theorem pathLoop_two : AtMostTwo pathLoop pathCells := by
  have key : ∀ v e f : Int, EdgesMeetAt pathLoop pathCells v e f →
      (e, f, v) ∈ (pathLoop.edges.flatMap fun x => pathLoop.edges.flatMap fun y => x.vertind.filterMap fun v =>
        if v ∈ y.vertind ∧ (x.index = 7 ↔ y.index = 7) then some (x.index, y.index, v) else none) := by
    rintro v e f ⟨c, h1, h2, ⟨x, hx, rfl, h3⟩, ⟨y, hy, rfl, h4⟩⟩
    simp only [List.mem_flatMap, List.mem_filterMap]
    refine ⟨x, hx, y, hy, v, h3, ?_⟩
    rw [if_pos]
    refine ⟨h4, ?_⟩
    simp [pathCells] at h1 h2
    omega
  have fin : ∀ a ∈ (pathLoop.edges.flatMap fun x => pathLoop.edges.flatMap fun y => x.vertind.filterMap fun v =>
        if v ∈ y.vertind ∧ (x.index = 7 ↔ y.index = 7) then some (x.index, y.index, v) else none),
      ∀ b ∈ (pathLoop.edges.flatMap fun x => pathLoop.edges.flatMap fun y => x.vertind.filterMap fun v =>
        if v ∈ y.vertind ∧ (x.index = 7 ↔ y.index = 7) then some (x.index, y.index, v) else none),
      a.1 = b.1 → a.2.2 = b.2.2 → a.1 = a.2.1 ∨ a.1 = b.2.1 ∨ a.2.1 = b.2.1 := by
    decide +kernel
  intro v e f g h1 h2
  exact fin _ (key v e f h1) _ (key v e g h2) rfl rfl

/-- The path keeps its first edge and its last vertex; the triangle loses all three edges and vertices. -/
example : identifyMergEdge pathLoop pathCells (siblingsIn pathCells) lastFirst =
    .ok [⟨1, [2, 3], 4, [2, 3], [1, 2, 3, 4, 5, 6]⟩, ⟨4, [5, 6, 4], 6, [6, 7, 5], [1, 2, 3, 4, 5, 6]⟩] := by
  decide +kernel

example : ∃ E, identifyMergEdge pathLoop pathCells (siblingsIn pathCells) lastFirst = .ok E ∧
    (∀ d ∈ E, JoinsChain pathLoop pathCells d) ∧ AllJoined pathLoop pathCells E ∧ JoinedOnce pathLoop pathCells E :=
  C110_once_partial _ _ _ _ (by decide +kernel) (by decide +kernel) (siblingsIn_all _)
    (by
      intro x hx
      have : ∀ x ∈ pathLoop.edges, x.vertind = [x.vertind.headD 0, x.vertind.getLastD 0] ∧ x.vertind.headD 0 ≠ x.vertind.getLastD 0 := by
        decide +kernel
      exact ⟨_, _, this x hx⟩)
    lastFirst_all pathLoop_two

/-- A chain of two edges and a third edge of the same surface which is out of the table of parents. -/
def thirdOut : Mesh := onlyEdges [(1, 1, 2), (2, 2, 3), (3, 5, 6)]

/-- The surfaces of `thirdOut`. -/
def thirdCells : List (Int × Int) := [(1, 1), (2, 1), (3, 1)]

/-- **C110 violated**: an edge which was taken out of the table of parents still starts a search among
the edges of its surface, so the chain there gets the same edit again, although everything else is as
`C110_join_partial` asks. -/
theorem C110_once_violated :
    ∃ (m : Mesh) (cells : List (Int × Int)) (sibs : Int → List Nat) (live : List Int) (find : List Int → Int → List Nat) (d : PathEdit),
      (m.edges.map Edge.index).Nodup ∧ cells.map Prod.fst = m.edges.map Edge.index ∧
      (∀ c, (sibs c).Nodup ∧ ∀ p : Nat, p ∈ sibs c ↔ ∃ x, cells[p]? = some x ∧ x.2 = c ∧ x.1 ∈ live) ∧
      (∀ x ∈ m.edges, ∃ a b, x.vertind = [a, b] ∧ a ≠ b) ∧
      (∀ l k, AllPos (fun e => e) l k (find l k)) ∧
      AtMostTwo m cells ∧
      identifyMergEdge m cells sibs find = .ok [d, d] := by
  refine ⟨thirdOut, thirdCells, liveSiblings [1, 2] thirdCells, [1, 2], lastFirst, ⟨1, [2], 3, [2], [1, 2]⟩,
    by decide +kernel, by decide +kernel, liveSiblings_all _ _, ?_, lastFirst_all, ?_, by decide +kernel⟩
  · intro x hx
    have : ∀ x ∈ thirdOut.edges, x.vertind = [x.vertind.headD 0, x.vertind.getLastD 0] ∧ x.vertind.headD 0 ≠ x.vertind.getLastD 0 := by
      decide +kernel
    exact ⟨_, _, this x hx⟩
  · rintro v e f g ⟨_, _, _, ⟨x, hx, rfl, h3⟩, ⟨y, hy, rfl, h4⟩⟩ ⟨_, _, _, _, ⟨z, hz, rfl, h6⟩⟩
    have : ∀ x ∈ thirdOut.edges, ∀ y ∈ thirdOut.edges, ∀ z ∈ thirdOut.edges, ∀ v ∈ x.vertind, v ∈ y.vertind → v ∈ z.vertind →
        x.index = y.index ∨ x.index = z.index ∨ y.index = z.index := by
      decide +kernel
    exact this x hx y hy z hz v h3 h4 h6

/-- Three edges of one surface meet at vertex 2. -/
def threeWay : Mesh := onlyEdges [(1, 1, 2), (2, 2, 3), (3, 2, 4)]

/-- **C110 violated**: with three edges at a vertex two of them are joined into one, but the vertex
between them is not removed, and the third edge still ends at it. -/
theorem C110_three_violated :
    ∃ (m : Mesh) (cells : List (Int × Int)) (d : PathEdit) (v : Int),
      (m.edges.map Edge.index).Nodup ∧ cells.map Prod.fst = m.edges.map Edge.index ∧
      (∀ x ∈ m.edges, ∃ a b, x.vertind = [a, b] ∧ a ≠ b) ∧
      identifyMergEdge m cells (siblingsIn cells) lastFirst = .ok [d] ∧
      (∃ e ∈ d.rmvE, EdgesMeetAt m cells v d.keepE e) ∧ v ≠ d.keepV ∧ v ∉ d.rmvV := by
  refine ⟨threeWay, [(1, 1), (2, 1), (3, 1)], ⟨1, [2], 3, [], [1, 2, 3]⟩, 2, by decide +kernel, by decide +kernel, ?_, by decide +kernel, ?_, by decide, by simp⟩
  · intro x hx
    have : ∀ x ∈ threeWay.edges, x.vertind = [x.vertind.headD 0, x.vertind.getLastD 0] ∧ x.vertind.headD 0 ≠ x.vertind.getLastD 0 := by
      decide +kernel
    exact ⟨_, _, this x hx⟩
  · refine ⟨2, by simp, 1, by simp, by simp, ⟨⟨1, [1, 2], [], false⟩, by decide +kernel, rfl, by simp⟩,
      ⟨⟨2, [2, 3], [], false⟩, by decide +kernel, rfl, by simp⟩⟩

end RSVS.Props
