import Verif.Lemmas.SnakeCheck
import Verif.Props.Mesh

/-!
# C118: the check of the connectivity of a snake
-/

namespace RSVS.Props

open RSVS RSVS.Mesh RSVS.Spec RSVS.SnakeCheck

section
open Classical

/-- What is reported is what is wrong: the pairs of snaxels on the same edge of the mesh which are joined by a snake edge,
the snaxels which do not have one edge for each surface around theirs, the pairs of snake edges in one surface with a
common end, and the pairs of snake surfaces in one volume with a common edge; each once, in both orders for the pairs.
Missing: it is needed that snaxels which share their edge are at positions where there is a snake edge, and the total
is only that of the last check. -/
theorem C118_reported_partial {conn base : Mesh} {snaxs snaxedges snaxsurfs : List Part} {sibsV sibsE sibsS : Int → List Nat}
    (h : CheckReady conn base snaxs snaxedges snaxsurfs) (hV : ∀ k, AllPos Part.parent snaxs k (sibsV k))
    (hE : ∀ k, AllPos Part.parent snaxedges k (sibsE k)) (hS : ∀ k, AllPos Part.parent snaxsurfs k (sibsS k))
    (hlong : ∀ i k, SameParent snaxs i k → i < snaxedges.length) :
    ∃ r, checkConnectivity conn base snaxs snaxedges snaxsurfs sibsV sibsE sibsS = .ok r ∧
      Exactly r.snaxs (fun p => SameParent snaxs p.1 p.2 ∧ SnaxLinked conn p.1 p.2) ∧
      Exactly r.counts (WrongCount conn base snaxs) ∧
      Exactly r.edges (fun p => SameParent snaxedges p.1 p.2 ∧ EdgesMeet conn p.1 p.2) ∧
      Exactly r.surfs (fun p => SameParent snaxsurfs p.1 p.2 ∧ SurfsMeet conn p.1 p.2) ∧
      r.total = r.surfs.length := by
  have hnE : (snaxedges.map Part.index).Nodup := h.atEdges ▸ h.unique.edges
  have hnS : (snaxsurfs.map Part.index).Nodup := h.atSurfs ▸ h.unique.surfs
  unfold checkConnectivity
  rw [pairs_ok (J := fun i j => decide (SnaxLinked conn i j)) hV
    (fun i j ⟨k, hi⟩ ⟨l, hj⟩ => differIn_ok hnE (hlong i k hi) (hlong j l hj)) (fun i j hi hj => snaxJoined_ok h hi hj),
    countCheck_ok h,
    pairs_ok (J := fun i j => decide (EdgesMeet conn i j)) hE
    (fun i j hi hj => differIn_ok hnE (lt_of_sameParent hi) (lt_of_sameParent hj)) (fun i j hi hj => edgeJoined_ok h hi hj),
    pairs_ok (J := fun i j => decide (SurfsMeet conn i j)) hS
    (fun i j hi hj => differIn_ok hnS (lt_of_sameParent hi) (lt_of_sameParent hj)) (fun i j hi hj => surfJoined_ok h hi hj)]
  refine ⟨_, rfl, ?_, ⟨List.Nodup.filter _ List.nodup_range, fun i => ?_⟩, ?_, ?_, rfl⟩
  · exact found_exact hV fun i j _ _ => decide_eq_true_iff
  · rw [List.mem_filter, decide_eq_true_iff]
    refine ⟨fun h1 => h1.2, fun h1 => ⟨?_, h1⟩⟩
    obtain ⟨_, _, _, _, h2, _⟩ := h1
    simpa using (List.getElem?_eq_some_iff.1 h2).1
  · exact found_exact hE fun i j _ _ => decide_eq_true_iff
  · exact found_exact hS fun i j _ _ => decide_eq_true_iff

end

/-- Nothing is reported exactly for snakes without any of the faults. -/
theorem C118_silent_partial {conn base : Mesh} {snaxs snaxedges snaxsurfs : List Part} {sibsV sibsE sibsS : Int → List Nat}
    (h : CheckReady conn base snaxs snaxedges snaxsurfs) (hV : ∀ k, AllPos Part.parent snaxs k (sibsV k))
    (hE : ∀ k, AllPos Part.parent snaxedges k (sibsE k)) (hS : ∀ k, AllPos Part.parent snaxsurfs k (sibsS k))
    (hlong : ∀ i k, SameParent snaxs i k → i < snaxedges.length) :
    checkConnectivity conn base snaxs snaxedges snaxsurfs sibsV sibsE sibsS = .ok ⟨[], [], [], [], 0⟩ ↔
      ∀ i, ¬ WrongCount conn base snaxs i ∧ ∀ j, (SameParent snaxs i j → ¬ SnaxLinked conn i j) ∧
        (SameParent snaxedges i j → ¬ EdgesMeet conn i j) ∧ (SameParent snaxsurfs i j → ¬ SurfsMeet conn i j) := by
  obtain ⟨r, hr, h1, h2, h3, h4, h5⟩ := C118_reported_partial h hV hE hS hlong
  rw [hr]
  constructor
  · intro he i
    cases Except.ok.inj he
    refine ⟨fun hw => by simpa using (h2.2 i).2 hw, fun j => ⟨fun ha hb => ?_, fun ha hb => ?_, fun ha hb => ?_⟩⟩
    · simpa using (h1.2 (i, j)).2 ⟨ha, hb⟩
    · simpa using (h3.2 (i, j)).2 ⟨ha, hb⟩
    · simpa using (h4.2 (i, j)).2 ⟨ha, hb⟩
  · intro hno
    obtain ⟨a, b, c, d, t⟩ := r
    simp only at h1 h2 h3 h4 h5
    have ha : a = [] := List.eq_nil_iff_forall_not_mem.2 fun p hp => ((hno p.1).2 p.2).1 ((h1.2 p).1 hp).1 ((h1.2 p).1 hp).2
    have hb : b = [] := List.eq_nil_iff_forall_not_mem.2 fun p hp => (hno p).1 ((h2.2 p).1 hp)
    have hc : c = [] := List.eq_nil_iff_forall_not_mem.2 fun p hp => ((hno p.1).2 p.2).2.1 ((h3.2 p).1 hp).1 ((h3.2 p).1 hp).2
    have hd : d = [] := List.eq_nil_iff_forall_not_mem.2 fun p hp => ((hno p.1).2 p.2).2.2 ((h4.2 p).1 hp).1 ((h4.2 p).1 hp).2
    subst ha hb hc hd
    rw [h5]
    rfl

/-- The siblings, found by looking at each part. -/
def sibsOf (parts : List Part) (k : Int) : List Nat :=
  (List.range parts.length).filter fun i => decide ((parts[i]?).map Part.parent = some k)

theorem sibsOf_allPos (parts : List Part) (k : Int) : AllPos Part.parent parts k (sibsOf parts k) := by
  refine ⟨List.Nodup.filter _ List.nodup_range, fun p => ?_⟩
  unfold sibsOf
  rw [List.mem_filter, decide_eq_true_iff, Option.map_eq_some_iff]
  refine ⟨fun h => h.2, fun h => ⟨?_, h⟩⟩
  obtain ⟨e, he, _⟩ := h
  simpa using (List.getElem?_eq_some_iff.1 he).1

/-- Snaxels on the edges of a tetrahedron, two of them on one edge. -/
def tetraSnaxs : List Part := [⟨1, 1⟩, ⟨2, 1⟩, ⟨3, 2⟩, ⟨4, 6⟩]
def tetraSnaxEdges : List Part := [⟨1, 1⟩, ⟨2, 1⟩, ⟨3, 2⟩, ⟨4, 3⟩, ⟨5, 4⟩, ⟨6, 4⟩]
def tetraSnaxSurfs : List Part := [⟨1, 1⟩, ⟨2, 1⟩, ⟨3, 0⟩, ⟨4, 2⟩]

theorem tetra_checkReady (parts : List Part) (h : parts.map Part.index = tetra.surfs.map Surf.index) :
    CheckReady tetra tetra tetraSnaxs tetraSnaxEdges parts where
  unique := tetra_sound.unique
  baseEdges := tetra_sound.unique.edges
  atVerts := by decide
  atEdges := by decide
  atSurfs := h
  vertEdge := by unfold HasEdge; decide +kernel
  twoVerts := by unfold TwoVerts; decide +kernel
  onEdge := by unfold HasEdge; decide +kernel

example : ∃ r, checkConnectivity tetra tetra tetraSnaxs tetraSnaxEdges tetraSnaxSurfs (sibsOf tetraSnaxs)
    (sibsOf tetraSnaxEdges) (sibsOf tetraSnaxSurfs) = .ok r ∧
      Exactly r.snaxs (fun p => SameParent tetraSnaxs p.1 p.2 ∧ SnaxLinked tetra p.1 p.2) :=
  let ⟨r, h, h1, _⟩ := C118_reported_partial (tetra_checkReady tetraSnaxSurfs (by decide)) (sibsOf_allPos _) (sibsOf_allPos _)
    (sibsOf_allPos _) (fun i k h => Nat.lt_trans (lt_of_sameParent ⟨k, h⟩) (by decide))
  ⟨r, h, h1⟩

example : checkConnectivity tetra tetra tetraSnaxs tetraSnaxEdges tetraSnaxSurfs (sibsOf tetraSnaxs)
    (sibsOf tetraSnaxEdges) (sibsOf tetraSnaxSurfs) =
      .ok ⟨[(0, 1), (1, 0)], [0, 1, 2, 3], [(0, 1), (1, 0), (4, 5), (5, 4)], [(0, 1), (1, 0)], 2⟩ := by decide +kernel

/-- The total does not count what the first three checks report: here they report ten faults and nothing is said of a
total. -/
theorem C118_total_violated : ∃ (snaxsurfs : List Part) (r : Report),
    CheckReady tetra tetra tetraSnaxs tetraSnaxEdges snaxsurfs ∧
      checkConnectivity tetra tetra tetraSnaxs tetraSnaxEdges snaxsurfs (sibsOf tetraSnaxs) (sibsOf tetraSnaxEdges)
        (sibsOf snaxsurfs) = .ok r ∧
      r.snaxs.length + r.counts.length + r.edges.length + r.surfs.length = 10 ∧ r.total = 0 :=
  ⟨[⟨1, 1⟩, ⟨2, 2⟩, ⟨3, 0⟩, ⟨4, 3⟩], ⟨[(0, 1), (1, 0)], [0, 1, 2, 3], [(0, 1), (1, 0), (4, 5), (5, 4)], [], 0⟩,
    tetra_checkReady _ (by decide), by decide +kernel, rfl, rfl⟩

/-- Two snaxels on one edge of the mesh, joined by the only edge of the snake. -/
def shortSnake : Mesh where
  verts := [⟨1, [1], [0, 0, 0], false⟩, ⟨2, [1], [1, 0, 0], false⟩]
  edges := [⟨1, [1, 2], [], false⟩]
  surfs := []
  volus := []
  meshDim := 3

/-- The first check looks for snake edges at the positions of the snaxels: with fewer snake edges than snaxels it throws
where it should report. -/
theorem C118_throws_violated : ∃ (conn : Mesh) (snaxs snaxedges : List Part),
    CheckReady conn tetra snaxs snaxedges [] ∧ SameParent snaxs 0 1 ∧ SnaxLinked conn 0 1 ∧
      ∀ sibsV sibsE sibsS : Int → List Nat, (∀ k, AllPos Part.parent snaxs k (sibsV k)) →
        checkConnectivity conn tetra snaxs snaxedges [] sibsV sibsE sibsS = .error .throws := by
  refine ⟨shortSnake, [⟨1, 1⟩, ⟨2, 1⟩], [⟨1, 1⟩], ⟨⟨by decide, by decide, by decide, by decide⟩, tetra_sound.unique.edges,
    by decide, by decide, by decide, by unfold HasEdge; decide, by unfold TwoVerts; decide,
    by unfold HasEdge; decide +kernel⟩, ⟨by decide, _, _, rfl, rfl, rfl⟩,
    ⟨_, _, rfl, rfl, ⟨1, [1, 2], [], false⟩, by decide, by decide, by decide⟩, fun sibsV sibsE sibsS hV => ?_⟩
  have h0 : 0 ∈ sibsV 1 := ((hV 1).2 0).2 ⟨⟨1, 1⟩, rfl, rfl⟩
  have h1 : 1 ∈ sibsV 1 := ((hV 1).2 1).2 ⟨⟨2, 1⟩, rfl, rfl⟩
  have hall : ∀ p ∈ sibsV 1, p = 0 ∨ p = 1 := fun p hp => by
    obtain ⟨e, he, _⟩ := ((hV 1).2 p).1 hp
    have := (List.getElem?_eq_some_iff.1 he).1
    simp at this
    omega
  have hn := (hV 1).1
  have hcases : sibsV 1 = [0, 1] ∨ sibsV 1 = [1, 0] := by
    match hl : sibsV 1 with
    | [] => rw [hl] at h0; simp at h0
    | [a] => rw [hl] at h0 h1; simp at h0 h1; omega
    | [a, b] =>
      rw [hl] at h0 h1; simp only [List.mem_cons, List.not_mem_nil, or_false] at h0 h1
      rcases h0 with rfl | rfl <;> rcases h1 with h1 | h1 <;> subst_vars <;> simp_all
    | a :: b :: c :: t =>
      rw [hl] at hn hall
      have ha := hall a (by simp)
      have hb := hall b (by simp)
      have hc := hall c (by simp)
      simp only [List.nodup_cons, List.mem_cons, not_or] at hn
      omega
  unfold checkConnectivity
  have hp : pairs [⟨1, 1⟩, ⟨2, 1⟩] sibsV (differIn [⟨1, 1⟩]) (snaxJoined shortSnake [⟨1, 1⟩, ⟨2, 1⟩]) = .error .throws := by
    unfold pairs
    change List.foldlM (m := Except Fault) _ _ [0, 1] = _
    rw [List.foldlM_cons]
    change Except.bind (if 1 < (sibsV 1).length then _ else _) _ = _
    rcases hcases with h | h <;> · rw [h]; rfl
  rw [hp]
  rfl

end RSVS.Props
