import Verif.Lemmas.StepLimit
import Verif.Props.Tecplot
import Mathlib.Data.Rat.Defs

/-!
# C119: the step limits of the edges
-/

namespace RSVS.Props

open RSVS RSVS.Mesh RSVS.Spec RSVS.StepLimit

section
open Classical

/-- The limit of an edge is the mean, over the cells of the parent meshes it is in, of the least length of an edge of the
cell divided by its own length; 1 for edges which are in no cell. -/
theorem C119_limits {K : Type} [Field K] [LinearOrder K] {m : Mesh} {parents : List (List Int)} {conn : Nat → List Int}
    {kids : Nat → Int → List Nat} (h : LimitReady m parents conn kids) (len : Edge → K) :
    ∃ least : Nat × Int → K,
      (∀ c ∈ allCells parents, (∃ x ∈ m.edges, EdgeInCell m (conn c.1) c.2 x.index) →
        LeastLength m len (conn c.1) c.2 (least c)) ∧
      setEdgeStepLimits m len parents kids = .ok (m.edges.map fun x => meanOr1
        (((allCells parents).filter fun c => decide (EdgeInCell m (conn c.1) c.2 x.index)).map fun c => least c / len x)) :=
  ⟨leastOf m len kids, fun _ hc hx => leastOf_least h len (allCells_lt _ hc) hx, set_ok h len⟩

/-- With positive lengths the limits are positive and at most 1. -/
theorem C119_range {K : Type} [Field K] [LinearOrder K] [IsStrictOrderedRing K] {m : Mesh} {parents : List (List Int)}
    {conn : Nat → List Int} {kids : Nat → Int → List Nat} (h : LimitReady m parents conn kids) {len : Edge → K}
    (hlen : ∀ x ∈ m.edges, 0 < len x) :
    ∃ l, setEdgeStepLimits m len parents kids = .ok l ∧ l.length = m.edges.length ∧ ∀ a ∈ l, 0 < a ∧ a ≤ 1 := by
  obtain ⟨least, h1, h2⟩ := C119_limits h len
  refine ⟨_, h2, by simp, fun a ha => ?_⟩
  obtain ⟨x, hx, rfl⟩ := List.mem_map.1 ha
  generalize hC : (allCells parents).filter (fun c => decide (EdgeInCell m (conn c.1) c.2 x.index)) = C
  have hall : ∀ b ∈ C.map fun c => least c / len x, 0 < b ∧ b ≤ 1 := by
    intro b hb
    obtain ⟨c, hc, rfl⟩ := List.mem_map.1 hb
    rw [← hC, List.mem_filter, decide_eq_true_iff] at hc
    obtain ⟨⟨y, hy, _, hyl⟩, h4⟩ := h1 c hc.1 ⟨x, hx, hc.2⟩
    have hpos : 0 < least c := hyl ▸ hlen y hy
    exact ⟨div_pos hpos (hlen x hx), (div_le_one (hlen x hx)).2 (h4 ⟨x, hx, hc.2, rfl⟩)⟩
  generalize C.map (fun c => least c / len x) = L at hall
  unfold meanOr1
  split
  · exact ⟨zero_lt_one, le_refl _⟩
  · rename_i hne
    have hsum : ∀ L : List K, (∀ b ∈ L, 0 < b ∧ b ≤ 1) → L.sum ≤ (L.length : K) ∧ (L ≠ [] → 0 < L.sum) ∧ 0 ≤ L.sum := by
      intro L
      induction L with
      | nil => intro _; simp
      | cons b L ih =>
        intro hb
        obtain ⟨i1, _, i3⟩ := ih fun c hc => hb c (by simp [hc])
        obtain ⟨b1, b2⟩ := hb b (by simp)
        rw [List.sum_cons, List.length_cons]
        push_cast
        exact ⟨by linarith, fun _ => by linarith, by linarith⟩
    obtain ⟨i1, i2, _⟩ := hsum L hall
    have hpos : (0 : K) < L.length := by
      have : 0 < L.length := List.length_pos_iff.2 hne
      exact_mod_cast this
    exact ⟨div_pos (i2 hne) hpos, (div_le_one hpos).2 i1⟩

/-- Edges which are in one cell only all have the same limit in length: the least length of an edge of that cell. -/
theorem C119_same_step_partial {K : Type} [Field K] [LinearOrder K] [IsStrictOrderedRing K] {m : Mesh}
    {parents : List (List Int)} {conn : Nat → List Int} {kids : Nat → Int → List Nat}
    (h : LimitReady m parents conn kids) {len : Edge → K} (hlen : ∀ x ∈ m.edges, 0 < len x) :
    ∃ l, setEdgeStepLimits m len parents kids = .ok l ∧ ∀ (p : Nat) (x : Edge) (c : Nat × Int), m.edges[p]? = some x →
      (allCells parents).filter (fun c => decide (EdgeInCell m (conn c.1) c.2 x.index)) = [c] →
      ∃ a, l[p]? = some a ∧ LeastLength m len (conn c.1) c.2 (a * len x) := by
  obtain ⟨least, h1, h2⟩ := C119_limits h len
  refine ⟨_, h2, fun p x c hp hc => ⟨_, by rw [List.getElem?_map, hp, Option.map_some], ?_⟩⟩
  have hx : x ∈ m.edges := List.mem_of_getElem? hp
  have hcm : c ∈ (allCells parents).filter (fun c => decide (EdgeInCell m (conn c.1) c.2 x.index)) := by rw [hc]; simp
  rw [List.mem_filter, decide_eq_true_iff] at hcm
  have h3 := h1 c hcm.1 ⟨x, hx, hcm.2⟩
  rw [hc]
  have : meanOr1 ([c].map fun c => least c / len x) * len x = least c := by
    simp [meanOr1, div_mul_cancel₀ _ (ne_of_gt (hlen x hx))]
  rwa [this]

end

/-- A snaxel has the limit of its edge; on an edge which is not in the mesh the search throws. -/
theorem C119_snaxel {K : Type} [Field K] [LinearOrder K] {m : Mesh} {parents : List (List Int)} {conn : Nat → List Int}
    {kids : Nat → Int → List Nat} (h : LimitReady m parents conn kids) (len : Edge → K) :
    ∃ l, setEdgeStepLimits m len parents kids = .ok l ∧
      (∀ (p : Nat) (x : Edge), m.edges[p]? = some x → ∃ a, l[p]? = some a ∧ snaxStepLimit m l x.index = .ok a) ∧
      ∀ e, ¬ HasEdge m e → snaxStepLimit m l e = .error .throws := by
  obtain ⟨least, _, h2⟩ := C119_limits h len
  refine ⟨_, h2, fun p x hp => ?_, fun e he => ?_⟩
  · refine ⟨_, by rw [List.getElem?_map, hp, Option.map_some], ?_⟩
    have hx : x ∈ m.edges := List.mem_of_getElem? hp
    obtain ⟨hpl, hpx⟩ := List.getElem?_eq_some_iff.1 hp
    unfold snaxStepLimit
    rcases posOf_cases (ix := Edge.index) m.edges x.index with ⟨_, hno⟩ | ⟨q, hq, hql, hqe⟩
    · exact absurd rfl (hno x hx)
    · have hqp : q = p := by
        have := (List.Nodup.getElem_inj_iff h.edges (i := q) (hi := by simpa using hql) (j := p) (hj := by simpa using hpl)).1
          (by simp [hqe, hpx])
        exact this
      rw [hq, if_neg (by simp; omega), hqp]
      exact Order.vecGet_nat (by rw [List.getElem?_map, hp, Option.map_some])
  · unfold snaxStepLimit
    rcases posOf_cases (ix := Edge.index) m.edges e with ⟨h3, _⟩ | ⟨q, hq, hql, hqe⟩
    · rw [if_pos (.inl h3)]
    · exact absurd ⟨_, List.getElem_mem hql, hqe⟩ he

/-- The children, found by looking at each entry. -/
def kidsOf (conn : List Int) (k : Int) : List Nat :=
  (List.range conn.length).filter fun i => decide (conn[i]? = some k)

theorem kidsOf_allPos (conn : List Int) (k : Int) : AllPos id conn k (kidsOf conn k) := by
  refine ⟨List.Nodup.filter _ List.nodup_range, fun p => ?_⟩
  unfold kidsOf
  rw [List.mem_filter, decide_eq_true_iff]
  constructor
  · exact fun h => ⟨k, h.2, rfl⟩
  · rintro ⟨e, he, rfl⟩
    exact ⟨by simpa using (List.getElem?_eq_some_iff.1 he).1, he⟩

/-- Two tetrahedra, each a cell of its own in the one parent mesh. -/
theorem solidPair_limit : LimitReady solidPair [[1, 2]] (fun _ => [1, 2]) (fun _ => kidsOf [1, 2]) where
  edges := by decide +kernel
  surfs := by decide +kernel
  voluSurf := by unfold HasSurf; decide +kernel
  surfEdge := by unfold HasEdge; decide +kernel
  short := by decide
  kids := fun _ _ k => kidsOf_allPos _ k

/-- The edges of the first cell have length 1, the shared ones 3 and the others 5. -/
def pairLength (x : Edge) : ℚ := if x.index ≤ 3 then 1 else if x.index ≤ 6 then 3 else 5

example : setEdgeStepLimits solidPair pairLength [[1, 2]] (fun _ => kidsOf [1, 2]) =
    .ok [1, 1, 1, 2 / 3, 2 / 3, 2 / 3, 3 / 5, 3 / 5, 3 / 5] := by decide +kernel

example : ∃ l, setEdgeStepLimits solidPair pairLength [[1, 2]] (fun _ => kidsOf [1, 2]) = .ok l ∧
    l.length = 9 ∧ ∀ a ∈ l, 0 < a ∧ a ≤ 1 :=
  C119_range solidPair_limit (by decide +kernel)

/-- The limits in length are not the same in a cell: an edge which is also in another cell has a mean of two. -/
theorem C119_same_step_violated : ∃ (m : Mesh) (conn : List Int) (len : Edge → ℚ) (l : List ℚ) (x y : Edge) (a b : ℚ),
    LimitReady m [[1, 2]] (fun _ => conn) (fun _ => kidsOf conn) ∧ (∀ x ∈ m.edges, 0 < len x) ∧
      setEdgeStepLimits m len [[1, 2]] (fun _ => kidsOf conn) = .ok l ∧ m.edges[0]? = some x ∧ m.edges[3]? = some y ∧
      EdgeInCell m conn 1 x.index ∧ EdgeInCell m conn 1 y.index ∧ l[0]? = some a ∧ l[3]? = some b ∧
      a * len x = 1 ∧ b * len y = 2 :=
  ⟨solidPair, [1, 2], pairLength, [1, 1, 1, 2 / 3, 2 / 3, 2 / 3, 3 / 5, 3 / 5, 3 / 5], _, _, _, _, solidPair_limit,
    by decide +kernel, by decide +kernel, rfl, rfl,
    ⟨0, { index := 1, surfind := [1, 2, 3, 4] }, rfl, rfl, { index := 1, edgeind := [1, 2, 4], voluind := [1, 0] },
      by decide +kernel, by decide, by decide⟩,
    ⟨0, { index := 1, surfind := [1, 2, 3, 4] }, rfl, rfl, { index := 1, edgeind := [1, 2, 4], voluind := [1, 0] },
      by decide +kernel, by decide, by decide⟩, rfl, rfl, by decide +kernel, by decide +kernel⟩

/-- In a flat mesh the cells are surfaces, which are not looked at: all limits are 1 whatever the lengths. -/
theorem C119_flat {K : Type} [Field K] [LinearOrder K] (m : Mesh) (len : Edge → K) (parents : List (List Int))
    (kids : Nat → Int → List Nat) (hp : ∀ l ∈ parents, l = []) :
    setEdgeStepLimits m len parents kids = .ok (m.edges.map fun _ => 1) := by
  unfold setEdgeStepLimits
  have : cellsOf parents = [] := by
    unfold cellsOf
    rw [List.flatMap_eq_nil_iff]
    intro p hp'
    have := hp p.1 (List.fst_mem_of_mem_zipIdx hp')
    rw [this]
    rfl
  rw [this]
  change (.ok ((List.replicate m.edges.length ((0 : Nat), (0 : K))).map finish) : Res _) = _
  refine congrArg _ ?_
  rw [List.map_replicate]
  simp [finish]

/-- Edges of one square of length 1 and 2 have limits of 1 and 2 in length. -/
theorem C119_flat_violated : ∃ (len : Edge → ℚ) (l : List ℚ) (x y : Edge) (a b : ℚ),
    (∀ x ∈ flatPair.edges, 0 < len x) ∧ setEdgeStepLimits flatPair len [[]] (fun _ _ => []) = .ok l ∧
      flatPair.edges[0]? = some x ∧ flatPair.edges[3]? = some y ∧
      (∃ s ∈ flatPair.surfs, x.index ∈ s.edgeind ∧ y.index ∈ s.edgeind) ∧ l[0]? = some a ∧ l[3]? = some b ∧
      a * len x = 1 ∧ b * len y = 2 :=
  ⟨fun x => if x.index = 4 then 2 else 1, _, ⟨1, [1, 2], [1, 0], false⟩, ⟨4, [4, 1], [1, 0], false⟩, 1, 1, by decide +kernel,
    C119_flat _ _ _ _ (by simp), rfl, rfl,
    ⟨{ index := 1, edgeind := [1, 2, 3, 4], voluind := [] }, by decide +kernel, by decide, by decide⟩, rfl, rfl,
    by decide +kernel, by decide +kernel⟩

end RSVS.Props
