import Verif.Lemmas.TetInput
import Verif.Props.Mesh

/-!
# C100: what the tetrahedral mesher is given
-/

namespace RSVS.Props

open RSVS.Mesh RSVS.Tet RSVS.Spec

variable {K : Type}

/-- The exact arrays for two meshes. -/
theorem mesh2Tetgenio_eq [Field K] {g d : Mesh} {ringG ringD : Surf → List Int}
    (rg : ∀ f ∈ g.surfs, Order.orderedVerts g f.edgeind = .ok (ringG f))
    (rd : ∀ f ∈ d.surfs, Order.orderedVerts d f.edgeind = .ok (ringD f)) (cg cd : Int → Fin 3 → K) :
    mesh2Tetgenio g d cg cd = .ok
      ⟨((g.verts.map fun v => cg v.index) ++ d.verts.map fun v => cd v.index).map some,
       ((g.verts.map fun _ => (0 : K)) ++ d.verts.map fun _ => -1).map some,
       ((g.verts.map fun _ => (1 : Int)) ++ d.verts.map fun _ => -1).map some,
       ((g.surfs.map fun f => (ringG f).map fun v => posOf Vert.index g.verts v + (0 : Nat)) ++
         d.surfs.map fun f => (ringD f).map fun v => posOf Vert.index d.verts v + g.verts.length).map some,
       ((g.surfs.map fun _ => (1 : Int)) ++ d.surfs.map fun _ => 2).map some⟩ := by
  unfold mesh2Tetgenio
  have hs0 : TetSized (g.verts.length + d.verts.length) (g.surfs.length + d.surfs.length)
      (allocate (g.verts.length + d.verts.length) (g.surfs.length + d.surfs.length) : Io K) := by
    constructor <;> simp [allocate]
  rw [meshData_ok rg cg hs0 (by omega) (by omega)]
  simp only [Except.bind]
  have hs1 : TetSized (g.verts.length + d.verts.length) (g.surfs.length + d.surfs.length)
      (⟨written (allocate (g.verts.length + d.verts.length) (g.surfs.length + d.surfs.length) : Io K).points 0 (g.verts.map fun v => cg v.index),
        written (allocate (g.verts.length + d.verts.length) (g.surfs.length + d.surfs.length) : Io K).mtrs 0 (g.verts.map fun _ => (0 : K)),
        written (allocate (g.verts.length + d.verts.length) (g.surfs.length + d.surfs.length) : Io K).marks 0 (g.verts.map fun _ => (1 : Int)),
        written (allocate (g.verts.length + d.verts.length) (g.surfs.length + d.surfs.length) : Io K).facets 0
          (g.surfs.map fun f => (ringG f).map fun v => posOf Vert.index g.verts v + (0 : Nat)),
        written (allocate (g.verts.length + d.verts.length) (g.surfs.length + d.surfs.length) : Io K).facetMarks 0
          (g.surfs.map fun _ => (0 : Int) + 1)⟩ : Io K) := by
    constructor <;> · rw [length_written (by simp [allocate])]; simp [allocate]
  rw [meshData_ok rd cd hs1 (by omega) (by omega)]
  simp only [allocate]
  rw [replicate_written _ _ _ _ (by simp) (by simp), replicate_written _ _ _ _ (by simp) (by simp), replicate_written _ _ _ _ (by simp) (by simp),
    replicate_written _ _ _ _ (by simp) (by simp), replicate_written _ _ _ _ (by simp) (by simp)]
  norm_num

theorem holds_first {g : Mesh} (hg : Sound g) {ring : Surf → List Int}
    (rg : ∀ f ∈ g.surfs, Order.orderedVerts g f.edgeind = .ok (ring f)) (co : Int → Fin 3 → K)
    (pre post : List (Fin 3 → K)) (prem postm : List Int) (pref postf : List (List Int)) (prek postk : List Int) (mark fmark : Int)
    (mtrs : List (Option K)) (hm : prem.length = pre.length) (hk : prek.length = pref.length) :
    TetHolds g co ring pre.length pref.length mark fmark
      ⟨(pre ++ (g.verts.map fun v => co v.index) ++ post).map some, mtrs, (prem ++ (g.verts.map fun _ => mark) ++ postm).map some,
        (pref ++ (g.surfs.map fun f => (ring f).map fun v => posOf Vert.index g.verts v + pre.length) ++ postf).map some,
        (prek ++ (g.surfs.map fun _ => fmark) ++ postk).map some⟩ := by
  have mid : ∀ {α : Type} (a b c : List α) (n p : Nat), a.length = n → p < b.length → ((a ++ b ++ c).map some)[n + p]? = (b[p]?).map some := by
    intro α a b c n p hn hp
    rw [List.getElem?_map, List.append_assoc, List.getElem?_append_right (by omega), List.getElem?_append_left (by omega), hn,
      show n + p - n = p by omega]
  have hpt : ∀ (p : Nat) v, g.verts[p]? = some v →
      ((pre ++ (g.verts.map fun v => co v.index) ++ post).map some)[pre.length + p]? = some (some (co v.index)) := by
    intro p v h
    have := (List.getElem?_eq_some_iff.mp h).1
    rw [mid _ _ _ _ _ rfl (by simpa using this), List.getElem?_map, h]
    rfl
  refine ⟨hpt, ?_, ?_, ?_⟩
  · intro p h
    rw [mid _ _ _ _ _ hm (by simpa using h), List.getElem?_map, List.getElem?_eq_getElem h]
    rfl
  · intro p h
    rw [mid _ _ _ _ _ hk (by simpa using h), List.getElem?_map, List.getElem?_eq_getElem h]
    rfl
  · intro p f h
    have hp := (List.getElem?_eq_some_iff.mp h).1
    refine ⟨_, by rw [mid _ _ _ _ _ rfl (by simpa using hp), List.getElem?_map, h]; rfl, ?_⟩
    exact corners_ok (orderedVerts_has hg (rg f (List.mem_of_getElem? h))) co _ _ hpt

/-- C100, the meshes: for all sound meshes whose surfaces have ordered vertices the code writes only inside its arrays and writes
each entry: the points of the geometry with mark 1, then those of the domain with mark -1; the facets of the geometry with mark 1,
then those of the domain with mark 2; the corners of each facet are the points with the coordinates of the vertices of its surface. -/
theorem C100_mesh [Field K] {g d : Mesh} (hg : Sound g) (hd : Sound d) {ringG ringD : Surf → List Int}
    (rg : ∀ f ∈ g.surfs, Order.orderedVerts g f.edgeind = .ok (ringG f))
    (rd : ∀ f ∈ d.surfs, Order.orderedVerts d f.edgeind = .ok (ringD f)) (cg cd : Int → Fin 3 → K) :
    ∃ io, mesh2Tetgenio g d cg cd = .ok io ∧ TetSized (g.verts.length + d.verts.length) (g.surfs.length + d.surfs.length) io ∧
      TetHolds g cg ringG 0 0 1 1 io ∧ TetHolds d cd ringD g.verts.length g.surfs.length (-1) 2 io ∧
      (∀ p : Nat, p < g.verts.length → HasMetric io p 0) ∧ ∀ p : Nat, p < d.verts.length → HasMetric io (g.verts.length + p) (-1) := by
  refine ⟨_, mesh2Tetgenio_eq rg rd cg cd, ?_, ?_, ?_, ?_, ?_⟩
  · constructor <;> simp
  · exact holds_first hg rg cg [] _ [] _ [] _ [] _ 1 1 _ rfl rfl
  · have := holds_first hd rd cd (g.verts.map fun v => cg v.index) [] (g.verts.map fun _ => (1 : Int)) []
      (g.surfs.map fun f => (ringG f).map fun v => posOf Vert.index g.verts v + (0 : Nat)) [] (g.surfs.map fun _ => (1 : Int)) [] (-1) 2
      (((g.verts.map fun _ => (0 : K)) ++ d.verts.map fun _ => -1).map some) (by simp) (by simp)
    simp only [List.append_nil, List.length_map] at this
    exact this
  · intro p h
    unfold HasMetric
    simp only [List.getElem?_map]
    rw [List.getElem?_append_left (by simpa using h), List.getElem?_map, List.getElem?_eq_getElem h]
    rfl
  · intro p h
    unfold HasMetric
    simp only [List.getElem?_map]
    rw [List.getElem?_append_right (by simp), List.length_map, show g.verts.length + p - g.verts.length = p by omega,
      List.getElem?_map, List.getElem?_eq_getElem h]
    rfl

/-- The corners of the surfaces of a mesh. -/
def ringOf (m : Mesh) (f : Surf) : List Int := (Order.orderedVerts m f.edgeind).toOption.getD []

/-- The hypotheses of `C100_mesh` hold for a tetrahedron in a tetrahedron, and each facet has 3 corners. -/
example : Sound tetra ∧ (∀ f ∈ tetra.surfs, Order.orderedVerts tetra f.edgeind = .ok (ringOf tetra f)) ∧
    tetra.surfs.length = 4 ∧ ∀ f ∈ tetra.surfs, (ringOf tetra f).length = 3 :=
  ⟨tetra_sound, by decide +kernel, by decide +kernel, by decide +kernel⟩

/-- What is asked of the metrics of the points of the geometry and the boxes and of the marks of the facets. -/
structure CfdRight (g d : Mesh) (cg cd : Int → Fin 3 → K) (ringG ringD : Surf → List Int) (vertPer : List Nat) (lens : List K)
    (want : Nat → Option K) (io : Io K) : Prop where
  sized : TetSized (g.verts.length + d.verts.length) (g.surfs.length + d.surfs.length) io
  geometry : TetHolds g cg ringG 0 0 1 1 io
  own : ∀ p : Nat, p < g.verts.length → ∃ x, want p = some x ∧ HasMetric io p x
  box : ∀ (k j n : Nat) x, vertPer[k]? = some n → lens[k]? = some x → j < n → HasMetric io (g.verts.length + (vertPer.take k).sum + j) x
  inner : ∀ p : Nat, p < (vertPer.length - 1) * (d.surfs.length / vertPer.length) → io.facetMarks[g.surfs.length + p]? = some (some 0)
  outer : ∀ p : Nat, (vertPer.length - 1) * (d.surfs.length / vertPer.length) ≤ p → p < d.surfs.length →
    io.facetMarks[g.surfs.length + p]? = some (some 2)
  points : ∀ (p : Nat) v, d.verts[p]? = some v → io.points[g.verts.length + p]? = some (some (cd v.index))
  facets : ∀ (p : Nat) f, d.surfs[p]? = some f → ∃ poly, io.facets[g.surfs.length + p]? = some (some poly) ∧
    List.Forall₂ (fun i v => 0 ≤ i ∧ io.points[i.toNat]? = some (some (cd v))) poly (ringD f)

theorem cfd_of [Field K] [DecidableEq K] {g d : Mesh} (hg : Sound g) (hd : Sound d) {ringG ringD : Surf → List Int}
    (rg : ∀ f ∈ g.surfs, Order.orderedVerts g f.edgeind = .ok (ringG f))
    (rd : ∀ f ∈ d.surfs, Order.orderedVerts d f.edgeind = .ok (ringD f)) (cg cd : Int → Fin 3 → K)
    {vertPer : List Nat} {lens : List K} (hl : vertPer.length = lens.length) (h0 : 0 < vertPer.length)
    (hsum : vertPer.sum = d.verts.length) (s0 s1 : K) {cm : List K} {c : K}
    (hc : (s0 = s1 ∧ c = s0) ∨ (s0 ≠ s1 ∧ cm.head? = some c)) :
    ∃ io, rsvs2cfd g d cg cd vertPer lens s0 s1 cm = .ok io ∧ CfdRight g d cg cd ringG ringD vertPer lens (fun _ => some c) io := by
  obtain ⟨io, h1, h2, h3, h4, -, -⟩ := C100_mesh hg hd rg rd cg cd
  unfold rsvs2cfd
  rw [h1]
  simp only [Except.bind]
  have hmet : surfMetrics s0 s1 cm g.verts.length io = .ok { io with mtrs := written io.mtrs 0 (List.replicate g.verts.length c) } := by
    unfold surfMetrics
    have hb : 0 + g.verts.length ≤ io.points.length := by rw [h2.points]; omega
    have hq : io.mtrs.length = io.points.length := by rw [h2.points, h2.mtrs]
    rcases hc with ⟨e, rfl⟩ | ⟨e, hcm⟩
    · rw [if_pos e]; exact specifyMetric_ok hq hb _ _
    · rw [if_neg e]
      cases cm with
      | nil => simp at hcm
      | cons a r =>
        simp only [List.head?_cons, Option.some.injEq] at hcm
        subst hcm
        exact specifyMetric_ok hq hb _ _
  rw [hmet]
  simp only
  have hw : (written io.mtrs 0 (List.replicate g.verts.length c)).length = io.mtrs.length := length_written (by simp [h2.mtrs])
  obtain ⟨b1, b2⟩ := boxMetrics_ok vertPer lens 0 g.verts.length { io with mtrs := written io.mtrs 0 (List.replicate g.verts.length c) }
    (by simp only; rw [hw, h2.mtrs, h2.points]) (by simpa using hl) (by simp only [List.drop_zero]; rw [hsum, h2.points])
  rw [b1]
  simp only
  rw [if_neg (by omega)]
  have hn : vertPer.length * (d.surfs.length / vertPer.length) ≤ d.surfs.length := Nat.mul_div_le _ _
  have hk : (vertPer.length - 1) * (d.surfs.length / vertPer.length) ≤ d.surfs.length :=
    le_trans (Nat.mul_le_mul_right _ (Nat.sub_le _ _)) hn
  rw [boxFacets_ok _ _ _ _ (by simp only; rw [h2.facetMarks, h2.facets]) (by simp only; rw [h2.facets]; omega)]
  refine ⟨_, rfl, ?_⟩
  simp only [List.drop_zero] at b2 ⊢
  have e1 := written_written (l := io.mtrs) (off := 0) (xs := List.replicate g.verts.length c) (ys := spread vertPer lens)
    (by rw [b2, hsum, h2.mtrs]; simp)
  simp only [Nat.zero_add, List.length_replicate] at e1
  have hmt : ∀ p : Nat, p < g.verts.length + d.verts.length →
      (written (written io.mtrs 0 (List.replicate g.verts.length c)) g.verts.length (spread vertPer lens))[p]? =
        ((List.replicate g.verts.length c ++ spread vertPer lens)[p]?).map some := by
    intro p hp
    rw [e1, written_get (by simp [b2, hsum, h2.mtrs]), if_neg (by omega), if_pos (by simp [b2, hsum]; omega), Nat.sub_zero]
  have hfm := written_get (l := io.facetMarks) (off := g.surfs.length)
    (xs := List.replicate ((vertPer.length - 1) * (d.surfs.length / vertPer.length)) (0 : Int)) (by simp [h2.facetMarks]; omega)
  simp only [List.length_replicate] at hfm
  refine ⟨?_, ?_, ?_, ?_, ?_, ?_, ?_, ?_⟩
  · refine ⟨h2.points, ?_, h2.marks, h2.facets, ?_⟩
    · simp only
      rw [length_written (by rw [b2, hsum, hw, h2.mtrs]), hw, h2.mtrs]
    · simp only
      rw [length_written (by simp [h2.facetMarks]; omega), h2.facetMarks]
  · refine ⟨h3.point, h3.pointMark, ?_, h3.facet⟩
    intro p hp
    simp only
    rw [hfm, if_pos (by omega)]
    exact h3.facetMark p hp
  · intro p hp
    refine ⟨c, rfl, ?_⟩
    unfold HasMetric
    simp only
    rw [hmt p (by omega), List.getElem?_append_left (by simpa using hp)]
    simp [hp]
  · intro k j n x k1 k2 k3
    unfold HasMetric
    simp only
    have hsp := spread_get vertPer lens k j x n k1 k2 k3
    have hlt : (vertPer.take k).sum + j < d.verts.length := by
      have := (List.getElem?_eq_some_iff.mp hsp).1
      rw [b2, hsum] at this
      exact this
    rw [hmt _ (by omega), List.getElem?_append_right (by simp; omega), List.length_replicate,
      show g.verts.length + (vertPer.take k).sum + j - g.verts.length = (vertPer.take k).sum + j by omega, hsp]
    rfl
  · intro p hp
    simp only
    rw [hfm, if_neg (by omega), if_pos (by omega), Nat.add_sub_cancel_left]
    simp [hp]
  · intro p hp hp2
    simp only
    rw [hfm, if_neg (by omega), if_neg (by omega)]
    exact h4.facetMark p hp2
  · exact h4.point
  · exact h4.facet

/-- C100, the full claim for the metrics: each point of the geometry has the metric of its own curvature, or the one length where
both lengths are the same. -/
def C100_cfd_statement (K : Type) [Field K] [DecidableEq K] : Prop :=
  ∀ (g d : Mesh), Sound g → Sound d → ∀ (ringG ringD : Surf → List Int),
    (∀ f ∈ g.surfs, Order.orderedVerts g f.edgeind = .ok (ringG f)) → (∀ f ∈ d.surfs, Order.orderedVerts d f.edgeind = .ok (ringD f)) →
    ∀ (cg cd : Int → Fin 3 → K) (vertPer : List Nat) (lens : List K), vertPer.length = lens.length → 0 < vertPer.length →
    vertPer.sum = d.verts.length → ∀ (s0 s1 : K) (cm : List K), cm.length = g.verts.length →
    ∃ io, rsvs2cfd g d cg cd vertPer lens s0 s1 cm = .ok io ∧
      CfdRight g d cg cd ringG ringD vertPer lens (fun p => if s0 = s1 then some s0 else cm[p]?) io

/-- C100, where all points of the geometry are to have the same metric: the two lengths are the same, or all metrics from the
curvature are the same.  Missing: points with different metrics, see `C100_violated`.  The boxes and marks are right in all cases. -/
theorem C100_cfd_partial [Field K] [DecidableEq K] {g d : Mesh} (hg : Sound g) (hd : Sound d) {ringG ringD : Surf → List Int}
    (rg : ∀ f ∈ g.surfs, Order.orderedVerts g f.edgeind = .ok (ringG f))
    (rd : ∀ f ∈ d.surfs, Order.orderedVerts d f.edgeind = .ok (ringD f)) (cg cd : Int → Fin 3 → K)
    {vertPer : List Nat} {lens : List K} (hl : vertPer.length = lens.length) (h0 : 0 < vertPer.length)
    (hsum : vertPer.sum = d.verts.length) {s0 s1 : K} {cm : List K} (hcm : cm.length = g.verts.length) (hne : g.verts ≠ [])
    (hsame : s0 = s1 ∨ ∀ a ∈ cm, ∀ b ∈ cm, a = b) :
    ∃ io, rsvs2cfd g d cg cd vertPer lens s0 s1 cm = .ok io ∧
      CfdRight g d cg cd ringG ringD vertPer lens (fun p => if s0 = s1 then some s0 else cm[p]?) io := by
  by_cases e : s0 = s1
  · obtain ⟨io, k1, k2⟩ := cfd_of hg hd rg rd cg cd hl h0 hsum s0 s1 (cm := cm) (c := s0) (Or.inl ⟨e, rfl⟩)
    exact ⟨io, k1, { k2 with own := by simp only [if_pos e]; exact k2.own }⟩
  · have hall := hsame.resolve_left e
    cases hc : cm with
    | nil => rw [hc] at hcm; exact absurd (List.eq_nil_of_length_eq_zero hcm.symm) hne
    | cons c r =>
      obtain ⟨io, k1, k2⟩ := cfd_of hg hd rg rd cg cd hl h0 hsum s0 s1 (cm := c :: r) (c := c) (Or.inr ⟨e, rfl⟩)
      refine ⟨io, k1, { k2 with own := ?_ }⟩
      simp only [if_neg e]
      intro p hp
      obtain ⟨x, h1, h2⟩ := k2.own p hp
      have hp' : p < (c :: r).length := by rw [← hc, hcm]; exact hp
      refine ⟨x, ?_, h2⟩
      rw [List.getElem?_eq_getElem hp']
      simp only [Option.some.injEq] at h1
      subst h1
      exact congrArg some (hall (c :: r)[p] (by rw [hc]; exact List.getElem_mem hp') c (by rw [hc]; simp))

/-- The hypotheses of `C100_cfd_partial` hold for a tetrahedron in a domain of two parts. -/
example : Sound tetra ∧ (∀ f ∈ tetra.surfs, Order.orderedVerts tetra f.edgeind = .ok (ringOf tetra f)) ∧
    ([2, 2] : List Nat).length = ([1 / 2, 3] : List ℚ).length ∧ ([2, 2] : List Nat).sum = tetra.verts.length ∧ tetra.verts ≠ [] ∧
    ∃ io, rsvs2cfd (K := ℚ) tetra tetra (fun v => ![v, 0, 0]) (fun v => ![0, v, 0]) [2, 2] [1 / 2, 3] (1 / 50) (1 / 50) [1, 2, 3, 4] = .ok io ∧
      HasMetric io 5 (1 / 2) ∧ HasMetric io 6 3 := by
  refine ⟨tetra_sound, by decide +kernel, rfl, by decide +kernel, by decide +kernel, ?_⟩
  obtain ⟨io, k1, k2⟩ := C100_cfd_partial (K := ℚ) tetra_sound tetra_sound (ringG := ringOf tetra) (ringD := ringOf tetra) (by decide +kernel)
    (by decide +kernel) (fun v => ![v, 0, 0]) (fun v => ![0, v, 0]) (vertPer := [2, 2]) (lens := [1 / 2, 3]) rfl (by decide) (by decide +kernel)
    (s0 := 1 / 50) (s1 := 1 / 50) (cm := [1, 2, 3, 4]) (by decide +kernel) (by decide +kernel) (Or.inl rfl)
  exact ⟨io, k1, k2.box 0 1 2 _ rfl rfl (by decide), k2.box 1 0 2 _ rfl rfl (by decide)⟩

/-- C100 for all inputs with different lengths: all points of the geometry get the metric of the first. -/
theorem C100_first [Field K] [DecidableEq K] {g d : Mesh} (hg : Sound g) (hd : Sound d) {ringG ringD : Surf → List Int}
    (rg : ∀ f ∈ g.surfs, Order.orderedVerts g f.edgeind = .ok (ringG f))
    (rd : ∀ f ∈ d.surfs, Order.orderedVerts d f.edgeind = .ok (ringD f)) (cg cd : Int → Fin 3 → K)
    {vertPer : List Nat} {lens : List K} (hl : vertPer.length = lens.length) (h0 : 0 < vertPer.length)
    (hsum : vertPer.sum = d.verts.length) {s0 s1 : K} (hs : s0 ≠ s1) {cm : List K} {c : K} (hc : cm.head? = some c) :
    ∃ io, rsvs2cfd g d cg cd vertPer lens s0 s1 cm = .ok io ∧ ∀ p : Nat, p < g.verts.length → HasMetric io p c := by
  obtain ⟨io, k1, k2⟩ := cfd_of hg hd rg rd cg cd hl h0 hsum s0 s1 (Or.inr ⟨hs, hc⟩)
  refine ⟨io, k1, fun p hp => ?_⟩
  obtain ⟨x, h1, h2⟩ := k2.own p hp
  simp only [Option.some.injEq] at h1
  rw [h1]; exact h2

/-- C100 for grids: with a boundary that has a vertex the code always throws. -/
theorem C100_grids [Field K] {d b : Mesh} {ringD ringB : Surf → List Int}
    (rd : ∀ f ∈ d.surfs, Order.orderedVerts d f.edgeind = .ok (ringD f)) (rb : ∀ f ∈ b.surfs, Order.orderedVerts b f.edgeind = .ok (ringB f))
    (cd cb : Int → Fin 3 → K) {ld lb : List K} (hl : ld.length = d.verts.length) (hl' : lb.length = b.verts.length) (hb : b.verts ≠ []) :
    rsvsGrids d b cd cb ld lb = .error .throws := by
  unfold rsvsGrids
  rw [mesh2Tetgenio_eq rb rd cb cd]
  simp only [Except.bind]
  have hpos : 0 < b.verts.length := List.length_pos_of_ne_nil hb
  cases lb with
  | nil => simp at hl'; omega
  | cons x r =>
    have hst := fun io => specifyMetric_ok (K := K) (io := io) (start := 0) (n := b.verts.length)
    rw [show (0 : Int) = ((0 : Nat) : Int) from rfl, hst _ (by simp) (by simp)]
    simp only
    unfold specifyMetric
    rw [if_pos]
    simp
    omega

/-- The hypotheses of `C100_grids` hold for a tetrahedron in a tetrahedron. -/
example : (∀ f ∈ tetra.surfs, Order.orderedVerts tetra f.edgeind = .ok (ringOf tetra f)) ∧ ([1, 2, 3, 4] : List ℚ).length = tetra.verts.length ∧
    tetra.verts ≠ [] := ⟨by decide +kernel, by decide +kernel, by decide +kernel⟩

/-- C100: metrics given point by point are written at the points from `start` on and nowhere else; lists that do not fit the points are
refused. -/
theorem C100_individual {io : Io K} {start num : Int} {mtrs : List K} (h : io.mtrs.length = io.points.length) :
    (0 ≤ start → start + num ≤ (io.points.length : Int) → num = (mtrs.length : Int) →
      ∃ l, specifyIndividual io start num mtrs = .ok { io with mtrs := l } ∧ l.length = io.mtrs.length ∧
        (∀ i : Nat, i < mtrs.length → l[start.toNat + i]? = (mtrs[i]?).map some) ∧
        ∀ p : Nat, (p : Int) < start ∨ start + num ≤ (p : Int) → l[p]? = io.mtrs[p]?) ∧
    (¬ (0 ≤ start ∧ start + num ≤ (io.points.length : Int) ∧ num = (mtrs.length : Int)) → specifyIndividual io start num mtrs = .error .throws) := by
  refine ⟨fun h0 h1 h2 => ?_, fun hn => ?_⟩
  · have hb : start.toNat + mtrs.length ≤ io.mtrs.length := by omega
    refine ⟨written io.mtrs start.toNat mtrs, ?_, length_written hb, fun i hi => ?_, fun p hp => ?_⟩
    · unfold specifyIndividual
      rw [if_neg (by omega), if_neg (by omega), if_neg (by simpa using h2), fill_ok hb]
      rfl
    · rw [written_get hb, if_neg (by omega), if_pos (by omega)]
      congr 2
      omega
    · rw [written_get hb]
      split_ifs with a b
      · rfl
      · omega
      · rfl
  · unfold specifyIndividual
    split_ifs with a b c
    · rfl
    · rfl
    · rfl
    · exact absurd ⟨by omega, by omega, by simpa using c⟩ hn

/-- The hypotheses of `C100_individual` hold for two metrics from the second of three points on. -/
example : ∃ l, specifyIndividual (K := ℚ) ⟨[none, none, none], [some 0, some 0, none], [], [], []⟩ 1 2 [5, 7] = .ok ⟨[none, none, none], l, [], [], []⟩ ∧
    l = [some 0, some 5, some 7] := ⟨_, rfl, rfl⟩

/-- C100 is violated by the code: with different lengths the second point of a tetrahedron gets the metric of the first. -/
theorem C100_violated : ¬ C100_cfd_statement ℚ := by
  intro h
  obtain ⟨io, h1, h2⟩ := h tetra tetra tetra_sound tetra_sound (ringOf tetra) (ringOf tetra) (by decide +kernel) (by decide +kernel)
    (fun _ => 0) (fun _ => 0) [4] [1] rfl (by decide) (by decide +kernel) (1 / 50) (1 / 200) [1, 2, 3, 4] (by decide +kernel)
  obtain ⟨io', k1, k2⟩ := C100_first (K := ℚ) tetra_sound tetra_sound (ringG := ringOf tetra) (ringD := ringOf tetra) (by decide +kernel)
    (by decide +kernel) (fun _ => 0) (fun _ => 0) (vertPer := [4]) (lens := [1]) rfl (by decide) (by decide +kernel) (s0 := 1 / 50)
    (s1 := 1 / 200) (by norm_num) (cm := [1, 2, 3, 4]) rfl
  rw [h1] at k1
  simp only [Except.ok.injEq] at k1
  subst k1
  have hv : 1 < tetra.verts.length := by decide +kernel
  obtain ⟨x, e1, e2⟩ := h2.own 1 hv
  have e3 := k2 1 hv
  rw [if_neg (by norm_num)] at e1
  simp only [List.getElem?_cons_succ, List.getElem?_cons_zero, Option.some.injEq] at e1
  unfold HasMetric at e2 e3
  rw [e2] at e3
  simp only [Option.some.injEq] at e3
  rw [← e1] at e3
  norm_num at e3

end RSVS.Props
