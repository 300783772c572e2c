import Verif.Lemmas.SnakeJoin
import Verif.Props.Mesh

/-!
# Properties of joined snakes and of merged snaxels: C40, C41, C87
-/

namespace RSVS.Props

open RSVS.Spec RSVS.Mesh

variable {K : Type}

/-! ### C40 -/

private theorem inside_zip {f : Bool → Bool → Bool} {a b r : Snake K} {P : Bool → Bool → Bool}
    (hl : a.vertIn.length = b.vertIn.length) (hv : r.vertIn = List.zipWith f a.vertIn b.vertIn)
    (hr : r.flipped = a.flipped) (hf : ∀ x y, (f x y ^^ a.flipped) = P (x ^^ a.flipped) (y ^^ b.flipped)) (i : Nat) :
    InsideAt r i ↔ ∃ x y, a.vertIn[i]? = some x ∧ b.vertIn[i]? = some y ∧
      P (x ^^ a.flipped) (y ^^ b.flipped) = true := by
  unfold InsideAt
  rw [hv, hr, List.getElem?_zipWith]
  by_cases hi : i < a.vertIn.length
  · rw [List.getElem?_eq_getElem hi, List.getElem?_eq_getElem (hl ▸ hi)]
    simp only [Option.some.injEq]
    constructor
    · rintro ⟨c, rfl, hc⟩
      exact ⟨_, _, rfl, rfl, by rw [← hf]; exact hc⟩
    · rintro ⟨x, y, rfl, rfl, hc⟩
      exact ⟨_, rfl, by rw [hf]; exact hc⟩
  · rw [List.getElem?_eq_none (by omega), List.getElem?_eq_none (by omega)]
    simp

/-- C40: joining keeps the flip state of the receiver; the vertices inside are those inside either snake when no vertex is
inside both, and those inside both otherwise. -/
theorem C40_join (a b : Snake K) (hb : a.base = b.base) (hl : a.vertIn.length = b.vertIn.length) :
    ∃ r, a.concatenate b 0 = .ok r ∧ r.flipped = a.flipped ∧ r.vertIn.length = a.vertIn.length ∧
      (Independent a b → ∀ i, InsideAt r i ↔ InsideAt a i ∨ InsideAt b i) ∧
      (¬ Independent a b → ∀ i, InsideAt r i ↔ InsideAt a i ∧ InsideAt b i) := by
  obtain ⟨c, hc, hc'⟩ := compareInternal_eq (tf := a.flipped) (of_ := b.flipped) hl
  have hind : c = true ↔ Independent a b := by
    rw [hc']
    constructor
    · rintro h i ⟨⟨x, hx, hx'⟩, ⟨y, hy, hy'⟩⟩
      exact h i x y hx hy ⟨hx', hy'⟩
    · rintro h i x y hx hy ⟨h1, h2⟩
      exact h i ⟨⟨x, hx, h1⟩, ⟨y, hy, h2⟩⟩
  have hsome : ∀ i : Nat, (∃ x, a.vertIn[i]? = some x) ↔ ∃ y, b.vertIn[i]? = some y := by
    intro i
    simp only [List.getElem?_eq_some_iff]
    constructor
    · rintro ⟨-, h, -⟩; exact ⟨_, hl ▸ h, rfl⟩
    · rintro ⟨-, h, -⟩; exact ⟨_, hl ▸ h, rfl⟩
  unfold Snake.concatenate
  rw [if_pos hb, if_pos rfl, hc]
  simp only [Except.bind]
  cases c with
  | true =>
    simp only [if_true]
    rw [joinOr_eq hl]
    refine ⟨_, rfl, rfl, by simp [hl], fun _ i => ?_, fun h => absurd (hind.mp rfl) h⟩
    refine Iff.trans (inside_zip (a := a) (b := b) (f := fun x y => ((x ^^ a.flipped) || (y ^^ b.flipped)) ^^ a.flipped)
      (P := fun x y => x || y) hl (by rfl) (by rfl) (by simp) i) ?_
    constructor
    · rintro ⟨x, y, hx, hy, h⟩
      rcases Bool.or_eq_true _ _ ▸ h with h | h
      · exact .inl ⟨x, hx, h⟩
      · exact .inr ⟨y, hy, h⟩
    · rintro (⟨x, hx, h⟩ | ⟨y, hy, h⟩)
      · obtain ⟨y, hy⟩ := (hsome i).mp ⟨x, hx⟩
        exact ⟨x, y, hx, hy, by simp only [h, Bool.true_or]⟩
      · obtain ⟨x, hx⟩ := (hsome i).mpr ⟨y, hy⟩
        exact ⟨x, y, hx, hy, by simp only [h, Bool.or_true]⟩
  | false =>
    simp only [Bool.false_eq_true, if_false]
    rw [joinAnd_eq hl]
    refine ⟨_, rfl, rfl, by simp [hl], fun h => absurd (hind.mpr h) (by simp), fun _ i => ?_⟩
    refine Iff.trans (inside_zip (a := a) (b := b) (f := fun x y => ((x ^^ a.flipped) && (y ^^ b.flipped)) ^^ a.flipped)
      (P := fun x y => x && y) hl (by rfl) (by rfl) (by simp) i) ?_
    constructor
    · rintro ⟨x, y, hx, hy, h⟩
      rw [Bool.and_eq_true] at h
      exact ⟨⟨x, hx, h.1⟩, ⟨y, hy, h.2⟩⟩
    · rintro ⟨⟨x, hx, h⟩, ⟨y, hy, h'⟩⟩
      exact ⟨x, y, hx, hy, by simp only [h, h', Bool.and_self]⟩

/-- C40: a snake that is stated to be inside is intersected, one stated to be outside is united. -/
theorem C40_join_stated (a b : Snake K) (n : Int) (hn : n ≠ 0) (hb : a.base = b.base)
    (hl : a.vertIn.length = b.vertIn.length) :
    ∃ r, a.concatenate b n = .ok r ∧ r.flipped = a.flipped ∧
      (n < 0 → ∀ i, InsideAt r i ↔ InsideAt a i ∨ InsideAt b i) ∧
      (0 < n → ∀ i, InsideAt r i ↔ InsideAt a i ∧ InsideAt b i) := by
  have hsome : ∀ i : Nat, (∃ x, a.vertIn[i]? = some x) ↔ ∃ y, b.vertIn[i]? = some y := by
    intro i
    simp only [List.getElem?_eq_some_iff]
    constructor
    · rintro ⟨-, h, -⟩; exact ⟨_, hl ▸ h, rfl⟩
    · rintro ⟨-, h, -⟩; exact ⟨_, hl ▸ h, rfl⟩
  unfold Snake.concatenate
  rw [if_pos hb, if_neg hn]
  simp only [Except.bind]
  by_cases hle : n ≤ 0
  · simp only [hle, decide_true, if_true]
    rw [joinOr_eq hl]
    refine ⟨_, rfl, rfl, fun _ i => ?_, fun h => absurd h (by omega)⟩
    refine Iff.trans (inside_zip (a := a) (b := b) (f := fun x y => ((x ^^ a.flipped) || (y ^^ b.flipped)) ^^ a.flipped)
      (P := fun x y => x || y) hl (by rfl) (by rfl) (by simp) i) ?_
    constructor
    · rintro ⟨x, y, hx, hy, h⟩
      rcases Bool.or_eq_true _ _ ▸ h with h | h
      · exact .inl ⟨x, hx, h⟩
      · exact .inr ⟨y, hy, h⟩
    · rintro (⟨x, hx, h⟩ | ⟨y, hy, h⟩)
      · obtain ⟨y, hy⟩ := (hsome i).mp ⟨x, hx⟩
        exact ⟨x, y, hx, hy, by simp only [h, Bool.true_or]⟩
      · obtain ⟨x, hx⟩ := (hsome i).mpr ⟨y, hy⟩
        exact ⟨x, y, hx, hy, by simp only [h, Bool.or_true]⟩
  · simp only [hle, decide_false, Bool.false_eq_true, if_false]
    rw [joinAnd_eq hl]
    refine ⟨_, rfl, rfl, fun h => absurd h (by omega), fun _ i => ?_⟩
    refine Iff.trans (inside_zip (a := a) (b := b) (f := fun x y => ((x ^^ a.flipped) && (y ^^ b.flipped)) ^^ a.flipped)
      (P := fun x y => x && y) hl (by rfl) (by rfl) (by simp) i) ?_
    constructor
    · rintro ⟨x, y, hx, hy, h⟩
      rw [Bool.and_eq_true] at h
      exact ⟨⟨x, hx, h.1⟩, ⟨y, hy, h.2⟩⟩
    · rintro ⟨⟨x, hx, h⟩, ⟨y, hy, h'⟩⟩
      exact ⟨x, y, hx, hy, by simp only [h, h', Bool.and_self]⟩

/-- C40: snakes on different meshes are not joined. -/
theorem C40_other_mesh (a b : Snake K) (n : Int) (hb : a.base ≠ b.base) : a.concatenate b n = .error .throws := by
  unfold Snake.concatenate
  rw [if_neg hb]

/-- Four snaxels on a tetrahedron: three of them touch on edge 7, one is alone on edge 8. -/
def touching : Snake ℚ where
  snaxs := [⟨1, 1/2, 1, 1, 2, 7, 1⟩, ⟨2, 1/2, -1, 1, 2, 7, 2⟩, ⟨3, 1/2, -2, 1, 2, 7, 3⟩, ⟨4, 1/3, 1, 2, 3, 8, 1⟩]
  snaxedges := [⟨1, 1⟩, ⟨2, 1⟩, ⟨3, 1⟩, ⟨4, 1⟩, ⟨5, 2⟩, ⟨6, 2⟩]
  snaxsurfs := [⟨1, 1⟩, ⟨2, 1⟩, ⟨3, 1⟩, ⟨4, 1⟩]
  conn := tetra
  base := 0
  vertIn := [true, false, false, true]
  flipped := false

/-- A flipped snake with vertices 2 and 3 (from 0) inside. -/
def other : Snake ℚ := { touching with vertIn := [true, true, false, false], flipped := true }

/-- A flipped snake with vertex 1 (from 0) inside. -/
def apart : Snake ℚ := { touching with vertIn := [true, false, true, true], flipped := true }

example : (touching.concatenate other 0).map Snake.vertIn = .ok [false, false, false, true] ∧
    ¬ Independent touching other := by
  refine ⟨by decide +kernel, fun h => h 3 ⟨⟨true, rfl, rfl⟩, ⟨false, rfl, rfl⟩⟩⟩

example : (touching.concatenate apart 0).map Snake.vertIn = .ok [true, true, false, true] := by decide +kernel

/-! ### C41 -/

/-- C41: merging the contacts that the detection reports, and any arrivals at the ends of edges, neither throws nor stops
short; a snaxel is deleted only when it is merged into one that it touches and that is kept; what refers to it refers to
that one afterwards; no edge refers to a deleted snaxel. -/
theorem C41_merge [Field K] [LinearOrder K] (eps : K) (s : Snake K) (subs : Int → List Nat) (arrived : Impacts)
    (hs : Sound s.conn) (h2 : TwoVerts s.conn) (hl : NoLoops s.conn) (ho : ListedOnce s.conn) (hi : InStep s)
    (hsub : ListsEdges s.snaxs subs) (ha : ∀ p ∈ arrived, p.2 ≤ 0) :
    ∃ impacts s' into, snaxImpactDetection eps s.snaxs subs = .ok impacts ∧
      mergeAllContactVertices s (impacts ++ arrived) = .ok s' ∧ MergedInto (impacts ++ arrived) s s' into ∧
      Sound s'.conn ∧ ∀ a, HasVert s.conn a → ¬ HasVert s'.conn a →
        HasVert s'.conn (into a) ∧ ∀ e, ¬ EdgeVert s'.conn e a := by
  have hnd : (s.snaxs.map Snax.index).Nodup := by rw [hi.verts]; exact hs.unique.verts
  obtain ⟨L, F, h1, h3, h4, h5⟩ := detection_blocks eps hnd hsub
  have h3' := h3.append (blocks_nonpos ha)
  rw [List.append_nil] at h3'
  obtain ⟨s', into, e1, e2, e3, -⟩ := merge_all hs h2 hl ho hi h3' h4 h5
  refine ⟨L, s', into, h1, e1, e2, e3, ?_⟩
  have hv : ∀ x, HasVert s'.conn x ↔ HasVert s.conn x ∧ into x = x := by
    intro x
    have := e2.verts
    have h6 : ∀ m : Mesh, HasVert m x ↔ x ∈ m.verts.map Vert.index := by intro m; simp [HasVert]
    rw [h6, this, h6, List.mem_filter]
    simp
  intro a h6 h7
  have hne : into a ≠ a := fun h => h7 ((hv a).mpr ⟨h6, h⟩)
  obtain ⟨-, -, h8, h9⟩ := e2.reported a hne
  refine ⟨(hv _).mpr ⟨h8, h9⟩, fun e he => ?_⟩
  obtain ⟨u, -, hu⟩ := (e2.edgeVert e a).mp he
  by_cases hu' : into u = u
  · exact hne (by rw [← hu, hu', hu'])
  · exact hne (hu ▸ (e2.reported u hu').2.2.2)

/-- The positions of the snaxels of `touching`, listed with the middle one first. -/
def touchingSubs (e : Int) : List Nat := if e = 7 then [1, 0, 2] else if e = 8 then [3] else []

theorem touching_inStep : InStep touching := ⟨rfl, rfl, rfl⟩

theorem touching_subs : ListsEdges touching.snaxs touchingSubs := by
  intro e
  unfold touchingSubs
  have hget : ∀ (i : Nat) (a : Snax ℚ), touching.snaxs[i]? = some a → (a.edgeind = 7 ∧ i < 3) ∨ (a.edgeind = 8 ∧ i = 3) := by
    intro i a h
    match i, h with
    | 0, h => cases h; exact .inl ⟨rfl, by decide⟩
    | 1, h => cases h; exact .inl ⟨rfl, by decide⟩
    | 2, h => cases h; exact .inl ⟨rfl, by decide⟩
    | 3, h => cases h; exact .inr ⟨rfl, rfl⟩
  by_cases h7 : e = 7
  · subst h7
    refine ⟨by decide, fun i => ⟨fun h => ?_, ?_⟩⟩
    · simp only [if_true, List.mem_cons, List.not_mem_nil, or_false] at h
      rcases h with rfl | rfl | rfl <;> exact ⟨_, rfl, rfl⟩
    · rintro ⟨a, ha, he⟩
      rcases hget i a ha with ⟨-, h⟩ | ⟨h, -⟩
      · simp; omega
      · rw [he] at h; exact absurd h (by decide)
  · by_cases h8 : e = 8
    · subst h8
      refine ⟨by decide, fun i => ⟨fun h => ?_, ?_⟩⟩
      · have h : i = 3 := by simpa using h
        subst h; exact ⟨_, rfl, rfl⟩
      · rintro ⟨a, ha, he⟩
        rcases hget i a ha with ⟨h, -⟩ | ⟨-, h⟩
        · rw [he] at h; exact absurd h (by decide)
        · simp [h]
    · rw [if_neg h7, if_neg h8]
      refine ⟨List.nodup_nil, fun i => ⟨by simp, ?_⟩⟩
      rintro ⟨a, ha, he⟩
      rcases hget i a ha with ⟨h, -⟩ | ⟨h, -⟩
      · exact absurd (he.symm.trans h) h7
      · exact absurd (he.symm.trans h) h8

theorem tetra_once : NoLoops tetra ∧ ListedOnce tetra := by
  refine ⟨fun e he x hx => ?_, by unfold ListedOnce; decide +kernel⟩
  have : ∀ e ∈ tetra.edges, e.vertind.Nodup := by decide +kernel
  have := this e he
  rw [hx] at this
  simp at this

/-- The hypotheses of C41 hold for the contacts of three snaxels in a chain. -/
example : ∃ impacts s' into, snaxImpactDetection (1/1000) touching.snaxs touchingSubs = .ok impacts ∧
    mergeAllContactVertices touching (impacts ++ [(4, -1)]) = .ok s' ∧
    MergedInto (impacts ++ [(4, -1)]) touching s' into :=
  have ⟨i, s', f, h1, h2, h3, _⟩ := C41_merge (1/1000) touching touchingSubs [(4, -1)] tetra_sound
    (by unfold TwoVerts; decide +kernel) tetra_once.1 tetra_once.2 touching_inStep touching_subs (by simp)
  ⟨i, s', f, h1, h2, h3⟩

/-- The middle one is merged into the first; the third is not merged with what is deleted. -/
example : ((snaxImpactDetection (1/1000) touching.snaxs touchingSubs).bind fun i =>
      (mergeAllContactVertices touching i).map fun s => (i, s.snaxs.map Snax.index, s.conn.edges.map Edge.vertind)) =
    .ok ([(2, 1), (1, 2), (2, 3), (3, 2)], [1, 3, 4], [[1, 1], [1, 3], [1, 4], [1, 3], [1, 4], [3, 4]]) := by
  decide +kernel

/-! ### C87 -/

/-- C87: joining a snake made compatible keeps the layers in step and the connectivity sound. -/
theorem C87_join (a b : Snake K) (n : Int) (hb : a.base = b.base) (hl : a.vertIn.length = b.vertIn.length)
    (ha : InStep a) (hb' : InStep b) (sa : Sound a.conn) (sb : Sound b.conn) :
    ∃ r, a.concatenate (a.makeCompatible b) n = .ok r ∧ InStep r ∧ Sound r.conn ∧
      (r.snaxs.map Snax.index).Nodup ∧ (r.snaxedges.map SnaxEdge.index).Nodup ∧
      (r.snaxsurfs.map SnaxSurf.index).Nodup ∧
      r.snaxs.length = a.snaxs.length + b.snaxs.length := by
  have key : ∀ r : Snake K, r.snaxs = a.snaxs ++ (a.makeCompatible b).snaxs →
      r.snaxedges = a.snaxedges ++ (a.makeCompatible b).snaxedges →
      r.snaxsurfs = a.snaxsurfs ++ (a.makeCompatible b).snaxsurfs →
      r.conn = a.conn.concatenate (a.conn.makeCompatible b.conn) →
      InStep r ∧ Sound r.conn ∧ (r.snaxs.map Snax.index).Nodup ∧ (r.snaxedges.map SnaxEdge.index).Nodup ∧
      (r.snaxsurfs.map SnaxSurf.index).Nodup ∧ r.snaxs.length = a.snaxs.length + b.snaxs.length := by
    intro r h1 h2 h3 h4
    have hs : Sound r.conn := by rw [h4]; exact C11_concatenate_sound _ _ sa sb
    have hin : InStep r := by
      refine ⟨?_, ?_, ?_⟩
      · rw [h1, h4]
        simp only [Mesh.concatenate, Mesh.makeCompatible, Mesh.changeIndices, Snake.makeCompatible,
          Snake.changeIndices, List.map_append, List.map_map, ha.verts]
        congr 1
        have := congrArg (List.map (· + maxIdx Vert.index a.conn.verts)) hb'.verts
        simpa [List.map_map, Function.comp_def, Vert.shift] using this
      · rw [h2, h4]
        simp only [Mesh.concatenate, Mesh.makeCompatible, Mesh.changeIndices, Snake.makeCompatible,
          Snake.changeIndices, List.map_append, List.map_map, ha.edges]
        congr 1
        have := congrArg (List.map (· + maxIdx Edge.index a.conn.edges)) hb'.edges
        simpa [List.map_map, Function.comp_def, Edge.shift] using this
      · rw [h3, h4]
        simp only [Mesh.concatenate, Mesh.makeCompatible, Mesh.changeIndices, Snake.makeCompatible,
          Snake.changeIndices, List.map_append, List.map_map, ha.surfs]
        congr 1
        have := congrArg (List.map (· + maxIdx Surf.index a.conn.surfs)) hb'.surfs
        simpa [List.map_map, Function.comp_def, Surf.shift] using this
    refine ⟨hin, hs, by rw [hin.verts]; exact hs.unique.verts, by rw [hin.edges]; exact hs.unique.edges,
      by rw [hin.surfs]; exact hs.unique.surfs, ?_⟩
    rw [h1]
    simp [Snake.makeCompatible, Snake.changeIndices]
  obtain ⟨c, hc, -⟩ := compareInternal_eq (tf := a.flipped) (of_ := b.flipped) hl
  unfold Snake.concatenate
  rw [if_pos (show a.base = (a.makeCompatible b).base from hb)]
  have hsel : ∃ c, (if n = 0 then Snake.compareInternal a.flipped (a.makeCompatible b).flipped a.vertIn
      (a.makeCompatible b).vertIn else .ok (decide (n ≤ 0))) = .ok c := by
    by_cases h0 : n = 0
    · rw [if_pos h0]; exact ⟨c, hc⟩
    · rw [if_neg h0]; exact ⟨_, rfl⟩
  obtain ⟨c, hc⟩ := hsel
  rw [hc]
  simp only [Except.bind]
  have hl' : a.vertIn.length = (a.makeCompatible b).vertIn.length := hl
  cases c with
  | true =>
    simp only [if_true]
    rw [joinOr_eq hl']
    exact ⟨_, rfl, key _ rfl rfl rfl rfl⟩
  | false =>
    simp only [Bool.false_eq_true, if_false]
    rw [joinAnd_eq hl']
    exact ⟨_, rfl, key _ rfl rfl rfl rfl⟩

example : ∃ r, touching.concatenate (touching.makeCompatible other) 0 = .ok r ∧ InStep r ∧ Sound r.conn :=
  have ⟨r, h1, h2, h3, _⟩ := C87_join touching other 0 rfl rfl touching_inStep ⟨rfl, rfl, rfl⟩ tetra_sound tetra_sound
  ⟨r, h1, h2, h3⟩

example : (touching.concatenate (touching.makeCompatible other) 0).map (fun r => r.snaxs.map Snax.index) =
    .ok [1, 2, 3, 4, 5, 6, 7, 8] := by decide +kernel

/-- C87: merging the contacts keeps the layers in step. -/
theorem C87_merge [Field K] [LinearOrder K] (eps : K) (s : Snake K) (subs : Int → List Nat) (arrived : Impacts)
    (hs : Sound s.conn) (h2 : TwoVerts s.conn) (hl : NoLoops s.conn) (ho : ListedOnce s.conn) (hi : InStep s)
    (hsub : ListsEdges s.snaxs subs) (ha : ∀ p ∈ arrived, p.2 ≤ 0) :
    ∃ impacts s', snaxImpactDetection eps s.snaxs subs = .ok impacts ∧
      mergeAllContactVertices s (impacts ++ arrived) = .ok s' ∧ InStep s' := by
  have hnd : (s.snaxs.map Snax.index).Nodup := by rw [hi.verts]; exact hs.unique.verts
  obtain ⟨L, F, h1, h3, h4, h5⟩ := detection_blocks eps hnd hsub
  have h3' := h3.append (blocks_nonpos ha)
  rw [List.append_nil] at h3'
  obtain ⟨s', into, e1, -, -, e4⟩ := merge_all hs h2 hl ho hi h3' h4 h5
  exact ⟨L, s', h1, e1, e4⟩

example : ∃ impacts s', snaxImpactDetection (1/1000) touching.snaxs touchingSubs = .ok impacts ∧
    mergeAllContactVertices touching (impacts ++ []) = .ok s' ∧ InStep s' :=
  C87_merge (1/1000) touching touchingSubs [] tetra_sound (by unfold TwoVerts; decide +kernel) tetra_once.1
    tetra_once.2 touching_inStep touching_subs (by simp)

end RSVS.Props
