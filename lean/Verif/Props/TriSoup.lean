import Verif.Lemmas.TriSoup

/-!
# C139: triangles made into a mesh
-/

namespace RSVS.TriSoup

open RSVS.Mesh RSVS.Spec RSVS.Triang

/-- **C139**, the part that holds: triangles with known corners, two or more cells, and at least one of them among the constraints, are made into a sound mesh of
separate triangles, if the constraints in `constrMap` exist.
Missing: triangles inside one cell (`C139_inside_violated`), and the sides of triangles on the outside of the grid (`C139_outside_violated`). -/
theorem C139_soup_partial {g : Points} {find : Int → List Int} {constr : List (Int × Int)} {nVolu : Nat} {ts : List Triangle} (hf : HashOf constr find)
    (hn : ∀ p ∈ constr, 0 ≤ p.2 ∧ p.2 < nVolu) (hu : ∀ t ∈ ts, Usable g constr t) :
    ∃ m, triarrayToMesh g find nVolu ts = .ok m ∧ Sound m ∧ Separate g constr ts m := by
  obtain ⟨v0, hv0⟩ : ∃ v0 : List Volu, v0 = (List.range nVolu).map fun (k : Nat) => { index := (k : Int) + 1, surfind := [] } := ⟨_, rfl⟩
  have hv0i : v0.map Volu.index = (List.range nVolu).map fun (k : Nat) => (k : Int) + 1 := by rw [hv0, List.map_map]; rfl
  have hv0n : (v0.map Volu.index).Nodup := by
    rw [hv0i]
    exact List.nodup_range.map fun a b h => by simpa using h
  have hv0m : ∀ c, c ∈ v0.map Volu.index ↔ 1 ≤ c ∧ c ≤ nVolu := by
    intro c
    rw [hv0i, List.mem_map]
    constructor
    · rintro ⟨k, hk, rfl⟩
      have := List.mem_range.1 hk
      omega
    · intro h
      exact ⟨(c - 1).toNat, List.mem_range.2 (by omega), by omega⟩
  have hv0l : ∀ c s, ¬ Lists v0 c s := by
    rintro c s ⟨x, hx, -, h⟩
    rw [hv0] at hx
    obtain ⟨k, -, rfl⟩ := List.mem_map.1 hx
    simp at h
  obtain ⟨ss, vs, r1, r2, r3, r4, r5⟩ := surfLoop_ok (find := find) ts 0 v0 hv0n fun t ht =>
    (soupCells_ok hf (hu t ht).cells.2 (hu t ht).factors).imp fun _ h => h.1
  obtain ⟨xs, x1, x2, x3⟩ := coords_ok ts hu
  obtain ⟨m, hm⟩ : ∃ m : Mesh, m =
      { verts := xs.zipIdx.map fun (x : List ℚ × Nat) => soupVert x.2 x.1
        edges := (List.range (ts.length * 3)).map soupEdge
        surfs := ss
        volus := vs } := ⟨_, rfl⟩
  have hrun : triarrayToMesh g find nVolu ts = .ok m := by
    unfold triarrayToMesh
    rw [if_neg, ← hv0, r1]
    · simp only [Except.bind]
      rw [x1, hm]
      rfl
    · intro h
      obtain ⟨t, ht, h⟩ := List.any_eq_true.1 h
      have := (hu t ht).cells.1
      simp at h
      omega
  -- the elements
  have hverts : ∀ v : Vert, v ∈ m.verts ↔ ∃ k x, xs[k]? = some x ∧ v = soupVert k x := by
    intro v
    rw [hm]
    simp only [List.mem_map, Prod.exists, List.mem_zipIdx_iff_getElem?]
    constructor
    · rintro ⟨a, b, h, rfl⟩
      exact ⟨b, a, h, rfl⟩
    · rintro ⟨k, x, h, rfl⟩
      exact ⟨x, k, h, rfl⟩
  have hedges : ∀ e : Edge, e ∈ m.edges ↔ ∃ k, k < ts.length * 3 ∧ e = soupEdge k := by
    intro e
    rw [hm]
    simp only [List.mem_map, List.mem_range]
    exact ⟨fun ⟨k, h1, h2⟩ => ⟨k, h1, h2.symm⟩, fun ⟨k, h1, h2⟩ => ⟨k, h1, h2.symm⟩⟩
  have hsurfs : ∀ f : Surf, f ∈ m.surfs ↔ ∃ (i : Nat) (t : Triangle) (cells : List Int), ts[i]? = some t ∧ soupCells find t = .ok cells ∧ f = soupSurf i cells := by
    intro f
    have hms : m.surfs = ss := by rw [hm]
    rw [hms]
    constructor
    · intro h
      obtain ⟨i, hi⟩ := List.mem_iff_getElem?.1 h
      have hlt : i < ts.length := by rw [← r2]; exact (List.getElem?_eq_some_iff.1 hi).1
      obtain ⟨cells, q1, q2⟩ := r4 i _ (List.getElem?_eq_getElem hlt)
      rw [hi, Nat.zero_add] at q2
      exact ⟨i, _, cells, List.getElem?_eq_getElem hlt, q1, Option.some.inj q2⟩
    · rintro ⟨i, t, cells, q1, q2, rfl⟩
      obtain ⟨cells', q3, q4⟩ := r4 i t q1
      rw [q2] at q3
      cases q3
      rw [Nat.zero_add] at q4
      exact List.mem_of_getElem? q4
  have hxlt : ∀ k : Nat, (∃ x, xs[k]? = some x) ↔ k < ts.length * 3 := by
    intro k
    rw [← x2]
    exact ⟨fun ⟨x, h⟩ => (List.getElem?_eq_some_iff.1 h).1, fun h => ⟨_, List.getElem?_eq_getElem h⟩⟩
  -- the relations
  have HV : ∀ v, HasVert m v ↔ 1 ≤ v ∧ v ≤ ts.length * 3 := by
    intro v
    constructor
    · rintro ⟨x, hx, rfl⟩
      obtain ⟨k, y, hk, rfl⟩ := (hverts x).1 hx
      have := (hxlt k).1 ⟨y, hk⟩
      simp only [soupVert]
      omega
    · intro h
      obtain ⟨y, hy⟩ := (hxlt (v - 1).toNat).2 (by omega)
      exact ⟨_, (hverts _).2 ⟨_, y, hy, rfl⟩, by simp only [soupVert]; omega⟩
  have HE : ∀ e, HasEdge m e ↔ 1 ≤ e ∧ e ≤ ts.length * 3 := by
    intro e
    constructor
    · rintro ⟨x, hx, rfl⟩
      obtain ⟨k, hk, rfl⟩ := (hedges x).1 hx
      simp only [soupEdge]
      omega
    · intro h
      exact ⟨_, (hedges _).2 ⟨(e - 1).toNat, by omega, rfl⟩, by simp only [soupEdge]; omega⟩
  have HS : ∀ s, HasSurf m s ↔ 1 ≤ s ∧ s ≤ ts.length := by
    intro s
    constructor
    · rintro ⟨x, hx, rfl⟩
      obtain ⟨i, t, cells, q1, -, rfl⟩ := (hsurfs x).1 hx
      have := (List.getElem?_eq_some_iff.1 q1).1
      simp only [soupSurf]
      omega
    · intro h
      have hlt : (s - 1).toNat < ts.length := by omega
      obtain ⟨cells, q1, -⟩ := r4 _ _ (List.getElem?_eq_getElem hlt)
      exact ⟨_, (hsurfs _).2 ⟨_, _, cells, List.getElem?_eq_getElem hlt, q1, rfl⟩, by simp only [soupSurf]; omega⟩
  have HC : ∀ c, HasVolu m c ↔ 1 ≤ c ∧ c ≤ nVolu := by
    intro c
    rw [← hv0m, ← r3, List.mem_map]
    have : m.volus = vs := by rw [hm]
    unfold HasVolu
    rw [this]
  have VE : ∀ v e, VertEdge m v e ↔ ∃ k : Nat, k < ts.length * 3 ∧ v = k + 1 ∧
      (e = ((k / 3 * 3 + 1 + k % 3 : Nat) : Int) ∨ e = ((k / 3 * 3 + 1 + (k % 3 + 3 - 1) % 3 : Nat) : Int)) := by
    intro v e
    constructor
    · rintro ⟨x, hx, rfl, he⟩
      obtain ⟨k, y, hk, rfl⟩ := (hverts x).1 hx
      simp only [soupVert, List.mem_cons, List.not_mem_nil, or_false] at he
      exact ⟨k, (hxlt k).1 ⟨y, hk⟩, rfl, he⟩
    · rintro ⟨k, hk, rfl, he⟩
      obtain ⟨y, hy⟩ := (hxlt k).2 hk
      refine ⟨_, (hverts _).2 ⟨k, y, hy, rfl⟩, rfl, ?_⟩
      simpa only [soupVert, List.mem_cons, List.not_mem_nil, or_false] using he
  have EV : ∀ e v, EdgeVert m e v ↔ ∃ k : Nat, k < ts.length * 3 ∧ e = k + 1 ∧
      (v = ((k / 3 * 3 + 1 + k % 3 : Nat) : Int) ∨ v = ((k / 3 * 3 + 1 + (k % 3 + 1) % 3 : Nat) : Int)) := by
    intro e v
    constructor
    · rintro ⟨x, hx, rfl, he⟩
      obtain ⟨k, hk, rfl⟩ := (hedges x).1 hx
      simp only [soupEdge, List.mem_cons, List.not_mem_nil, or_false] at he
      exact ⟨k, hk, rfl, he⟩
    · rintro ⟨k, hk, rfl, he⟩
      refine ⟨_, (hedges _).2 ⟨k, hk, rfl⟩, rfl, ?_⟩
      simpa only [soupEdge, List.mem_cons, List.not_mem_nil, or_false] using he
  have ES : ∀ e s, EdgeSurf m e s ↔ ∃ k : Nat, k < ts.length * 3 ∧ e = k + 1 ∧ s = ((k / 3 + 1 : Nat) : Int) := by
    intro e s
    constructor
    · rintro ⟨x, hx, rfl, he⟩
      obtain ⟨k, hk, rfl⟩ := (hedges x).1 hx
      simp only [soupEdge, List.mem_cons, List.not_mem_nil, or_false] at he
      exact ⟨k, hk, rfl, he⟩
    · rintro ⟨k, hk, rfl, he⟩
      refine ⟨_, (hedges _).2 ⟨k, hk, rfl⟩, rfl, ?_⟩
      simpa only [soupEdge, List.mem_cons, List.not_mem_nil, or_false] using he
  have SE : ∀ s e, SurfEdge m s e ↔ ∃ i : Nat, i < ts.length ∧ s = i + 1 ∧ (e = (i : Int) * 3 + 1 ∨ e = (i : Int) * 3 + 2 ∨ e = (i : Int) * 3 + 3) := by
    intro s e
    constructor
    · rintro ⟨x, hx, rfl, he⟩
      obtain ⟨i, t, cells, q1, -, rfl⟩ := (hsurfs x).1 hx
      simp only [soupSurf, List.mem_cons, List.not_mem_nil, or_false] at he
      exact ⟨i, (List.getElem?_eq_some_iff.1 q1).1, rfl, he⟩
    · rintro ⟨i, hi, rfl, he⟩
      obtain ⟨cells, q1, -⟩ := r4 i _ (List.getElem?_eq_getElem hi)
      refine ⟨_, (hsurfs _).2 ⟨i, _, cells, List.getElem?_eq_getElem hi, q1, rfl⟩, rfl, ?_⟩
      simpa only [soupSurf, List.mem_cons, List.not_mem_nil, or_false] using he
  have hcells : ∀ (i : Nat) (t : Triangle), ts[i]? = some t → ∀ c, c ≠ 0 →
      (SurfVolu m (i + 1) c ↔ ∃ x ∈ t.celltarg, (x, c - 1) ∈ constr) := by
    intro i t ht c hc
    have hut := hu t (List.mem_of_getElem? ht)
    obtain ⟨l, q1, q2⟩ := soupCells_ok hf hut.cells.2 hut.factors
    rw [← q2 c hc]
    constructor
    · rintro ⟨x, hx, hxi, hcx⟩
      obtain ⟨i', t', cells, p1, p2, rfl⟩ := (hsurfs x).1 hx
      simp only [soupSurf] at hxi
      have : i' = i := by omega
      subst this
      rw [ht] at p1
      cases p1
      rw [q1] at p2
      cases p2
      exact hcx
    · intro h
      exact ⟨_, (hsurfs _).2 ⟨i, t, l, ht, q1, rfl⟩, rfl, h⟩
  have SVr : ∀ s c, SurfVolu m s c → c ≠ 0 → 1 ≤ c ∧ c ≤ nVolu := by
    intro s c h hc
    have h' := h
    obtain ⟨x, hx, rfl, -⟩ := h
    obtain ⟨i, t, cells, p1, p2, rfl⟩ := (hsurfs x).1 hx
    obtain ⟨x, -, hk⟩ := (hcells i t p1 c hc).1 h'
    have := hn _ hk
    simp only at this
    omega
  have VS : ∀ c s, VoluSurf m c s ↔ (1 ≤ c ∧ c ≤ nVolu) ∧ SurfVolu m s c := by
    intro c s
    have h := r5 c s
    rw [hv0m, or_iff_right (hv0l c s)] at h
    have e1 : m.volus = vs := by rw [hm]
    have e2 : m.surfs = ss := by rw [hm]
    unfold VoluSurf SurfVolu
    rw [e1, e2]
    exact h
  have hSVs : ∀ s c, SurfVolu m s c → HasSurf m s := fun s c ⟨x, h1, h2, _⟩ => ⟨x, h1, h2⟩
  refine ⟨m, hrun, ⟨⟨?_, ?_, ?_, ?_⟩, ⟨?_, ?_, ?_, ?_⟩, ⟨?_, ?_, ?_, ?_, ?_, ?_⟩, ⟨?_, ?_, ?_, ?_⟩, ⟨?_, ?_, ?_⟩⟩, ⟨?_, ?_, ?_, hcells, ?_⟩⟩
  · have : m.verts.map Vert.index = (List.range (ts.length * 3)).map fun (k : Nat) => (k : Int) + 1 := by
      apply List.ext_getElem
      · simp [hm, x2]
      · intro i h1 h2
        simp [hm, soupVert]
    rw [this]
    exact List.nodup_range.map fun a b h => by simpa using h
  · have : m.edges.map Edge.index = (List.range (ts.length * 3)).map fun (k : Nat) => (k : Int) + 1 := by
      rw [hm]
      simp only [List.map_map]
      rfl
    rw [this]
    exact List.nodup_range.map fun a b h => by simpa using h
  · have : m.surfs.map Surf.index = (List.range ts.length).map fun (k : Nat) => (k : Int) + 1 := by
      apply List.ext_getElem
      · simp [hm, r2]
      · intro i h1 h2
        have hlt : i < ts.length := by simpa using h2
        obtain ⟨cells, -, q2⟩ := r4 i _ (List.getElem?_eq_getElem hlt)
        obtain ⟨q3, q4⟩ := List.getElem?_eq_some_iff.1 q2
        simp only [hm, List.getElem_map, q4, List.getElem_range, soupSurf, Nat.zero_add]
    rw [this]
    exact List.nodup_range.map fun a b h => by simpa using h
  · have : m.volus = vs := by rw [hm]
    rw [this, r3]
    exact hv0n
  · intro i h; have := (HV i).1 h; omega
  · intro i h; have := (HE i).1 h; omega
  · intro i h; have := (HS i).1 h; omega
  · intro i h; have := (HC i).1 h; omega
  · intro v e h _
    obtain ⟨k, hk, rfl, h⟩ := (VE v e).1 h
    rw [HE]; omega
  · intro e v h _
    obtain ⟨k, hk, rfl, h⟩ := (EV e v).1 h
    rw [HV]; omega
  · intro e s h _
    obtain ⟨k, hk, rfl, h⟩ := (ES e s).1 h
    rw [HS]; omega
  · intro s e h
    obtain ⟨k, hk, rfl, h⟩ := (SE s e).1 h
    rw [HE]; omega
  · intro s c h hc
    rw [HC]; exact SVr s c h hc
  · intro c s h _
    exact hSVs s c ((VS c s).1 h).2
  · intro v h
    obtain ⟨k, hk, rfl, h⟩ := (VE v 0).1 h
    omega
  · intro e h
    obtain ⟨k, hk, rfl, h⟩ := (EV e 0).1 h
    omega
  · intro s h
    obtain ⟨k, hk, rfl, h⟩ := (SE s 0).1 h
    omega
  · intro c h
    have := (HS 0).1 (hSVs 0 c ((VS c 0).1 h).2)
    omega
  · intro v e _ _
    rw [VE, EV]
    constructor
    · rintro ⟨k, hk, rfl, h | h⟩
      · exact ⟨k, hk, by omega, by omega⟩
      · exact ⟨k / 3 * 3 + (k % 3 + 3 - 1) % 3, by omega, by omega, by omega⟩
    · rintro ⟨k, hk, rfl, h | h⟩
      · exact ⟨k, hk, by omega, by omega⟩
      · exact ⟨k / 3 * 3 + (k % 3 + 1) % 3, by omega, by omega, by omega⟩
  · intro e s _ _
    rw [ES, SE]
    constructor
    · rintro ⟨k, hk, rfl, rfl⟩
      exact ⟨k / 3, by omega, by omega, by omega⟩
    · rintro ⟨i, hi, rfl, h⟩
      exact ⟨(e - 1).toNat, by omega, by omega, by omega⟩
  · intro s c _ hc
    rw [VS]
    exact ⟨fun h => ⟨(HC c).1 hc, h⟩, fun h => h.2⟩
  · refine ⟨?_, ?_, ?_⟩ <;> simp [hm, x2, r2]
  · intro v e e' s s' h1 h2 h3 h4
    obtain ⟨k1, a1, a2, a3⟩ := (VE _ _).1 h1
    obtain ⟨k2, b1, b2, b3⟩ := (ES _ _).1 h2
    obtain ⟨k3, c1, c2, c3⟩ := (VE _ _).1 h3
    obtain ⟨k4, d1, d2, d3⟩ := (ES _ _).1 h4
    omega
  · intro i t ht x y z p q r k1 k2
    have hlt := (List.getElem?_eq_some_iff.1 ht).1
    obtain ⟨cells, q1, -⟩ := r4 i t ht
    obtain ⟨a, b, c, m1, m2, m3, l1, l2, l3⟩ := x3 i t ht x y z p q r k1 k2
    refine ⟨_, (hsurfs _).2 ⟨i, t, cells, ht, q1, rfl⟩, rfl, _, (hverts _).2 ⟨_, a, m1, rfl⟩, _, (hverts _).2 ⟨_, b, m2, rfl⟩, _, (hverts _).2 ⟨_, c, m3, rfl⟩,
      _, (hedges _).2 ⟨i * 3, by omega, rfl⟩, _, (hedges _).2 ⟨i * 3 + 1, by omega, rfl⟩, _, (hedges _).2 ⟨i * 3 + 2, by omega, rfl⟩, l1, l2, l3, ?_, ?_, ?_, ?_⟩
    · simp only [soupSurf, soupEdge, List.cons.injEq, and_true]
      omega
    all_goals
      simp only [soupVert, soupEdge, List.cons.injEq, and_true]
      omega
  · intro hnd i t ht a b p q h1 h2 h3
    obtain ⟨cells, q1, -⟩ := r4 i t ht
    exact ⟨_, (hsurfs _).2 ⟨i, t, cells, ht, q1, rfl⟩, rfl, soupCells_sides hf hnd h1 h2 h3 q1⟩

/-- Points for the examples: a vertex of the mesh, one of the snake, one of the triangulation. -/
def threePoints : Points := ⟨[⟨1, [], [0, 0, 0], false⟩], [⟨1, [], [1, 0, 0], false⟩], [(1, [0, 1, 0])]⟩

/-- A triangle between cells 4 and 7. -/
def between : Triangle := ⟨1, [1, 2, 3], [1, 1, 1], 1, [4, 7], [-1, 1]⟩

/-- The other way round. -/
def betweenBack : Triangle := ⟨2, [3, 2, 1], [1, 1, 1], 1, [4, 7], [1, -1]⟩

/-- Cell 7 in the first constraint, cell 4 in the second. -/
def twoCells (c : Int) : List Int := if c = 7 then [0] else if c = 4 then [1] else []

theorem twoCells_hash : HashOf [(7, 0), (4, 1)] twoCells := by
  intro c
  unfold twoCells
  by_cases h : c = 7
  · subst h; simp
  · by_cases h' : c = 4
    · subst h'; simp
    · rw [if_neg h, if_neg h', List.filter_eq_nil_iff.2]
      · rfl
      · intro x hx
        simp only [List.mem_cons, List.not_mem_nil, or_false] at hx
        rcases hx with rfl | rfl <;> simp <;> omega

theorem between_usable : Usable threePoints [(7, 0), (4, 1)] between :=
  ⟨⟨1, 2, 3, 1, 1, 1, [0, 0, 0], [1, 0, 0], [0, 1, 0], rfl, rfl, .inl ⟨rfl, _, List.mem_cons_self, rfl, rfl⟩,
    .inr (.inl ⟨rfl, _, List.mem_cons_self, rfl, rfl⟩), .inr (.inr ⟨rfl, List.mem_cons_self⟩)⟩, ⟨by decide, (4, 1), by decide, by decide⟩, by decide⟩

theorem betweenBack_usable : Usable threePoints [(7, 0), (4, 1)] betweenBack :=
  ⟨⟨3, 2, 1, 1, 1, 1, [0, 1, 0], [1, 0, 0], [0, 0, 0], rfl, rfl, .inr (.inr ⟨rfl, List.mem_cons_self⟩),
    .inr (.inl ⟨rfl, _, List.mem_cons_self, rfl, rfl⟩), .inl ⟨rfl, _, List.mem_cons_self, rfl, rfl⟩⟩, ⟨by decide, (4, 1), by decide, by decide⟩, by decide⟩

example : ∃ m, triarrayToMesh threePoints twoCells 2 [between, betweenBack] = .ok m ∧ Sound m ∧ Separate threePoints [(7, 0), (4, 1)] [between, betweenBack] m :=
  C139_soup_partial twoCells_hash (by decide) (by
    intro t ht
    simp only [List.mem_cons, List.not_mem_nil, or_false] at ht
    rcases ht with rfl | rfl
    · exact between_usable
    · exact betweenBack_usable)

example : (triarrayToMesh threePoints twoCells 2 [between, betweenBack]).map (fun m => (m.surfs.map Surf.voluind, m.volus.map Volu.surfind)) =
    .ok ([[2, 1], [1, 2]], [[1, 2], [1, 2]]) := by decide +kernel

/-- **C139, violated**: a triangle inside one cell (triangulate.cpp:1317-1335 gives those of the snake one cell): its second cell is read past the end. -/
theorem C139_inside_violated : triarrayToMesh threePoints twoCells 2 [{ between with celltarg := [4], influence := [1] }] = .error .ub := by decide +kernel

/-- **C139, violated**: a triangle on the outside of the grid gets the same volumes in the same order, whichever side the cell is on. -/
theorem C139_outside_violated : ∃ m, triarrayToMesh threePoints twoCells 2 [{ between with celltarg := [0, 4] }, { between with celltarg := [4, 0] }] = .ok m ∧
    m.surfs.map Surf.voluind = [[2, 0], [2, 0]] := by
  refine ⟨_, rfl, by decide +kernel⟩

end RSVS.TriSoup
