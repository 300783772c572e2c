import Verif.Lemmas.ParentBound
import Verif.Lemmas.MeshCheck
import Verif.Props.Border

/-!
# C108: the surfaces between cells of the parents and the vertices where a snake is spawned
-/

namespace RSVS.Props

open RSVS.Mesh RSVS.Spec RSVS.ParentBound RSVS.SpawnRemove

/-- C108: in three dimensions `SurfOnParentBound` ends without an error and lists, each once and in
the order of the mesh, exactly the surfaces between two volumes which a parent tells apart (one in a
cell at the bound and the other not), with the surfaces to the outside when asked for.  The volumes
listed are those at the bound for the first such parent. -/
theorem C108_surfs_partial (m : Mesh) (ps : List Parent) (hm : Sound m) (h2 : TwoVolus m) (hf : ParentsFit m ps)
    (isBorderBound outer : Bool) (eps : ℚ) :
    ∃ ss cs, surfOnParentBound m ps isBorderBound outer eps = .ok (ss, cs) ∧ ss.Sublist (m.surfs.map Surf.index) ∧
      (∀ s, s ∈ ss ↔ (isBorderBound = true ∧ SurfVolu m s 0) ∨ BetweenCells m ps (boundValue outer) eps s) ∧
      ∀ c, c ∈ cs ↔ (isBorderBound = true ∧ c ≠ 0 ∧ ∃ s, SurfVolu m s 0 ∧ SurfVolu m s c) ∨
        BoundSide m ps (boundValue outer) eps c :=
  surfOnParentBound_ok hm h2 hf isBorderBound outer eps

/-- C108: in three dimensions `FindSpawnVerts` gives, increasing and each once, exactly the vertices
off the border which are on a surface between cells or on a volume at the border which is wanted;
and exactly the volumes these come from. -/
theorem C108_spawn_partial (m : Mesh) (ps : List Parent) (hm : Sound m) (ht : TwoVerts m) (h2 : TwoVolus m) (hf : ParentsFit m ps)
    (eps : ℚ) (border : Int) (hb : border = 0 ∨ border = 1) :
    ∃ r, findSpawnVerts m ps eps border = .ok r ∧ r.verts.Pairwise (· < ·) ∧ r.volus.Pairwise (· < ·) ∧ r.border.Pairwise (· < ·) ∧
      (∀ v, v ∈ r.border ↔ ¬ VertMarked m v ∧ ∃ c vals, VoluMarked m c ∧ AllTargets m ps c vals ∧ Wanted border eps vals ∧ VoluVert m c v) ∧
      (∀ v, v ∈ r.verts ↔ v ∈ r.border ∨
        ¬ VertMarked m v ∧ ∃ s, BetweenCells m ps (boundValue (decide (border = 1))) eps s ∧ SurfVert m s v) ∧
      ∀ c, c ∈ r.volus ↔ (VoluMarked m c ∧ ∃ vals, AllTargets m ps c vals ∧ Wanted border eps vals) ∨
        BoundSide m ps (boundValue (decide (border = 1))) eps c := by
  obtain ⟨vs, cs, h3, _, h5, h6⟩ := C62_off_border_partial m hm border eps (targetsOf m ps) (Or.inr hb)
  obtain ⟨ss, ks, h7, h8, h9, h10⟩ := C108_surfs_partial m ps hm h2 hf false (decide (border = 1)) eps
  obtain ⟨is, h11, h12⟩ := innerLoop_ok hm ht ss (fun s hs => by
    obtain ⟨x, hx, e⟩ := List.mem_map.mp (h8.subset hs)
    exact ⟨x, hx, e⟩)
  have hmk : ∀ c, VoluMarked m c → ∀ vals, AllTargets m ps c vals ↔ vals = targetsOf m ps c := by
    rintro c ⟨x, hx, e, _⟩ vals
    exact allTargets_iff hm.unique hf ⟨x, hx, e⟩ vals
  have hbord : ∀ v, v ∈ vs ↔ ¬ VertMarked m v ∧ ∃ c vals, VoluMarked m c ∧ AllTargets m ps c vals ∧ Wanted border eps vals ∧ VoluVert m c v := by
    intro v
    rw [h6]
    constructor
    · rintro ⟨c, hc, hv, hn⟩
      obtain ⟨k1, k2⟩ := (h5 c).mp hc
      exact ⟨hn, c, _, k1, (hmk c k1 _).mpr rfl, k2, hv⟩
    · rintro ⟨hn, c, vals, k1, k2, k3, hv⟩
      rw [hmk c k1] at k2
      exact ⟨c, (h5 c).mpr ⟨k1, k2 ▸ k3⟩, hv, hn⟩
  refine ⟨{ border := sortUnique vs, verts := sortUnique (is ++ sortUnique vs), volus := sortUnique (cs ++ ks) }, ?_,
    sortUnique_strict _, sortUnique_strict _, sortUnique_strict _, ?_, ?_, ?_⟩
  · unfold findSpawnVerts
    rw [if_pos hb.symm, h3, ok_bind, h7, ok_bind]
    show Except.map _ (innerLoop m ss) = _
    rw [h11]
    rfl
  · intro v
    show v ∈ sortUnique vs ↔ _
    rw [mem_sortUnique, hbord]
  · intro v
    show v ∈ sortUnique (is ++ sortUnique vs) ↔ v ∈ sortUnique vs ∨ _
    rw [mem_sortUnique, List.mem_append, h12, or_comm]
    apply or_congr Iff.rfl
    constructor
    · rintro ⟨s, hs, hv, hn⟩
      rcases (h9 s).mp hs with ⟨h, _⟩ | h
      · simp at h
      · exact ⟨hn, s, h, hv⟩
    · rintro ⟨hn, s, hs, hv⟩
      exact ⟨s, (h9 s).mpr (Or.inr hs), hv, hn⟩
  · intro c
    show c ∈ sortUnique (cs ++ ks) ↔ _
    rw [mem_sortUnique, List.mem_append, h5, h10]
    apply or_congr
    · constructor
      · rintro ⟨k1, k2⟩; exact ⟨k1, _, (hmk c k1 _).mpr rfl, k2⟩
      · rintro ⟨k1, vals, k2, k3⟩; rw [hmk c k1] at k2; exact ⟨k1, k2 ▸ k3⟩
    · simp

/-- Any other border throws. -/
theorem C108_border_throws (m : Mesh) (ps : List Parent) (eps : ℚ) (border : Int) (h0 : border ≠ 0) (h1 : border ≠ 1) :
    findSpawnVerts m ps eps border = .error .throws := by
  unfold findSpawnVerts
  rw [if_neg (by tauto)]

/-- C108: `ParentElementIndex` of a volume is the entry of the parent at its position; of a volume
or parent which does not exist it throws. -/
theorem C108_parent_index (m : Mesh) (ps : List Parent) (hu : UniqueIndices m) (h3 : m.meshDim = 3)
    (hl : ∀ p ∈ ps, p.conn.length = m.volus.length) (c : Int) (q : Int) :
    (∀ i, parentElementIndex m ps c q = .ok i ↔ ∃ (n k : Nat) (p : Parent) (x : Volu), q = n ∧ ps[n]? = some p ∧
      m.volus[k]? = some x ∧ x.index = c ∧ p.conn[k]? = some i) ∧
    ((q < 0 ∨ (ps.length : Int) ≤ q ∨ ¬ HasVolu m c) → parentElementIndex m ps c q = .error .throws) := by
  have hthrow : (q < 0 ∨ (ps.length : Int) ≤ q ∨ ¬ HasVolu m c) → parentElementIndex m ps c q = .error .throws := by
    intro h
    unfold parentElementIndex
    by_cases hq : q ≥ ps.length ∨ q < 0
    · rw [if_pos hq]
    · rw [if_neg hq]
      rw [not_or] at hq
      obtain ⟨n, rfl⟩ : ∃ n : Nat, q = n := ⟨q.toNat, by omega⟩
      have hn : n < ps.length := by omega
      rw [vecGet_of (List.getElem?_eq_getElem hn), ok_bind]
      have hc : ¬ HasVolu m c := by
        rcases h with h | h | h
        · omega
        · omega
        · exact h
      rcases posOf_cases (ix := Volu.index) m.volus c with ⟨e, _⟩ | ⟨k, _, hk, e⟩
      · rw [if_pos h3, e]; rfl
      · exact absurd ⟨_, List.getElem_mem hk, e⟩ hc
  refine ⟨fun i => ⟨fun h => ?_, ?_⟩, hthrow⟩
  · by_cases hbad : q < 0 ∨ (ps.length : Int) ≤ q ∨ ¬ HasVolu m c
    · rw [hthrow hbad] at h; cases h
    · simp only [not_or, not_not] at hbad
      obtain ⟨b1, b2, b3⟩ := hbad
      obtain ⟨n, rfl⟩ : ∃ n : Nat, q = n := ⟨q.toNat, by omega⟩
      have hn : n < ps.length := by omega
      obtain ⟨k, e, hk, hx⟩ := posOf_mem (ix := Volu.index) b3
      have hkc : k < ps[n].conn.length := by rw [hl _ (List.getElem_mem hn)]; exact hk
      unfold parentElementIndex at h
      rw [if_neg (by omega), vecGet_of (List.getElem?_eq_getElem hn), ok_bind, if_pos h3, e,
        elemAt_of (List.getElem?_eq_getElem hkc)] at h
      exact ⟨n, k, ps[n], m.volus[k], rfl, List.getElem?_eq_getElem hn, List.getElem?_eq_getElem hk, hx,
        by rw [List.getElem?_eq_getElem hkc]; cases h; rfl⟩
  · rintro ⟨n, k, p, x, rfl, h1, h2, rfl, h4⟩
    obtain ⟨hn, _⟩ := List.getElem?_eq_some_iff.mp h1
    obtain ⟨hk, rfl⟩ := List.getElem?_eq_some_iff.mp h2
    unfold parentElementIndex
    rw [if_neg (by omega), vecGet_of h1, ok_bind, if_pos h3, posOf_getElem hu.volus k hk, elemAt_of h4]

/-- In two dimensions nothing inside is ever found: `EdgeOnParentBound` asks `SurfInParent`, which
looks at volumes. -/
theorem C108_edges_none (m : Mesh) (ps : List Parent) (hv : m.volus = []) (h2 : TwoVolus m)
    (he : ∀ x ∈ m.edges, x.surfind.length = 2) (outer : Bool) : edgeOnParentBound m ps false outer = .ok ([], []) := by
  have hin : ∀ s, surfInParent m ps s = .ok (-1) := by
    intro s
    have hl : ∀ (l : List Parent) (j : Int), inParentLoop (-1) (-1) l j = .ok (-1) := by
      intro l
      induction l with
      | nil => intro j; rfl
      | cons p l ih => intro j; unfold inParentLoop; simpa using ih _
    unfold surfInParent
    split
    · next h =>
      rcases posOf_cases (ix := Surf.index) m.surfs s with ⟨e, _⟩ | ⟨k, e, hk, _⟩
      · omega
      · rw [e, elemAt_of (List.getElem?_eq_getElem hk), ok_bind]
        have hx := h2 _ (List.getElem_mem hk)
        match hv' : m.surfs[k].voluind, hx with
        | [c, d], _ =>
          rw [hv]
          exact hl ps 0
    · rfl
  have hstep : ∀ x ∈ m.edges, edgeBoundStep m ps false outer ([], []) x = .ok ([], []) := by
    intro x hx
    have := he x hx
    match h : x.surfind, this with
    | [c, d], _ =>
      unfold edgeBoundStep
      rw [h]
      show (if c = 0 ∨ d = 0 then _ else _) = _
      by_cases h0 : c = 0 ∨ d = 0
      · rw [if_pos h0]; rfl
      · rw [if_neg h0, hin, ok_bind, if_neg (by omega)]
  unfold edgeOnParentBound
  revert hstep
  generalize m.edges = l
  intro hstep
  induction l with
  | nil => rfl
  | cons x l ih =>
    rw [List.foldlM_cons, hstep x (by simp)]
    exact ih fun y hy => hstep y (by simp [hy])

/-- Two triangles in the plane which share edge 3. -/
def twoTriangles : Mesh where
  verts := [⟨1, [1, 3, 4], [0, 0, 0], false⟩, ⟨2, [1, 2], [1, 0, 0], false⟩,
            ⟨3, [2, 3, 5], [1, 1, 0], false⟩, ⟨4, [4, 5], [0, 1, 0], false⟩]
  edges := [⟨1, [1, 2], [1, 0], false⟩, ⟨2, [2, 3], [1, 0], false⟩, ⟨3, [1, 3], [1, 2], false⟩,
            ⟨4, [1, 4], [2, 0], false⟩, ⟨5, [3, 4], [2, 0], false⟩]
  surfs := [{ index := 1, edgeind := [1, 2, 3], voluind := [0, 0] }, { index := 2, edgeind := [3, 4, 5], voluind := [0, 0] }]
  volus := []
  meshDim := 2

/-- A parent with a full and an empty cell. -/
def halfFull : Parent where
  volus := [{ index := 1, surfind := [], target := 1 }, { index := 2, surfind := [], target := 0 }]
  surfs := [{ index := 1, edgeind := [], voluind := [], target := 1 }, { index := 2, edgeind := [], voluind := [], target := 0 }]
  conn := [1, 2]

/-- C108 does not hold in two dimensions: edge 3 is between a full and an empty cell of the parent
and is not listed. -/
theorem C108_edges_violated : Sound twoTriangles ∧ TwoVolus twoTriangles ∧ (∀ x ∈ twoTriangles.edges, x.surfind.length = 2) ∧
    BetweenCells2 twoTriangles [halfFull] (boundValue false) 3 ∧ edgeOnParentBound twoTriangles [halfFull] false false = .ok ([], []) :=
  ⟨sound_of_checked (by decide +kernel), by unfold TwoVolus; decide +kernel, by decide +kernel,
    ⟨⟨3, [1, 3], [1, 2], false⟩, by decide +kernel, rfl, 1, 2, rfl, by decide, by decide, halfFull, by simp, 0, 1,
      { index := 1, edgeind := [1, 2, 3], voluind := [0, 0] }, { index := 2, edgeind := [3, 4, 5], voluind := [0, 0] },
      { index := 1, edgeind := [], voluind := [], target := 1 }, { index := 2, edgeind := [], voluind := [], target := 0 },
      rfl, rfl, rfl, rfl, rfl, by simp [halfFull], rfl, by simp [halfFull], by decide +kernel, by decide +kernel⟩,
    by decide +kernel⟩

/-- The parent over the four volumes of the split tetrahedron: two full and two empty ones. -/
def splitParent : Parent := { halfFull with conn := [1, 1, 2, 2] }

/-- The hypotheses of `C108_surfs_partial` and `C108_spawn_partial` hold for it. -/
example : Sound splitTetra ∧ TwoVerts splitTetra ∧ TwoVolus splitTetra ∧ ParentsFit splitTetra [splitParent] :=
  ⟨splitTetra_sound, by unfold TwoVerts; decide +kernel, by unfold TwoVolus; decide +kernel,
    ⟨by decide +kernel, by decide +kernel, by decide +kernel⟩⟩

/-- Four of its six inner surfaces are between cells. -/
example : (surfOnParentBound splitTetra [splitParent] false false (1 / 4503599627370496)).map (fun r => (r.1.length, sortUnique r.2)) = .ok (4, [1, 2]) := by
  decide +kernel

/-- With the border set only vertex 5 is left for a snake. -/
example : (setBorders splitTetra >>= fun m => findSpawnVerts m [splitParent] (1 / 4503599627370496) 0) =
    .ok { border := [5], verts := [5], volus := [1, 2] } := by decide +kernel

/-- The parent of volume 3 is cell 2. -/
example : parentElementIndex splitTetra [splitParent] 3 0 = .ok 2 ∧ splitTetra.meshDim = 3 ∧ UniqueIndices splitTetra :=
  ⟨by decide +kernel, rfl, splitTetra_sound.unique⟩

/-- Two triangles meet the hypotheses of `C108_edges_none`, with a parent which tells them apart. -/
example : edgeOnParentBound twoTriangles [halfFull] false true = .ok ([], []) :=
  C108_edges_none _ _ rfl C108_edges_violated.2.1 C108_edges_violated.2.2.1 _

end RSVS.Props
