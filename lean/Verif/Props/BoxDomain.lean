import Verif.Lemmas.BoxDomain

/-!
# C101: the boxes around the geometry
-/

namespace RSVS.Props

open RSVS.Mesh RSVS.Geo RSVS.Spec RSVS.BoxDomain

variable {outerL outerU innerL innerU : Fin 3 → ℚ} {n : Nat}

theorem domain_after (hi : ∀ j, innerL j < innerU j) (ho : ∀ j, outerL j < outerU j) (hn : 0 < n) (vp : List Nat) :
    ∃ s, After outerL outerU innerL innerU n (n - 1) s ∧ cutCellDomain outerL outerU innerL innerU n vp = (s.domain, s.vertPer) := by
  refine ⟨_, after_turns hi ho (n := n) (n - 1) (by omega), ?_⟩
  unfold cutCellDomain
  rw [if_neg (by omega)]

theorem block_copy {k : Nat} (hk : k < n) {s : State} (h : After outerL outerU innerL innerU n (n - 1) s) :
    CopyAt cube s.domain k (8 * (2 ^ k - 1)) (12 * (2 ^ k - 1)) (6 * (2 ^ k - 1)) (2 ^ k - 1) := by
  have hn : n - 1 + 1 = n := by omega
  obtain ⟨l1, l2, l3, l4⟩ := cube_lengths
  have hl1 : ∀ i, (blockOf outerL outerU innerL innerU n i).verts.length = 8 := fun i => boxAt_lengths _ _ _ _ _ _
  have hl2 : ∀ i, (blockOf outerL outerU innerL innerU n i).edges.length = 12 := fun i => by
    simp [blockOf, boxAt, moveVerts, changeIndices, l2]
  have hl3 : ∀ i, (blockOf outerL outerU innerL innerU n i).surfs.length = 6 := fun i => by
    simp [blockOf, boxAt, moveVerts, changeIndices, l3]
  have hl4 : ∀ i, (blockOf outerL outerU innerL innerU n i).volus.length = 1 := fun i => by
    simp [blockOf, boxAt, moveVerts, changeIndices, l4]
  have lt : ∀ {α : Type} {l : List α} {j : Nat} {x : α} {c : Nat}, l[j]? = some x → l.length = c → j < c := fun h hc =>
    hc ▸ (List.getElem?_eq_some_iff.mp h).1
  have nn := nonNegRefs_of_noDangling cube_sound.noDangling cube_sound.pos
  have hsp : ∀ (l : List Int) (d : Int), (∀ x ∈ l, 0 ≤ x) → l.map (shiftPos d) = l.map fun s => if s = 0 then 0 else s + d := by
    intro l d hl
    apply List.map_congr_left
    intro x hx
    have := hl x hx
    unfold shiftPos
    split_ifs <;> omega
  constructor
  · intro j x hx
    rw [l1, h.verts, hn, flatMap_get _ 8 hl1 _ _ _ hk (lt hx l1)]
    refine ⟨_, by simp only [blockOf, boxAt, moveVerts, changeIndices, List.getElem?_map, hx]; rfl, rfl, rfl⟩
  · intro j x hx
    rw [l2, h.edges, hn, flatMap_get _ 12 hl2 _ _ _ hk (lt hx l2)]
    refine ⟨_, by simp only [blockOf, boxAt, moveVerts, changeIndices, List.getElem?_map, hx]; rfl, rfl, rfl, ?_⟩
    exact hsp _ _ fun s hs => nn.edgeSurf x.index s ⟨x, List.mem_of_getElem? hx, rfl, hs⟩
  · intro j x hx
    rw [l3, h.surfs, hn, flatMap_get _ 6 hl3 _ _ _ hk (lt hx l3)]
    refine ⟨_, by simp only [blockOf, boxAt, moveVerts, changeIndices, List.getElem?_map, hx]; rfl, rfl, rfl, ?_⟩
    exact hsp _ _ fun s hs => nn.surfVolu x.index s ⟨x, List.mem_of_getElem? hx, rfl, hs⟩
  · intro j x hx
    rw [l4, h.volus, hn, flatMap_get _ 1 hl4 _ _ _ hk (lt hx l4)]
    refine ⟨_, by simp only [blockOf, boxAt, moveVerts, changeIndices, List.getElem?_map, hx]; rfl, rfl, ?_⟩
    have hpos : ∀ s ∈ x.surfind, 0 < s := fun s hs => by
      have hr : VoluSurf cube x.index s := ⟨x, List.mem_of_getElem? hx, rfl, hs⟩
      have h0 : s ≠ 0 := fun e => cube_sound.zeroOutside.voluSurf x.index (e ▸ hr)
      exact cube_sound.pos.surfs s (cube_sound.noDangling.voluSurf _ _ hr h0)
    apply List.map_congr_left
    intro s hs
    have := hpos s hs
    unfold shiftPos
    rw [if_pos this]

theorem block_corners {k : Nat} (hk : k < n) {s : State} (h : After outerL outerU innerL innerU n (n - 1) s) :
    BoxCorners s.domain k (lowerOf outerL innerL n k) (upperOf outerU innerU n k) := by
  have hn : n - 1 + 1 = n := by omega
  have hl1 : ∀ i, (blockOf outerL outerU innerL innerU n i).verts.length = 8 := fun i => boxAt_lengths _ _ _ _ _ _
  intro j hj
  have hc := boxAt_coords (lowerOf outerL innerL n k) (upperOf outerU innerU n k)
  have hcl : cube.verts[j]? = some (cube.verts[j]'(by rw [cube_lengths.1]; exact hj)) := List.getElem?_eq_getElem _
  rw [h.verts, hn, flatMap_get _ 8 hl1 _ _ _ hk hj]
  refine ⟨_, by simp only [blockOf, boxAt, moveVerts, changeIndices, List.getElem?_map, hcl]; rfl, ?_⟩
  generalize cube.verts[j]'(by rw [cube_lengths.1]; exact hj) = x at hcl
  have hx : ((boxAt (lowerOf outerL innerL n k) (upperOf outerU innerU n k)).verts.map coordOf)[j]? =
      some fun i => coordOf x i * (upperOf outerU innerU n k i - lowerOf outerL innerL n k i) + lowerOf outerL innerL n k i := by
    simp only [boxAt, moveVerts, List.getElem?_map, hcl, Option.map_some, coordOf_setCoord]
  rw [hc] at hx
  show [_, _, _] = [_, _, _]
  interval_cases j <;>
    · simp only [List.getElem?_cons_succ, List.getElem?_cons_zero, Option.some.injEq] at hx
      rw [← hx]
      rfl

/-- C101, the boxes: for all proper inner and outer bounds and all numbers of boxes from 1 on, the mesh is sound and is made of `n`
blocks of 8 vertices, 12 edges, 6 surfaces and a volume, each of which is a renumbered copy of the unit box.  The first has the inner
bounds expanded by 0.1, the last (of several) the outer bounds, and those between have the bounds in between in equal steps; the list of
numbers of vertices is right. -/
theorem C101_boxes (hi : ∀ j, innerL j < innerU j) (ho : ∀ j, outerL j < outerU j) (hn : 0 < n) (vp : List Nat) :
    let r := cutCellDomain outerL outerU innerL innerU n vp
    Sound r.1 ∧ r.2 = List.replicate n 8 ∧ r.1.verts.length = 8 * n ∧ r.1.edges.length = 12 * n ∧ r.1.surfs.length = 6 * n ∧
      r.1.volus.length = n ∧
      (∀ k < n, ∃ a b d e, CopyAt (Voxel.blockGrid ![1, 1, 1]) r.1 k a b d e) ∧
      BoxCorners r.1 0 (fun j => innerL j - 1 / 10) (fun j => innerU j + 1 / 10) ∧
      (∀ k < n, k ≠ 0 → BoxCorners r.1 k (fun j => innerL j + (k : ℚ) / ((n : ℚ) - 1) * (outerL j - innerL j))
        (fun j => innerU j + (k : ℚ) / ((n : ℚ) - 1) * (outerU j - innerU j))) ∧
      (1 < n → BoxCorners r.1 (n - 1) outerL outerU) := by
  obtain ⟨s, hs, h⟩ := domain_after hi ho hn vp
  intro r
  have hr : r = (s.domain, s.vertPer) := h
  rw [hr]
  have hn1 : n - 1 + 1 = n := by omega
  obtain ⟨l1, l2, l3, l4⟩ := cube_lengths
  have mid : ∀ k < n, k ≠ 0 → BoxCorners s.domain k (fun j => innerL j + (k : ℚ) / ((n : ℚ) - 1) * (outerL j - innerL j))
        (fun j => innerU j + (k : ℚ) / ((n : ℚ) - 1) * (outerU j - innerU j)) := by
    intro k hk h0
    have := block_corners hk hs
    have e1 : lowerOf outerL innerL n k = fun j => innerL j + (k : ℚ) / ((n : ℚ) - 1) * (outerL j - innerL j) := by
      funext j; unfold lowerOf domInter; rw [if_neg h0]; ring
    have e2 : upperOf outerU innerU n k = fun j => innerU j + (k : ℚ) / ((n : ℚ) - 1) * (outerU j - innerU j) := by
      funext j; unfold upperOf domInter; rw [if_neg h0]; ring
    rw [e1, e2] at this
    exact this
  refine ⟨hs.sound, by rw [hs.vertPer, hn1], ?_, ?_, ?_, ?_, fun k hk => ⟨_, _, _, _, block_copy hk hs⟩, ?_, mid, ?_⟩
  · simp only [hs.verts, List.length_flatMap, hn1]
    simp [blockOf, boxAt, moveVerts, changeIndices, l1, mul_comm]
  · simp only [hs.edges, List.length_flatMap, hn1]
    simp [blockOf, boxAt, moveVerts, changeIndices, l2, mul_comm]
  · simp only [hs.surfs, List.length_flatMap, hn1]
    simp [blockOf, boxAt, moveVerts, changeIndices, l3, mul_comm]
  · simp only [hs.volus, List.length_flatMap, hn1]
    simp [blockOf, boxAt, moveVerts, changeIndices, l4]
  · exact block_corners (k := 0) hn hs
  · intro h1
    have := mid (n - 1) (by omega) (by omega)
    have hq : (((n - 1 : Nat) : ℚ)) / ((n : ℚ) - 1) = 1 := by
      rw [Nat.cast_sub (by omega), Nat.cast_one]
      apply div_self
      have : (1 : ℚ) < n := by exact_mod_cast h1
      linarith
    rw [hq] at this
    simpa using this

/-- The hypotheses of `C101_boxes` hold for 4 boxes between the unit box and the default domain. -/
example : (∀ _j : Fin 3, (0 : ℚ) < 1) ∧ (∀ _j : Fin 3, (-3 : ℚ) < 4) ∧
    (cutCellDomain (fun _ => -3) (fun _ => 4) (fun _ => 0) (fun _ => 1) 4 []).2 = [8, 8, 8, 8] ∧
    BoxCorners (cutCellDomain (fun _ => -3) (fun _ => 4) (fun _ => 0) (fun _ => 1) 4 []).1 3 (fun _ => -3) (fun _ => 4) := by
  have := C101_boxes (outerL := fun _ => -3) (outerU := fun _ => 4) (innerL := fun _ => 0) (innerU := fun _ => 1) (n := 4)
    (fun _ => by norm_num) (fun _ => by norm_num) (by decide) []
  exact ⟨fun _ => by norm_num, fun _ => by norm_num, this.2.1, this.2.2.2.2.2.2.2.2.2 (by decide)⟩

/-- BoxCorners say what the bounds are. -/
theorem corners_unique {m : Mesh} {k : Nat} {lb ub lb' ub' : Fin 3 → ℚ} (h : BoxCorners m k lb ub) (h' : BoxCorners m k lb' ub') :
    lb = lb' ∧ ub = ub' := by
  obtain ⟨v, h1, h2⟩ := h 0 (by decide)
  obtain ⟨v', h3, h4⟩ := h' 0 (by decide)
  obtain ⟨w, k1, k2⟩ := h 7 (by decide)
  obtain ⟨w', k3, k4⟩ := h' 7 (by decide)
  rw [h1] at h3
  rw [k1] at k3
  simp only [Option.some.injEq] at h3 k3
  subst h3 k3
  rw [h2] at h4
  rw [k2] at k4
  simp at h4
  simp [show Nat.testBit 7 0 = true by decide, show Nat.testBit 7 1 = true by decide, show Nat.testBit 7 2 = true by decide] at k4
  constructor
  · funext j; fin_cases j <;> simp [h4]
  · funext j; fin_cases j <;> simp [k4]

/-- C101, the full claim for the order of the boxes: where the inner bounds are strictly inside of the outer ones, each box is strictly
inside of the next. -/
def C101_nested_statement : Prop :=
  ∀ (outerL outerU innerL innerU : Fin 3 → ℚ) (n : Nat) (vp : List Nat), (∀ j, innerL j < innerU j) → (∀ j, outerL j < innerL j) →
    (∀ j, innerU j < outerU j) → ∀ k : Nat, k + 1 < n → ∀ lb ub lb' ub',
    BoxCorners (cutCellDomain outerL outerU innerL innerU n vp).1 k lb ub →
    BoxCorners (cutCellDomain outerL outerU innerL innerU n vp).1 (k + 1) lb' ub' → ∀ j, lb' j < lb j ∧ ub j < ub' j

/-- C101, the order: each box from the second on is strictly inside of the next; the first is inside of the second when the steps
are larger than 0.1.  Missing: smaller steps, see `C101_violated`. -/
theorem C101_nested_partial (hi : ∀ j, innerL j < innerU j) (hl : ∀ j, outerL j < innerL j) (hu : ∀ j, innerU j < outerU j)
    (vp : List Nat) {k : Nat} (hk : k + 1 < n)
    (hgap : k = 0 → ∀ j, 1 / 10 < (innerL j - outerL j) / ((n : ℚ) - 1) ∧ 1 / 10 < (outerU j - innerU j) / ((n : ℚ) - 1))
    {lb ub lb' ub' : Fin 3 → ℚ} (h1 : BoxCorners (cutCellDomain outerL outerU innerL innerU n vp).1 k lb ub)
    (h2 : BoxCorners (cutCellDomain outerL outerU innerL innerU n vp).1 (k + 1) lb' ub') (j : Fin 3) : lb' j < lb j ∧ ub j < ub' j := by
  obtain ⟨s, hs, h⟩ := domain_after (outerL := outerL) (outerU := outerU) hi (fun j => (hl j).trans ((hi j).trans (hu j))) (n := n) (by omega) vp
  rw [h] at h1 h2
  obtain ⟨rfl, rfl⟩ := corners_unique h1 (block_corners (by omega) hs)
  obtain ⟨rfl, rfl⟩ := corners_unique h2 (block_corners hk hs)
  have hn : (0 : ℚ) < (n : ℚ) - 1 := by
    have : (1 : ℚ) < n := by exact_mod_cast (by omega : 1 < n)
    linarith
  have a := hl j
  have b := hu j
  by_cases h0 : k = 0
  · subst h0
    obtain ⟨g1, g2⟩ := hgap rfl j
    simp only [lowerOf, upperOf, if_true, domInter]
    norm_num
    rw [sub_div] at g1 g2
    have e1 : ((n : ℚ) - 1)⁻¹ * (outerL j - innerL j) = outerL j / ((n : ℚ) - 1) - innerL j / ((n : ℚ) - 1) := by
      rw [div_eq_mul_inv, div_eq_mul_inv]; ring
    have e2 : ((n : ℚ) - 1)⁻¹ * (outerU j - innerU j) = outerU j / ((n : ℚ) - 1) - innerU j / ((n : ℚ) - 1) := by
      rw [div_eq_mul_inv, div_eq_mul_inv]; ring
    rw [e1, e2]
    constructor <;> linarith
  · simp only [lowerOf, upperOf, if_neg h0, Nat.add_eq_zero_iff, one_ne_zero, and_false, if_false, domInter]
    have hlt : (k : ℚ) / ((n : ℚ) - 1) < ((k + 1 : Nat) : ℚ) / ((n : ℚ) - 1) := by
      rw [div_lt_div_iff_of_pos_right hn]
      push_cast
      linarith
    constructor <;> nlinarith

/-- The hypotheses of `C101_nested_partial` hold for 4 boxes between the unit box and the default domain. -/
example : (∀ _j : Fin 3, (0 : ℚ) < 1) ∧ (∀ _j : Fin 3, (-3 : ℚ) < 0) ∧ (∀ _j : Fin 3, (1 : ℚ) < 4) ∧
    (1 : ℚ) / 10 < (0 - -3) / ((4 : ℕ) - 1) ∧ (1 : ℚ) / 10 < (4 - 1) / ((4 : ℕ) - 1) := by norm_num

/-- C101 is violated by the code: with a narrow outer domain the first box, which is expanded by 0.1, sticks out of the second. -/
theorem C101_violated : ¬ C101_nested_statement := by
  intro h
  have hb := C101_boxes (outerL := fun _ => -1) (outerU := fun _ => 2) (innerL := fun _ => 0) (innerU := fun _ => 1) (n := 12)
    (fun _ => by norm_num) (fun _ => by norm_num) (by decide) []
  obtain ⟨-, -, -, -, -, -, -, c0, c1, -⟩ := hb
  have := (h (fun _ => -1) (fun _ => 2) (fun _ => 0) (fun _ => 1) 12 [] (fun _ => by norm_num) (fun _ => by norm_num) (fun _ => by norm_num)
    0 (by decide) _ _ _ _ c0 (c1 1 (by decide) (by decide)) 0).1
  norm_num at this

/-- C101, the numbers: `meshtemp` is renumbered again in each turn, so indices double with each box, and from 29 boxes on there are edges
whose index is larger than the largest `int`. -/
theorem C101_numbers (hi : ∀ j, innerL j < innerU j) (ho : ∀ j, outerL j < outerU j) (hn : 0 < n) (vp : List Nat) :
    (∃ e ∈ (cutCellDomain outerL outerU innerL innerU n vp).1.edges, e.index = 12 * 2 ^ (n - 1)) ∧
    (29 ≤ n → ∃ e ∈ (cutCellDomain outerL outerU innerL innerU n vp).1.edges, 2 ^ 31 - 1 < e.index) := by
  obtain ⟨s, hs, h⟩ := domain_after (outerL := outerL) (outerU := outerU) hi ho hn vp
  rw [h]
  obtain ⟨e, he, hidx⟩ := (block_max outerL outerU innerL innerU n (n - 1)).2.1.2
  have hmem : e ∈ s.domain.edges := by
    rw [hs.edges]
    exact List.mem_flatMap.mpr ⟨n - 1, by simp, he⟩
  refine ⟨⟨e, hmem, hidx⟩, fun h29 => ⟨e, hmem, ?_⟩⟩
  rw [hidx]
  have : (2 : Int) ^ 28 ≤ 2 ^ (n - 1) := pow_le_pow_right₀ (by norm_num) (by omega)
  norm_num at this ⊢
  omega

/-- With no step the list of numbers of vertices is not cleared. -/
example : (cutCellDomain (fun _ => -1) (fun _ => 2) (fun _ => 0) (fun _ => 1) 0 [8]).2 = [8] := rfl

end RSVS.Props
