import Mathlib.Tactic.Linarith
import Mathlib.Tactic.Ring
import Mathlib.Tactic.FieldSimp
import Mathlib.Tactic.NormNum
import Verif.Lemmas.PointGrid

/-! # C130: points around a domain -/

namespace RSVS.Props

open RSVS RSVS.Spec RSVS.PointGrid

private theorem grid_ok {lo up : Nat → ℚ} {tol : ℚ} {pts : List (List ℚ)} (h : gridPoints lo up tol = .ok pts) :
    tol ≠ 0 ∧ pts = cornerPts lo up tol ++ edgePts lo up tol ⌈1 / (tol * 2)⌉ := by
  unfold gridPoints at h
  split_ifs at h with h0
  exact ⟨h0, (Except.ok.inj h).symm⟩

/-- A distance other than 0 gives points. -/
theorem C130_some (lo up : Nat → ℚ) {tol : ℚ} (h : tol ≠ 0) : ∃ pts, gridPoints lo up tol = .ok pts :=
  ⟨_, if_neg h⟩

/-- Each corner is a point, and so are its three neighbours outwards; any box, any distance. -/
theorem C130_corners {lo up : Nat → ℚ} {tol : ℚ} {pts : List (List ℚ)} (h : gridPoints lo up tol = .ok pts)
    (b : Nat → Bool) {a : Nat} (ha : a < 4) {p : List ℚ} (hp : CornerPoint lo up tol b a p) : p ∈ pts := by
  rw [(grid_ok h).2]
  exact List.mem_append_left _ ((mem_cornerPts lo up tol p).mpr ⟨b, a, ha, hp⟩)

private theorem boxEnd_out {lo up : Nat → ℚ} {tol : ℚ} (ht : 0 ≤ tol) (a : Nat) (b : Bool) (j : Nat) (hj : lo j ≤ up j) :
    BoxEnd lo up tol a b j ≤ lo j ∨ up j ≤ BoxEnd lo up tol a b j := by
  have hm : 0 ≤ tol * (up j - lo j) := mul_nonneg ht (by linarith)
  unfold BoxEnd
  cases b
  · left; simp only [Bool.false_eq_true, if_false]; split_ifs <;> linarith
  · right; simp only [if_true]; split_ifs <;> linarith

/-- No point is strictly inside of the box. -/
theorem C130_outside {lo up : Nat → ℚ} {tol : ℚ} {pts : List (List ℚ)} (h : gridPoints lo up tol = .ok pts)
    (ht : 0 ≤ tol) (hb : ∀ j < 3, lo j ≤ up j) {p : List ℚ} (hp : p ∈ pts) :
    p.length = 3 ∧ ∃ j < 3, ∃ x, p[j]? = some x ∧ (x ≤ lo j ∨ up j ≤ x) := by
  rw [(grid_ok h).2, List.mem_append, mem_cornerPts, mem_edgePts] at hp
  rcases hp with ⟨b, a, -, hp⟩ | ⟨ll, -, -, l, hl, a, ha, hal, b, hlen, hp⟩
  · unfold CornerPoint at hp
    subst hp
    exact ⟨rfl, 0, by omega, _, rfl, boxEnd_out ht a _ 0 (hb 0 (by omega))⟩
  · refine ⟨hlen, a, ha, _, hp a ha, ?_⟩
    rw [if_neg hal]
    exact boxEnd_out ht a _ a (hb a ha)

/-- In the unit box each point is a corner, a corner moved out, or a point of an edge moved out.
Missing: other boxes, where this is false (`C130_scaled_violated`). -/
theorem C130_only_partial {lo up : Nat → ℚ} {tol : ℚ} {pts : List (List ℚ)} (h : gridPoints lo up tol = .ok pts)
    (hu : ∀ j < 3, lo j = 0 ∧ up j = 1) {p : List ℚ} (hp : p ∈ pts) :
    (∃ b : Nat → Bool, ∃ a < 4, CornerPoint lo up tol b a p) ∨
      ∃ l < 3, ∃ a < 3, a ≠ l ∧ ∃ (b : Nat → Bool) (t : ℚ), 0 < t ∧ t < 1 ∧ EdgePoint lo up tol l a b t p := by
  rw [(grid_ok h).2, List.mem_append, mem_cornerPts, mem_edgePts] at hp
  refine hp.imp id ?_
  rintro ⟨ll, h1, h2, l, hl, a, ha, hal, b, hlen, hp⟩
  generalize ⌈1 / (tol * 2)⌉ = n at *
  have hn : (0 : ℚ) < (n : ℚ) := by exact_mod_cast (by omega : (0 : Int) < n)
  have hll : (0 : ℚ) < (ll : ℚ) := by exact_mod_cast h1
  have hlt : (ll : ℚ) < (n : ℚ) := by exact_mod_cast h2
  refine ⟨l, hl, a, ha, hal, b, 1 / (n : ℚ) * ll, by positivity, ?_, hlen, ?_⟩
  · rw [one_div, inv_mul_lt_iff₀ hn]; linarith
  · intro j hj
    rw [hp j hj, (hu l hl).1, (hu l hl).2]
    congr 2
    ring

/-- In the unit box the points follow each edge moved out: none of its positions is further than `tol` from a point.
Missing: other boxes, where this is false (`C130_scaled_violated`). -/
theorem C130_cover_partial {lo up : Nat → ℚ} {tol : ℚ} {pts : List (List ℚ)} (h : gridPoints lo up tol = .ok pts)
    (ht : 0 < tol) (hu : ∀ j < 3, lo j = 0 ∧ up j = 1) {l a : Nat} (hl : l < 3) (ha : a < 3) (hal : a ≠ l)
    (b : Nat → Bool) {t : ℚ} (h0 : 0 ≤ t) (h1 : t ≤ 1) :
    ∃ s, ∃ p ∈ pts, EdgePoint lo up tol l a b s p ∧ |s - t| ≤ tol := by
  have hpts := (grid_ok h).2
  have hn1 : 1 / (tol * 2) ≤ ((⌈1 / (tol * 2)⌉ : Int) : ℚ) := Int.le_ceil _
  generalize ⌈1 / (tol * 2)⌉ = n at *
  have hn : (0 : ℚ) < (n : ℚ) := lt_of_lt_of_le (by positivity) hn1
  have hnt : 1 ≤ (n : ℚ) * (tol * 2) := by
    rwa [div_le_iff₀ (by positivity)] at hn1
  -- the nearest step
  obtain ⟨r, hr⟩ : ∃ r : Int, r = ⌊t * n + 1 / 2⌋ := ⟨_, rfl⟩
  have hr1 : (r : ℚ) ≤ t * n + 1 / 2 := hr ▸ Int.floor_le _
  have hr2 : t * n + 1 / 2 < (r : ℚ) + 1 := hr ▸ Int.lt_floor_add_one _
  have htn : 0 ≤ t * n := by positivity
  have htn1 : t * n ≤ n := by nlinarith
  have hr0 : 0 ≤ r := by
    have : (-1 : ℚ) < (r : ℚ) := by linarith
    have : (-1 : Int) < r := by exact_mod_cast this
    omega
  have hrn : r ≤ n := by
    have : (r : ℚ) < (n : ℚ) + 1 := by linarith
    have : r < n + 1 := by exact_mod_cast this
    omega
  have hd : |(r : ℚ) / n - t| ≤ tol := by
    have e : (r : ℚ) / n - t = (r - t * n) / n := by field_simp
    rw [e, abs_div, abs_of_pos hn, div_le_iff₀ hn]
    have : |(r : ℚ) - t * n| ≤ 1 / 2 := abs_le.mpr ⟨by linarith, by linarith⟩
    nlinarith
  have corner : ∀ (c : Bool) (s : ℚ), (s = if c then 1 else 0) → ∃ p ∈ pts, EdgePoint lo up tol l a b s p := by
    intro c s hs
    refine ⟨_, C130_corners h (fun j => if j = l then c else b j) (by omega : a < 4) rfl, rfl, ?_⟩
    intro j hj
    have hul := hu l hl
    rcases (by omega : j = 0 ∨ j = 1 ∨ j = 2) with rfl | rfl | rfl <;>
    · simp only [List.getElem?_cons_zero, List.getElem?_cons_succ, Option.some.injEq]
      split_ifs with e
      · subst e
        rw [hs]
        unfold BoxEnd
        rw [if_neg (Ne.symm hal), hul.1, hul.2]
        cases c <;> norm_num
      · rfl
  by_cases c0 : r = 0
  · obtain ⟨p, hp, he⟩ := corner false 0 rfl
    exact ⟨0, p, hp, he, by simpa [c0] using hd⟩
  by_cases cn : r = n
  · obtain ⟨p, hp, he⟩ := corner true 1 rfl
    refine ⟨1, p, hp, he, ?_⟩
    rw [cn, div_self hn.ne'] at hd
    exact hd
  refine ⟨(r : ℚ) / n, (List.range 3).map fun j =>
    if j = l then 1 / (n : ℚ) * (r.toNat : ℚ) else BoxEnd lo up tol a (b j) j, ?_, ⟨by simp, ?_⟩, hd⟩
  · rw [hpts]
    refine List.mem_append_right _ ((mem_edgePts lo up tol n _).mpr ⟨r.toNat, by omega, by omega, l, hl, a, ha, hal, b,
      by simp, ?_⟩)
    intro j hj
    simp [hj]
  · intro j hj
    have e : ((r.toNat : Nat) : ℚ) = (r : ℚ) := by
      exact_mod_cast congrArg (Int.cast (R := ℚ)) (Int.toNat_of_nonneg hr0)
    simp only [List.getElem?_map, List.getElem?_range hj, Option.map_some, e, (hu l hl).1, (hu l hl).2]
    congr 2
    ring

/-- Vertices from a list of points: as many, with the numbers from 1, each with the first three of its values. -/
theorem C130_points {pts : List (List ℚ)} {k : Nat} (hk : 3 ≤ k) (h : ∀ p ∈ pts, p.length = k) :
    ∃ m : Mesh, points2Mesh pts.flatten k = .ok m ∧ m.verts.map (·.coord) = pts.map (·.take 3) ∧
      m.verts.map (·.index) = (List.range pts.length).map (fun (i : Nat) => (i : Int) + 1) ∧
      (∀ v ∈ m.verts, v.edgeind = []) ∧ m.edges = [] ∧ m.surfs = [] ∧ m.volus = [] := by
  have hlen := flatten_length h
  refine ⟨⟨(List.range pts.length).map fun (i : Nat) =>
    ({ index := (i : Int) + 1, edgeind := [], coord := (pts[i]?.getD []).take 3 } : Vert), [], [], [], 0⟩,
    ?_, ?_, ?_, ?_, rfl, rfl, rfl⟩
  · unfold points2Mesh
    rw [if_neg (by omega), if_neg (by simp [hlen]), hlen, Nat.mul_div_cancel _ (by omega)]
    rw [mapM_ok _ (fun (i : Nat) => ({ index := (i : Int) + 1, edgeind := [], coord := (pts[i]?.getD []).take 3 } : Vert))]
    · rfl
    · intro i hi
      have hi' : i < pts.length := List.mem_range.mp hi
      have hpl : (pts[i]).length = k := h _ (List.getElem_mem hi')
      have e : (List.range 3).mapM (m := Except Fault) (fun j => vecGet pts.flatten ((i * k + j : Nat) : Int)) =
          .ok ((pts[i]).take 3) := by
        rw [mapM_ok _ (fun j => (pts[i])[j]?.getD 0)]
        · congr 1
          apply List.ext_getElem?
          intro j
          by_cases hj : j < 3
          · have hj' : j < (pts[i]).length := by omega
            simp [List.getElem?_take, hj, List.getElem?_eq_getElem hj']
          · simp [List.getElem?_take, hj]
        · intro j hj
          have hj3 : j < 3 := List.mem_range.mp hj
          have hj' : j < (pts[i]).length := by omega
          apply vecGet_nat
          rw [flatten_get h i j (by omega) hi', List.getElem?_eq_getElem hj']
          rfl
      rw [e]
      simp [Except.map, List.getElem?_eq_getElem hi']
  · apply List.ext_getElem?
    intro i
    by_cases hi : i < pts.length
    · simp [hi]
    · simp [hi]
  · simp [List.map_map, Function.comp_def]
  · intro v hv
    obtain ⟨i, -, rfl⟩ := List.mem_map.mp hv
    rfl

/-- The list given to tetgen: the points around the domain and then those of the domain; without the first if not asked for. -/
theorem C130_list (dom : Mesh) {lo up : Nat → ℚ} {tol : ℚ} {pts : List (List ℚ)}
    (h : gridPoints lo up tol = .ok pts) (hd : ∀ v ∈ dom.verts, v.coord.length = 3) :
    pointGrids dom lo up tol true = .ok (pts.flatten ++ (dom.verts.map (·.coord)).flatten) ∧
      pointGrids dom lo up tol false = .ok (dom.verts.map (·.coord)).flatten := by
  have h3 : ∀ p ∈ pts, p.length = 3 := by
    intro p hp
    rw [(grid_ok h).2, List.mem_append, mem_cornerPts, mem_edgePts] at hp
    rcases hp with ⟨b, a, -, hp⟩ | ⟨ll, -, -, l, hl, a, ha, hal, b, hlen, hp⟩
    · unfold CornerPoint at hp
      rw [hp]; rfl
    · exact hlen
  have tet : ∀ g : Mesh, (∀ v ∈ g.verts, v.coord.length = 3) →
      tetPoints g dom = .ok ((g.verts.map (·.coord)).flatten ++ (dom.verts.map (·.coord)).flatten) := by
    intro g hg
    unfold tetPoints
    rw [mapM_ok _ (fun v : Vert => v.coord)]
    · simp [Except.map]
    · intro v hv
      have hv3 : v.coord.length = 3 := (List.mem_append.mp hv).elim (hg v) (hd v)
      rw [take3_of (by omega), List.take_of_length_le (by omega)]
  obtain ⟨m, hm, hc, -⟩ := C130_points (le_refl 3) h3
  have hc' : m.verts.map (·.coord) = pts := by
    rw [hc]
    conv_rhs => rw [← List.map_id pts]
    apply List.map_congr_left
    intro p hp
    rw [List.take_of_length_le (by rw [h3 p hp])]
    rfl
  constructor
  · unfold pointGrids
    simp only [if_true, h, Except.bind, hm]
    rw [tet m, hc']
    intro v hv
    exact h3 _ (hc' ▸ List.mem_map_of_mem hv)
  · unfold pointGrids
    simp only [Bool.false_eq_true, if_false, Except.bind]
    rw [tet _ (by simp)]
    rfl

/-- Outside of the unit box the points along the edges are not scaled: with the box from 2 to 3 they are left of it
and the edges have no points between their ends. -/
theorem C130_scaled_violated : ∃ (lo up : Nat → ℚ) (tol : ℚ) (pts : List (List ℚ)), 0 < tol ∧ (∀ j, lo j < up j) ∧
    gridPoints lo up tol = .ok pts ∧
    ¬ (∀ p ∈ pts, ∀ x ∈ p, 2 - tol ≤ x) ∧
    ¬ (∀ l < 3, ∀ a < 3, a ≠ l → ∀ (b : Nat → Bool) (t : ℚ), 0 ≤ t → t ≤ 1 →
      ∃ s, ∃ p ∈ pts, EdgePoint lo up tol l a b s p ∧ |s - t| ≤ tol) := by
  refine ⟨fun _ => 2, fun _ => 3, 3 / 10, _, by norm_num, fun _ => by norm_num, if_neg (by norm_num), ?_, ?_⟩
  · intro h
    have key : ∃ p ∈ cornerPts (fun _ => 2) (fun _ => 3) (3 / 10) ++
        edgePts (fun _ => 2) (fun _ => 3) (3 / 10) ⌈(1 : ℚ) / (3 / 10 * 2)⌉, ∃ x ∈ p, x < 2 - 3 / 10 := by
      decide +kernel
    obtain ⟨p, hp, x, hx, hlt⟩ := key
    exact absurd (h p hp x hx) (not_le.mpr hlt)
  · intro h
    obtain ⟨s, p, hp, he, hs⟩ := h 0 (by omega) 1 (by omega) (by omega) (fun _ => false) (1 / 2) (by norm_num)
      (by norm_num)
    have key : ∀ p ∈ cornerPts (fun _ => 2) (fun _ => 3) (3 / 10) ++
        edgePts (fun _ => 2) (fun _ => 3) (3 / 10) ⌈(1 : ℚ) / (3 / 10 * 2)⌉, p.headD 0 ≤ 2 ∨ 3 ≤ p.headD 0 := by
      decide +kernel
    have hx := he.2 0 (by omega)
    simp only [if_true] at hx
    have hh : p.headD 0 = 2 + s := by
      cases p with
      | nil => simp at hx
      | cons y p =>
        simp only [List.getElem?_cons_zero, Option.some.injEq] at hx
        simp only [List.headD_cons]
        rw [hx]; norm_num
    have := key p hp
    rw [hh] at this
    have hs' := abs_le.mp hs
    rcases this with h2 | h2 <;> linarith [hs'.1, hs'.2]

/-- A distance of 0 asks for infinitely many steps. -/
theorem C130_zero_violated : ∃ (lo up : Nat → ℚ), (∀ j, lo j < up j) ∧ gridPoints lo up 0 = .error .ub :=
  ⟨fun _ => 0, fun _ => 1, fun _ => by norm_num, if_pos rfl⟩

/-- Fewer than three values for each point pass the check of the length but the last one is read past the end. -/
theorem C130_short_violated : ∃ (v : List ℚ) (k : Nat), 0 < k ∧ v.length % k = 0 ∧ points2Mesh v k = .error .ub :=
  ⟨[0, 0], 2, by norm_num, rfl, by decide +kernel⟩

/-- The unit box with the default distance: 32 points at corners and 24 along edges. -/
example : ∃ pts, gridPoints (fun _ => 0) (fun _ => 1) (3 / 10) = .ok pts ∧ pts.length = 56 ∧
    [(1 : ℚ) / 2, 1, -3 / 10] ∈ pts ∧ CornerPoint (fun _ => 0) (fun _ => 1) (3 / 10) (fun j => j == 1) 1 [0, 13 / 10, 0] :=
  ⟨_, if_neg (by norm_num), by decide +kernel, by decide +kernel, by unfold CornerPoint BoxEnd; decide +kernel⟩

example : (∀ p ∈ ([[1, 2, 3, 9], [4, 5, 6, 9]] : List (List ℚ)), p.length = 4) ∧
    ∃ m : Mesh, points2Mesh [1, 2, 3, 9, 4, 5, 6, 9] 4 = .ok m ∧ m.verts.map (·.coord) = [[1, 2, 3], [4, 5, 6]] :=
  ⟨by decide, _, rfl, by decide +kernel⟩

end RSVS.Props
