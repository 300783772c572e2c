import Mathlib.Analysis.Real.Sqrt
import Mathlib.Data.Rat.Floor
import Mathlib.Algebra.Order.Archimedean.Real.Basic
import Mathlib.Tactic.NormNum
import Verif.Lemmas.GeometryCentre
import Verif.Lemmas.GeometryScale

/-! # Properties of the geometry of meshes (C26-C29, C65-C68) -/

set_option linter.unusedSectionVars false

namespace RSVS.Props

open RSVS.Geo RSVS.Spec

variable {K : Type} [Field K] [LinearOrder K] [IsStrictOrderedRing K]

/-- The Euclidean length exists over the reals. -/
theorem realLen_isLen : IsLen (fun v : P3 ℝ => Real.sqrt (Spec.inner v v)) := by
  intro v
  refine ⟨Real.sqrt_nonneg _, Real.mul_self_sqrt ?_⟩
  rw [inner_eq]
  have a := mul_self_nonneg (v 0); have b := mul_self_nonneg (v 1); have c := mul_self_nonneg (v 2)
  linarith

/-! ### C26 -/

/-- C26: after `Scale` the box is the domain in every direction with an extent; a flat direction
keeps its zero extent and lies at the lower bound. -/
theorem C26_scale (vs : List (P3 K)) (i : Fin 3) (lo hi : K) (h : IsBox vs i lo hi) (lb ub : P3 K)
    (hd : lb i ≤ ub i) :
    IsBox (scale lb ub vs).2 i (lb i) (if lo < hi then ub i else lb i) :=
  scale_box h lb ub hd

/-- A mesh with extent in two directions. -/
def sheet : List (P3 ℚ) := [![2, 5, 3], ![6, 5, 1], ![4, 5, 2]]

theorem sheet_box0 : IsBox sheet 0 2 6 := by
  unfold IsBox sheet; decide +kernel

theorem sheet_box1 : IsBox sheet 1 5 5 := by
  unfold IsBox sheet; decide +kernel

example : IsBox (scale (fun _ => 0) (fun _ => 1) sheet).2 0 0 1 ∧
    IsBox (scale (fun _ => 0) (fun _ => 1) sheet).2 1 0 0 := by
  have h0 := C26_scale sheet 0 2 6 sheet_box0 (fun _ => 0) (fun _ => 1) (by norm_num)
  have h1 := C26_scale sheet 1 5 5 sheet_box1 (fun _ => 0) (fun _ => 1) (by norm_num)
  rw [if_pos (by norm_num)] at h0
  rw [if_neg (by norm_num)] at h1
  exact ⟨h0, h1⟩

/-- C26, partial: scaling to another domain and back gives the coordinates of the first scaling.
Missing: another domain without extent, see `C26_degenerate_violated`. -/
theorem C26_roundTrip_partial (vs : List (P3 K)) (hne : vs ≠ []) (lb ub lb' ub' : P3 K)
    (hd : ∀ i, lb i ≤ ub i) (hd' : ∀ i, lb' i < ub' i) :
    (scale lb ub (scale lb' ub' (scale lb ub vs).2).2).2 = (scale lb ub vs).2 := by
  have h := roundTrip vs hne lb ub lb' ub' hd hd'
  show linearTransform (scale lb ub (scale lb' ub' (scale lb ub vs).2).2).1
    (linearTransform (scale lb' ub' (scale lb ub vs).2).1 (scale lb ub vs).2) = _
  unfold linearTransform
  rw [List.map_map]
  conv_rhs => rw [← List.map_id (scale lb ub vs).2]
  apply List.map_congr_left
  intro v _
  funext i
  exact h i (v i)

example : (scale (fun _ => 0) (fun _ => 1)
    (scale (fun _ => -3) (fun _ => 4) (scale (fun _ => 0) (fun _ => 1) sheet).2).2).2 =
    (scale (fun _ => 0) (fun _ => 1) sheet).2 :=
  C26_roundTrip_partial sheet (by simp [sheet]) _ _ _ _ (fun _ => by norm_num) (fun _ => by norm_num)

/-- C26 fails through a domain without extent: the mesh is flattened for good. -/
theorem C26_degenerate_violated :
    (scale (fun _ => 0) (fun _ => 1)
      (scale (fun _ => 0) (fun _ => 0) (scale (fun _ => 0) (fun _ => 1) sheet).2).2).2 ≠
    (scale (fun _ => 0) (fun _ => 1) sheet).2 := by
  decide +kernel

open Classical in
/-- C26, partial: in a family without cycles in which no mesh is reached in two ways, and in which no mesh
is both above and below, every parent and child mesh is transformed exactly once and no other.
Missing: other families, see `C26_diamond_violated` and `C26_cycle_violated`. -/
theorem C26_family_partial (up down : Nat → List Nat) (hu : Forest up) (hdn : Forest down) (id : Nat)
    (hdis : ∀ j, Relative up id j → ¬ Relative down id j) (t : Fin 3 → Trans K) (s : Store K) :
    ∃ N, ∀ n ≥ N, transformFamily up down t n id s = .ok (fun j =>
      if Relative up id j ∨ Relative down id j then linearTransform t (s j) else s j) := by
  obtain ⟨r, hr⟩ := hu.rank
  obtain ⟨r', hr'⟩ := hdn.rank
  refine ⟨r id + r' id + 1, fun n hn => ?_⟩
  unfold transformFamily
  rw [transformGen_forest hu t r hr _ id s (by omega)]
  show transformGen down t _ id _ = _
  rw [transformGen_forest hdn t r' hr' _ id _ (by omega)]
  congr 1
  funext j
  by_cases h1 : Relative up id j
  · rw [if_neg (hdis j h1), if_pos h1, if_pos (Or.inl h1)]
  · by_cases h2 : Relative down id j
    · rw [if_pos h2, if_neg h1, if_pos (Or.inr h2)]
    · rw [if_neg h2, if_neg h1, if_neg (not_or.mpr ⟨h1, h2⟩)]

/-- One parent with one parent of its own. -/
def chain : Nat → List Nat := fun a => if a = 0 then [1] else if a = 1 then [2] else []

theorem chain_forest : Forest chain := by
  refine ⟨⟨fun a => 2 - a, ?_⟩, ?_, ?_⟩
  · intro a f hf
    unfold chain at hf
    split at hf
    · simp at hf; simp only; omega
    · split at hf
      · simp at hf; simp only; omega
      · cases hf
  · intro a; unfold chain; split
    · simp
    · split <;> simp
  · intro a b f ha hb
    unfold chain at ha hb
    split at ha <;> split at hb <;> (try split at ha) <;> (try split at hb) <;>
      simp at ha hb <;> omega

theorem none_forest : Forest (fun _ => []) :=
  ⟨⟨fun _ => 0, by simp⟩, by simp, by simp⟩

theorem none_relative (a j : Nat) : ¬ Relative (fun _ => []) a j := by
  intro h
  obtain ⟨f, hf, _⟩ := relative_iff.mp h
  cases hf

open Classical in
example (t : Fin 3 → Trans ℚ) (s : Store ℚ) :
    ∃ N, ∀ n ≥ N, transformFamily chain (fun _ => []) t n 0 s = .ok (fun j =>
      if Relative chain 0 j ∨ Relative (fun _ => []) 0 j then linearTransform t (s j) else s j) :=
  C26_family_partial chain (fun _ => []) chain_forest none_forest 0 (fun j _ => none_relative 0 j) t s

open Classical in
/-- C26, partial (families as in `C26_family_partial`): `snake::Scale` applies the transformation of the snaking mesh once to the snaking mesh, to
the snake and to the family, and to nothing else. -/
theorem C26_snake_partial (up down : Nat → List Nat) (hu : Forest up) (hdn : Forest down) (id conn : Nat)
    (hdis : ∀ j, Relative up id j → ¬ Relative down id j) (hc : conn ≠ id)
    (hcr : ¬ Relative up id conn ∧ ¬ Relative down id conn) (lb ub : P3 K) :
    ∃ N, ∀ n ≥ N, ∀ s : Store K, snakeScale up down n id conn lb ub s = .ok (fun j =>
      if j = id ∨ j = conn ∨ Relative up id j ∨ Relative down id j
      then linearTransform (scale lb ub (s id)).1 (s j) else s j) := by
  obtain ⟨r, hr⟩ := hu.rank
  obtain ⟨r', hr'⟩ := hdn.rank
  refine ⟨r id + r' id + 1, fun n hn s => ?_⟩
  have hi : ¬ Relative up id id := fun h => absurd (relative_rank hr h) (lt_irrefl _)
  have hi' : ¬ Relative down id id := fun h => absurd (relative_rank hr' h) (lt_irrefl _)
  unfold snakeScale transformFamily
  simp only
  rw [transformGen_forest hu _ r hr _ id _ (by omega)]
  show transformGen down _ _ id _ = _
  rw [transformGen_forest hdn _ r' hr' _ id _ (by omega)]
  congr 1
  funext j
  by_cases h1 : j = id
  · subst h1
    rw [if_neg hi', if_neg hi, if_pos (Or.inl rfl), set_ne _ _ (Ne.symm hc), set_self]
    rfl
  · by_cases h2 : j = conn
    · subst h2
      rw [if_neg hcr.2, if_neg hcr.1, if_pos (Or.inr (Or.inl rfl)), set_self, set_ne _ _ hc]
    · by_cases h3 : Relative up id j
      · rw [if_neg (hdis j h3), if_pos h3, if_pos (Or.inr (Or.inr (Or.inl h3))), set_ne _ _ h2,
          set_ne _ _ h1]
      · by_cases h4 : Relative down id j
        · rw [if_pos h4, if_neg h3, if_pos (Or.inr (Or.inr (Or.inr h4))), set_ne _ _ h2,
            set_ne _ _ h1]
        · rw [if_neg h4, if_neg h3, if_neg (by simp [h1, h2, h3, h4]), set_ne _ _ h2, set_ne _ _ h1]

/-- C26, partial (families as in `C26_family_partial`): scaling a snake to another domain and back restores the snaking mesh, the snake and the
whole family. -/
theorem C26_snake_roundTrip_partial (up down : Nat → List Nat) (hu : Forest up) (hdn : Forest down)
    (id conn : Nat) (hdis : ∀ j, Relative up id j → ¬ Relative down id j) (hc : conn ≠ id)
    (hcr : ¬ Relative up id conn ∧ ¬ Relative down id conn) (lb ub lb' ub' : P3 K)
    (hd : ∀ i, lb i ≤ ub i) (hd' : ∀ i, lb' i < ub' i) :
    ∃ N, ∀ n ≥ N, ∀ s : Store K, s id ≠ [] → ∃ s1 s2,
      snakeScale up down n id conn lb ub s = .ok s1 ∧
      snakeScale up down n id conn lb' ub' s1 = .ok s2 ∧
      snakeScale up down n id conn lb ub s2 = .ok s1 := by
  classical
  obtain ⟨N, hN⟩ := C26_snake_partial up down hu hdn id conn hdis hc hcr lb ub
  obtain ⟨N', hN'⟩ := C26_snake_partial up down hu hdn id conn hdis hc hcr lb' ub'
  refine ⟨max N N', fun n hn s hs => ?_⟩
  have h1 := hN n (le_trans (le_max_left _ _) hn)
  have h2 := hN' n (le_trans (le_max_right _ _) hn)
  refine ⟨_, _, h1 s, h2 _, ?_⟩
  rw [h1]
  congr 1
  funext j
  have hrt := roundTrip (s id) hs lb ub lb' ub' hd hd'
  simp only [true_or, if_true]
  by_cases hj : j = id ∨ j = conn ∨ Relative up id j ∨ Relative down id j
  · simp only [if_pos hj]
    generalize linearTransform (scale lb ub (s id)).1 (s j) = w
    show linearTransform (scale lb ub (scale lb' ub' (scale lb ub (s id)).2).2).1
      (linearTransform (scale lb' ub' (scale lb ub (s id)).2).1 w) = w
    unfold linearTransform
    rw [List.map_map]
    conv_rhs => rw [← List.map_id w]
    apply List.map_congr_left
    intro v _
    funext i
    exact hrt i (v i)
  · simp only [if_neg hj]

theorem chain_relative (j : Nat) (h : Relative chain 0 j) : j = 1 ∨ j = 2 := by
  obtain ⟨f, hf, hb⟩ := relative_iff.mp h
  simp [chain] at hf
  subst hf
  rcases hb with rfl | hb
  · exact Or.inl rfl
  · obtain ⟨f, hf, hb⟩ := relative_iff.mp hb
    simp [chain] at hf
    subst hf
    rcases hb with rfl | hb
    · exact Or.inr rfl
    · obtain ⟨f, hf, _⟩ := relative_iff.mp hb
      simp [chain] at hf

example : ∃ N, ∀ n ≥ N, ∀ s : Store ℚ, s 0 ≠ [] → ∃ s1 s2,
      snakeScale chain (fun _ => []) n 0 9 (fun _ => 0) (fun _ => 1) s = .ok s1 ∧
      snakeScale chain (fun _ => []) n 0 9 (fun _ => -3) (fun _ => 4) s1 = .ok s2 ∧
      snakeScale chain (fun _ => []) n 0 9 (fun _ => 0) (fun _ => 1) s2 = .ok s1 :=
  C26_snake_roundTrip_partial chain (fun _ => []) chain_forest none_forest 0 9
    (fun j _ => none_relative 0 j) (by omega)
    ⟨fun h => by rcases chain_relative 9 h with h | h <;> omega, none_relative 0 9⟩ _ _ _ _
    (fun _ => by norm_num) (fun _ => by norm_num)

/-- Two parents with the same parent. -/
def diamond : Nat → List Nat := fun a => if a = 0 then [1, 2] else if a = 1 ∨ a = 2 then [3] else []

/-- C26 fails for a mesh which is a parent in two ways: it is transformed twice. -/
theorem C26_diamond_violated :
    ((transformFamily diamond (fun _ => []) (fun _ => (⟨0, 0, 2⟩ : Trans ℚ)) 4 0
      (fun _ => [![1, 1, 1]])).map (fun s => (s 1, s 2, s 3))) =
      .ok ([![2, 2, 2]], [![2, 2, 2]], [![4, 4, 4]]) := by
  decide +kernel

/-- C26: a family with a cycle is transformed for ever. -/
theorem C26_cycle_violated (t : Fin 3 → Trans K) (n a : Nat) (s : Store K) :
    transformGen (fun a => [1 - a]) t n a s = .error .diverges := by
  induction n generalizing a s with
  | zero => rfl
  | succ n ih =>
    unfold transformGen
    rw [List.foldlM_cons, ih]
    rfl

/-! ### C27 -/

/-- C27: the normal is perpendicular to both edges. -/
theorem C27_perpendicular (p q r : P3 K) :
    Spec.inner (planeNormal p q r) (fun i => q i - p i) = 0 ∧
      Spec.inner (planeNormal p q r) (fun i => r i - p i) = 0 := by
  constructor <;> rw [inner_eq, normal_zero, normal_one, normal_two] <;> ring

/-- C27: exchanging any two points changes the sign. -/
theorem C27_exchange (p q r : P3 K) (i : Fin 3) :
    planeNormal q p r i = - planeNormal p q r i ∧ planeNormal p r q i = - planeNormal p q r i ∧
      planeNormal r q p i = - planeNormal p q r i := by
  have h : ∀ a b c : P3 K, planeNormal a b c 0 = (c 1 - a 1) * (b 2 - a 2) - (c 2 - a 2) * (b 1 - a 1) ∧
      planeNormal a b c 1 = (c 2 - a 2) * (b 0 - a 0) - (c 0 - a 0) * (b 2 - a 2) ∧
      planeNormal a b c 2 = (c 0 - a 0) * (b 1 - a 1) - (c 1 - a 1) * (b 0 - a 0) :=
    fun a b c => ⟨rfl, rfl, rfl⟩
  have key : ∀ a b c d e f : P3 K, (∀ j, j = 0 ∨ j = 1 ∨ j = 2 →
      planeNormal a b c j = - planeNormal d e f j) → planeNormal a b c i = - planeNormal d e f i := by
    intro a b c d e f hj
    apply hj
    fin_cases i <;> simp
  refine ⟨key _ _ _ _ _ _ ?_, key _ _ _ _ _ _ ?_, key _ _ _ _ _ _ ?_⟩ <;>
    (rintro j (rfl | rfl | rfl) <;> simp only [normal_zero, normal_one, normal_two] <;> ring)

/-- C27: a translation does not change the normal. -/
theorem C27_translate (p q r t : P3 K) :
    planeNormal (fun i => p i + t i) (fun i => q i + t i) (fun i => r i + t i) =
      planeNormal p q r := by
  refine ext3 ?_ ?_ ?_ <;> simp only [normal_zero, normal_one, normal_two] <;> ring

/-- C27: the normal is zero exactly for points on a line. -/
theorem C27_zero_iff (p q r : P3 K) : planeNormal p q r = 0 ↔ Collinear p q r :=
  normal_eq_zero_iff p q r

example : Collinear (![0, 0, 0] : P3 ℚ) ![1, 2, 3] ![2, 4, 6] :=
  (C27_zero_iff _ _ _).mp (by decide +kernel)

example : ¬ Collinear (![0, 0, 0] : P3 ℚ) ![1, 0, 0] ![0, 1, 0] := fun h =>
  absurd ((C27_zero_iff _ _ _).mpr h) (by decide +kernel)

/-- C27: the distance of a vertex to a plane is zero exactly for points on a plane. -/
theorem C27_distance_zero_iff (p q r : P3 K) (x y z : K) :
    vertexDistance p q r [x, y, z] = .ok 0 ↔ Coplanar p q r ![x, y, z] := by
  rw [vertexDistance_ok, ← coplanar_iff]
  exact ⟨fun h => Except.ok.inj h, fun h => congrArg _ h⟩

example : Coplanar (![0, 0, 1] : P3 ℚ) ![1, 0, 1] ![0, 1, 1] ![7, -3, 1] :=
  (C27_distance_zero_iff _ _ _ _ _ _).mp (by decide +kernel)

/-- C27: vertices without three coordinates are refused. -/
theorem C27_distance_size (p q r : P3 K) (l : List K) (h : l.length ≠ 3) :
    vertexDistance p q r l = .error .throws := by
  unfold vertexDistance; rw [if_pos h]

/-- The value of `VertexDistanceToPlane` is not the distance: the point one above the plane of a
triangle of side two has the value -4. -/
theorem C27_distance_scale_violated :
    vertexDistance (![0, 0, 0] : P3 ℚ) ![2, 0, 0] ![0, 2, 0] [0, 0, 1] = .ok (-4) := by
  decide +kernel

/-! ### C28 -/

/-- C28, partial: a list with one point gives its distance, an empty list gives nothing and a list
of a length which is not a multiple of three is refused.  Missing: lists of two points or more, for
which the claim fails (`C28_violated`). -/
theorem C28_one_partial (p q r : P3 K) (x y z : K) :
    verticesDistance p q r [x, y, z] = (vertexDistance p q r [x, y, z]).map (fun d => [d]) ∧
      verticesDistance p q r [] = .ok [] ∧
      (∀ l : List K, l.length % 3 ≠ 0 → verticesDistance p q r l = .error .throws) := by
  refine ⟨?_, by simp [verticesDistance], ?_⟩
  · rw [vertexDistance_ok]
    unfold verticesDistance
    rw [if_neg (by simp), if_neg (by simp)]
    show (vertexDistance p q r [x, y, z] >>= _) = _
    rw [vertexDistance_ok, show [x, y, z].length / 3 - 1 = 0 from by simp]
    rfl
  · intro l hl
    unfold verticesDistance
    rw [if_pos hl]

/-- C28 fails for every list with two points or more: the loop uses an empty test vertex. -/
theorem C28_violated (p q r : P3 K) (l : List K) (h3 : l.length % 3 = 0) (h : 6 ≤ l.length) :
    verticesDistance p q r l = .error .ub := by
  match l, h with
  | x :: y :: z :: l, h =>
    simp only [List.length_cons] at h h3
    obtain ⟨k, hk⟩ : ∃ k, (l.length + 1 + 1 + 1) / 3 - 1 = k + 1 :=
      ⟨(l.length + 1 + 1 + 1) / 3 - 2, by omega⟩
    unfold verticesDistance
    simp only [List.length_cons]
    rw [if_neg (by omega), if_neg (by omega)]
    show (vertexDistance p q r [x, y, z] >>= _) = _
    rw [vertexDistance_ok, hk]
    rfl

example : verticesDistance (![0, 0, 0] : P3 ℚ) ![1, 0, 0] ![0, 1, 0] [0, 0, 1, 0, 0, 2] =
    .error .ub :=
  C28_violated _ _ _ _ (by decide) (by decide)

/-! ### C29 -/

/-- C29, partial: the value is twice the length-weighted mean of the mid-points, for every length
function.  Missing: the factor, see `C29_outside_violated` and `C29_translate_violated`. -/
theorem C29_twice_partial (len : P3 K → K) (es : List (P3 K × P3 K)) (i : Fin 3) :
    centreVolu len es i = 2 * mean (es.map (midWeight len)) i :=
  centreVolu_eq len es i

/-- C29, partial: half of the value is within the bounds of the vertices. -/
theorem C29_half_inside_partial {len : P3 K → K} (hl : IsLen len) (es : List (P3 K × P3 K))
    (hs : ∃ e ∈ es, e.1 ≠ e.2) : InBounds es (fun i => centreVolu len es i / 2) := by
  have hpos : 0 < ((es.map (midWeight len)).map (·.2)).sum := by
    rcases lt_or_eq_of_le (total_nonneg hl es) with h | h
    · exact h
    · exfalso
      obtain ⟨e, he, hne⟩ := hs
      have hnn : ∀ x ∈ (es.map (midWeight len)).map (·.2), 0 ≤ x := by
        intro x hx
        obtain ⟨y, hy, rfl⟩ := List.mem_map.mp hx
        obtain ⟨e, _, rfl⟩ := List.mem_map.mp hy
        exact (hl _).1
      have hm : (midWeight len e).2 ∈ (es.map (midWeight len)).map (·.2) :=
        List.mem_map_of_mem (List.mem_map_of_mem he)
      have h1 := List.single_le_sum hnn _ hm
      have h0 : len (fun i => e.1 i - e.2 i) = 0 := le_antisymm (h ▸ h1) (hl _).1
      apply hne
      funext i
      have := congrFun ((len_zero_iff hl _).mp h0) i
      exact sub_eq_zero.mp this
  have : (fun i => centreVolu len es i / 2) = mean (es.map (midWeight len)) := by
    funext i; rw [centreVolu_eq]; ring
  rw [this]
  exact mean_inBounds (fun v => (hl v).1) es hpos

/-- A triangle at distance ten of the origin, as the edges of a surface. -/
def farEdges (K : Type) [Field K] : List (P3 K × P3 K) :=
  [(![10, 0, 0], ![11, 0, 0]), (![11, 0, 0], ![10, 1, 0]), (![10, 1, 0], ![10, 0, 0])]

example : InBounds (farEdges ℝ)
    (fun i => centreVolu (fun v => Real.sqrt (Spec.inner v v)) (farEdges ℝ) i / 2) :=
  C29_half_inside_partial realLen_isLen _
    ⟨_, List.mem_cons_self, fun h => by have := congrFun h 0; norm_num at this⟩

/-- C29 fails: the centre of a triangle at distance ten is outside of its bounds. -/
theorem C29_outside_violated {len : P3 K → K} (hl : IsLen len) :
    ¬ InBounds (farEdges K) (centreVolu len (farEdges K)) := by
  have hin := C29_half_inside_partial hl (farEdges K)
    ⟨_, List.mem_cons_self, fun h => by have := congrFun h 0; simp at this⟩
  have hb : ∀ e ∈ farEdges K, 10 ≤ e.1 0 ∧ e.1 0 ≤ 11 ∧ 10 ≤ e.2 0 ∧ e.2 0 ≤ (11 : K) := by
    intro e he
    simp only [farEdges, List.mem_cons, List.not_mem_nil, or_false] at he
    rcases he with rfl | rfl | rfl <;> simp <;> norm_num
  intro h
  have h1 := (hin 0 10 11 hb).1
  have h2 := (h 0 10 11 hb).2
  linarith

/-- C29 fails: moving the mesh by `t` moves the centre by `2 t`. -/
theorem C29_translate_violated {len : P3 K → K} (es : List (P3 K × P3 K))
    (hs : ((es.map (midWeight len)).map (·.2)).sum ≠ 0) (t : P3 K) (i : Fin 3) :
    centreVolu len (shiftEdges t es) i = centreVolu len es i + 2 * t i := by
  rw [centreVolu_eq, centreVolu_eq, midWeight_shift, mean_shift _ _ hs]
  ring

/-! ### C65 -/

/-- C65: the pseudo-centroid of a surface is the length-weighted mean of the mid-points of its
edges, if the perimeter is not below the tolerance. -/
theorem C65_surface {len : P3 K → K} (hl : IsLen len) (eps : K) (es : List (P3 K × P3 K))
    (h : eps ≤ ((es.map (midWeight len)).map (·.2)).sum) :
    (surfCentroid len eps es).1 = mean (es.map (midWeight len)) ∧
      (surfCentroid len eps es).2 = ((es.map (midWeight len)).map (·.2)).sum :=
  ⟨surfCentroid_far hl es h, surfCentroid_snd hl eps es⟩

example : (surfCentroid (fun v => Real.sqrt (Spec.inner v v)) 0 (farEdges ℝ)).1 =
    mean ((farEdges ℝ).map (midWeight (fun v => Real.sqrt (Spec.inner v v)))) :=
  (C65_surface realLen_isLen 0 _ (total_nonneg realLen_isLen _)).1

/-- C65: it is within the bounds of the vertices and moves with the mesh, for every surface with
edges. -/
theorem C65_surface_inside {len : P3 K → K} (hl : IsLen len) (eps : K) (he : 0 < eps)
    (es : List (P3 K × P3 K)) (hne : es ≠ []) (t : P3 K) :
    InBounds es (surfCentroid len eps es).1 ∧
      ∀ i, (surfCentroid len eps (shiftEdges t es)).1 i = (surfCentroid len eps es).1 i + t i :=
  ⟨surfCentroid_inBounds hl he es hne, surfCentroid_shift hl he t es hne⟩

example : InBounds (farEdges ℝ)
    (surfCentroid (fun v => Real.sqrt (Spec.inner v v)) 1 (farEdges ℝ)).1 :=
  (C65_surface_inside realLen_isLen 1 one_pos _ (by simp [farEdges]) (fun _ => 0)).1

/-- C65: the pseudo-centroid of a volume is within the bounds and moves with the mesh. -/
theorem C65_volume_inside [FloorRing K] {len : P3 K → K} (hl : IsLen len) (eps : K) (he : 0 < eps)
    (ss : List (List (P3 K × P3 K))) (hne : ss ≠ []) (hne' : ∀ es ∈ ss, es ≠ []) (t : P3 K) :
    InBounds ss.flatten (voluCentroid len eps ss) ∧
      ∀ i, voluCentroid len eps (ss.map (shiftEdges t)) i = voluCentroid len eps ss i + t i :=
  ⟨voluCentroid_inBounds hl he ss hne hne', voluCentroid_shift hl he t ss hne hne'⟩

example : InBounds [farEdges ℝ, farEdges ℝ].flatten
    (voluCentroid (fun v => Real.sqrt (Spec.inner v v)) 1 [farEdges ℝ, farEdges ℝ]) :=
  (C65_volume_inside realLen_isLen 1 one_pos _ (by simp) (by simp [farEdges]) (fun _ => 0)).1

/-- C65, partial: for surfaces with whole perimeters, the centroid of the volume is the mean of the
centroids of the surfaces weighted with their perimeters.  Missing: other perimeters, which are
truncated to an `int`, see `C65_truncated_violated`. -/
theorem C65_volume_partial [FloorRing K] {len : P3 K → K} (hl : IsLen len) (eps : K)
    (ss : List (List (P3 K × P3 K)))
    (hw : ∀ es ∈ ss, ∃ n : Int, ((es.map (midWeight len)).map (·.2)).sum = (n : K))
    (h : eps ≤ (ss.map (fun es => ((es.map (midWeight len)).map (·.2)).sum)).sum) :
    voluCentroid len eps ss =
      mean (ss.map (fun es => ((surfCentroid len eps es).1,
        ((es.map (midWeight len)).map (·.2)).sum))) := by
  have ht : ss.map (voluTerm len eps) = ss.map (fun es => ((surfCentroid len eps es).1,
      ((es.map (midWeight len)).map (·.2)).sum)) := by
    apply List.map_congr_left
    intro es hes
    obtain ⟨n, hn⟩ := hw es hes
    unfold voluTerm
    rw [surfCentroid_snd hl, hn, toInt_int]
  rw [voluCentroid_far hl ss, ht]
  rw [ht, List.map_map]
  exact h

example : voluCentroid (fun v => Real.sqrt (Spec.inner v v)) 1
    [[((![0, 0, 0] : P3 ℝ), ![2, 0, 0])]] = mean ([[((![0, 0, 0] : P3 ℝ), ![2, 0, 0])]].map (fun es =>
      ((surfCentroid (fun v => Real.sqrt (Spec.inner v v)) 1 es).1,
        ((es.map (midWeight (fun v => Real.sqrt (Spec.inner v v)))).map (·.2)).sum))) := by
  have h : (fun v : P3 ℝ => Real.sqrt (Spec.inner v v))
      (fun i => (![0, 0, 0] : P3 ℝ) i - (![2, 0, 0] : P3 ℝ) i) = 2 :=
    len_eq_of_sq realLen_isLen (by norm_num) (by simp [inner_eq])
  apply C65_volume_partial realLen_isLen
  · intro es hes
    rw [List.mem_singleton.mp hes]
    exact ⟨2, by simpa [midWeight] using h⟩
  · have e : (([((![0, 0, 0] : P3 ℝ), (![2, 0, 0] : P3 ℝ))].map
        (midWeight (fun v => Real.sqrt (Spec.inner v v)))).map (·.2)).sum = 2 := by
      simpa [midWeight] using h
    simp only [List.map_cons, List.map_nil, List.sum_cons, List.sum_nil] at e ⊢
    linarith

/-- Two surfaces of two edges, of perimeter one half each, at 0 and at 10. -/
def smallSurfs (K : Type) [Field K] : List (List (P3 K × P3 K)) :=
  [[(![0, 0, 0], ![1 / 4, 0, 0]), (![1 / 4, 0, 0], ![0, 0, 0])],
    [(![10, 0, 0], ![10 + 1 / 4, 0, 0]), (![10 + 1 / 4, 0, 0], ![10, 0, 0])]]

theorem len_axis {len : P3 K → K} (hl : IsLen len) (v : P3 K) (h1 : v 1 = 0) (h2 : v 2 = 0) :
    len v = |v 0| := by
  apply len_eq_of_sq hl (abs_nonneg _)
  rw [abs_mul_abs_self, inner_eq, h1, h2]; ring

/-- C65 fails for a volume with surfaces of perimeter below one: all weights are truncated to zero
and the centroid is that of the first surface, so the order of the surfaces matters. -/
theorem C65_truncated_violated [FloorRing K] {len : P3 K → K} (hl : IsLen len) (eps : K)
    (he : 0 < eps) (he' : eps ≤ 1 / 2) :
    voluCentroid len eps (smallSurfs K) 0 = 1 / 8 ∧
      voluCentroid len eps (smallSurfs K).reverse 0 = 10 + 1 / 8 := by
  have hlen : ∀ a b : K, len (fun i => (![a, 0, 0] : P3 K) i - (![b, 0, 0] : P3 K) i) = |a - b| := by
    intro a b
    rw [len_axis hl _ (by simp) (by simp)]
    simp
  have hq : |(1 / 4 : K)| = 1 / 4 := abs_of_pos (by norm_num)
  have tot : ∀ c : K, (([(![c, 0, 0], ![c + 1 / 4, 0, 0]), (![c + 1 / 4, 0, 0], ![c, 0, 0])].map
      (midWeight len)).map (·.2)).sum = 1 / 2 := by
    intro c
    simp only [List.map_cons, List.map_nil, List.sum_cons, List.sum_nil, midWeight, hlen]
    rw [show c - (c + 1 / 4) = -(1 / 4) by ring, show c + 1 / 4 - c = 1 / 4 by ring, abs_neg, hq]
    norm_num
  have cen : ∀ c : K, (surfCentroid len eps
      [(![c, 0, 0], ![c + 1 / 4, 0, 0]), (![c + 1 / 4, 0, 0], ![c, 0, 0])]).1 0 = c + 1 / 8 := by
    intro c
    rw [surfCentroid_far hl _ (by rw [tot c]; exact he')]
    unfold mean
    rw [tot c]
    simp only [List.map_cons, List.map_nil, List.sum_cons, List.sum_nil, midWeight, hlen]
    rw [show c - (c + 1 / 4) = -(1 / 4) by ring, show c + 1 / 4 - c = 1 / 4 by ring, abs_neg, hq]
    simp only [Matrix.cons_val_zero]
    ring
  have trunc : toInt (1 / 2 : K) = 0 := by
    unfold toInt
    rw [if_pos (by norm_num), Int.floor_eq_iff]
    norm_num
  have wz : ∀ c : K, (voluTerm len eps
      [(![c, 0, 0], ![c + 1 / 4, 0, 0]), (![c + 1 / 4, 0, 0], ![c, 0, 0])]).2 = 0 := by
    intro c
    unfold voluTerm
    rw [surfCentroid_snd hl, tot c, trunc]; simp
  have two : ∀ c d : K, voluCentroid len eps
      [[(![c, 0, 0], ![c + 1 / 4, 0, 0]), (![c + 1 / 4, 0, 0], ![c, 0, 0])],
        [(![d, 0, 0], ![d + 1 / 4, 0, 0]), (![d + 1 / 4, 0, 0], ![d, 0, 0])]] 0 = c + 1 / 8 := by
    intro c d
    rw [voluCentroid_near hl, cen c]
    simp only [List.map_cons, List.map_nil, List.sum_cons, List.sum_nil, wz]
    simpa using he
  have e : smallSurfs K = [[(![0, 0, 0], ![0 + 1 / 4, 0, 0]), (![0 + 1 / 4, 0, 0], ![0, 0, 0])],
      [(![10, 0, 0], ![10 + 1 / 4, 0, 0]), (![10 + 1 / 4, 0, 0], ![10, 0, 0])]] := by
    simp [smallSurfs]
  constructor
  · rw [e, two 0 10]; ring
  · rw [e]
    exact two 10 0

/-! ### C66 -/

/-- C66: the pseudo-normal does not change with a translation. -/
theorem C66_translate (len : P3 K → K) (vs : List (P3 K)) (t : P3 K) :
    pseudoNormal len (vs.map (fun v i => v i + t i)) = pseudoNormal len vs :=
  pseudoNormal_shift len vs t

/-- C66: it changes sign with the direction of the vertices. -/
theorem C66_reverse {len : P3 K → K} (hl : IsLen len) (vs : List (P3 K)) (i : Fin 3) :
    pseudoNormal len vs.reverse i = - pseudoNormal len vs i :=
  pseudoNormal_reverse hl vs i

/-- C66: it is perpendicular to the plane of a plane polygon, convex or not. -/
theorem C66_planar (len : P3 K → K) (vs : List (P3 K)) (n : P3 K) (hn : n ≠ 0) (d : K)
    (hd : ∀ v ∈ vs, Spec.inner n v = d) (p q : P3 K) (hp : p ∈ vs) (hq : q ∈ vs) :
    Spec.inner (pseudoNormal len vs) (fun i => p i - q i) = 0 :=
  pseudoNormal_planar len vs n hn d hd p q hp hq

example (len : P3 ℚ → ℚ) : Spec.inner (pseudoNormal len [![0, 0, 1], ![3, 0, 1], ![1, 1, 1], ![0, 3, 1]])
    (fun i => (![3, 0, 1] : P3 ℚ) i - (![0, 3, 1] : P3 ℚ) i) = 0 :=
  C66_planar len _ ![0, 0, 1] (fun h => by have := congrFun h 2; simp at this) 1
    (by intro v hv
        simp only [List.mem_cons, List.not_mem_nil, or_false] at hv
        rcases hv with rfl | rfl | rfl | rfl <;> simp [inner_eq]) _ _ (by simp) (by simp)

/-- C66: for a triangle it is the unit normal, on the other side of `PlaneNormal`. -/
theorem C66_triangle {len : P3 K → K} (hl : IsLen len) (p q r : P3 K) (h : ¬ Collinear p q r) :
    (∀ i, pseudoNormal len [p, q, r] i = - planeNormal p q r i / len (planeNormal p q r)) ∧
      len (pseudoNormal len [p, q, r]) = 1 := by
  have hz : len (planeNormal p q r) ≠ 0 := fun h0 =>
    h ((normal_eq_zero_iff p q r).mp ((len_zero_iff hl _).mp h0))
  refine ⟨pseudoNormal_triangle hl p q r, ?_⟩
  have e : pseudoNormal len [p, q, r] =
      fun i => planeNormal p q r i * (- (1 / len (planeNormal p q r))) := by
    funext i; rw [pseudoNormal_triangle hl]; ring
  rw [e, len_smul hl, abs_neg, abs_of_nonneg (div_nonneg zero_le_one (hl _).1)]
  field_simp

example : (fun v : P3 ℝ => Real.sqrt (Spec.inner v v)) (pseudoNormal
    (fun v => Real.sqrt (Spec.inner v v)) [![0, 0, 0], ![2, 0, 0], ![0, 2, 0]]) = 1 :=
  (C66_triangle realLen_isLen _ _ _ (fun h => by
    have := congrFun ((C27_zero_iff _ _ _).mpr h) 2
    rw [normal_two] at this
    norm_num at this)).2

/-! ### C67 -/

/-- C67, partial: with the engine `rsvs` every `su2` file is written in the physical domain.
Missing: the other engines, see `C67_engine_violated`. -/
theorem C67_su2_partial (l : List Export) (x : Export × Dom) (hx : x ∈ (exporting true l).1)
    (hs : x.1 = .su2) : x.2 = .physical := by
  have key : ∀ l, ∀ x ∈ (exportLoop true .physical l).1, x.1 = .su2 → x.2 = Dom.physical := by
    intro l
    induction l with
    | nil => intro x hx; cases hx
    | cons e l ih =>
      intro x hx hs
      cases e with
      | su2 =>
        rcases List.mem_cons.mp hx with rfl | hx
        · rfl
        · exact ih x hx hs
      | snake =>
        rcases List.mem_cons.mp hx with rfl | hx
        · cases hs
        · exact ih x hx hs
      | none => exact ih x hx hs
      | unknown => exact ih x hx hs
  exact key l x hx hs

example : ∃ x ∈ (exporting true [.snake, .su2]).1, x.1 = .su2 ∧ x.2 = .physical :=
  ⟨(.su2, .physical), by decide, rfl, rfl⟩

/-- C67: without a `snake` export before it, a `su2` file is in the physical domain with every
engine. -/
theorem C67_su2_first_partial (b : Bool) (l : List Export) (hn : Export.snake ∉ l)
    (x : Export × Dom) (hx : x ∈ (exporting b l).1) : x = (.su2, .physical) := by
  have key : ∀ l, Export.snake ∉ l → ∀ x ∈ (exportLoop b .physical l).1, x = (.su2, Dom.physical) := by
    intro l
    induction l with
    | nil => intro _ x hx; cases hx
    | cons e l ih =>
      intro hn x hx
      have hn' : Export.snake ∉ l := fun h => hn (List.mem_cons_of_mem _ h)
      cases e with
      | su2 =>
        rcases List.mem_cons.mp hx with rfl | hx
        · rfl
        · exact ih hn' x hx
      | snake => exact absurd List.mem_cons_self hn
      | none => exact ih hn' x hx
      | unknown => exact ih hn' x hx
  exact key l hn x hx

/-- C67 fails with another engine: after a `snake` export the `su2` file is written in the
computational domain. -/
theorem C67_engine_violated :
    (exporting false [.snake, .su2]).1 = [(.snake, .computational), (.su2, .computational)] ∧
      (exporting false [.su2, .snake]).1 = [(.su2, .physical), (.snake, .computational)] := by
  decide

/-! ### C68 -/

/-- An operation after which the stored norm can be trusted. -/
def SafeOp (c : CoordVec K) : CoordVec.Op K → Prop
  | .mult x => 0 ≤ x
  | .div x => 0 ≤ x
  | .normalize => c.elems ≠ 0
  | _ => True

/-- C68, partial: every operation keeps the norm right while the flag is set.  Missing: negative
factors (`C68_negative_violated`) and the normalisation of the zero vector. -/
theorem C68_step_partial {len : P3 K → K} (hl : IsLen len) (c : CoordVec K) (o : CoordVec.Op K)
    (ho : SafeOp c o) (h : c.upToDate = true → c.norm = len c.elems)
    (hu : (c.step len o).upToDate = true) : (c.step len o).norm = len (c.step len o).elems := by
  have hmult : ∀ x : K, 0 ≤ x → c.upToDate = true →
      x * c.norm = len (fun i => c.elems i * x) := by
    intro x hx hc
    rw [len_smul hl, abs_of_nonneg hx, h hc]
  cases o with
  | getNorm =>
    simp only [CoordVec.step, CoordVec.getNorm] at hu ⊢
    split
    · exact h ‹_›
    · rfl
  | calcNorm => rfl
  | assign v => rfl
  | write f => cases hu
  | flipsign =>
    show c.norm = len (fun i => - c.elems i)
    rw [len_neg hl]; exact h hu
  | mult x => exact hmult x ho hu
  | div x => exact hmult (1 / x) (div_nonneg zero_le_one ho) hu
  | normalize =>
    have hn : (c.getNorm len).norm = len c.elems := by
      unfold CoordVec.getNorm
      split
      · exact h ‹_›
      · rfl
    have hz : len c.elems ≠ 0 := fun h0 => ho ((len_zero_iff hl _).mp h0)
    show (1 : K) = len (fun i => c.elems i / (c.getNorm len).norm)
    rw [hn]
    have e : (fun i => c.elems i / len c.elems : P3 K) = fun i => c.elems i * (1 / len c.elems) := by
      funext i; ring
    rw [e, len_smul hl, abs_of_nonneg (div_nonneg zero_le_one (hl _).1)]
    field_simp

/-- Vectors made by operations which can be trusted. -/
inductive Made (len : P3 K → K) : CoordVec K → Prop
  | init : Made len CoordVec.init
  | step (c : CoordVec K) (o : CoordVec.Op K) (hc : Made len c) (ho : SafeOp c o) :
      Made len (c.step len o)

/-- C68, partial: after any sequence of such operations a norm marked as up to date is the
length. -/
theorem C68_made_partial {len : P3 K → K} (hl : IsLen len) (c : CoordVec K) (hc : Made len c)
    (hu : c.upToDate = true) : c.norm = len c.elems := by
  induction hc with
  | init => cases hu
  | step c o _ ho ih => exact C68_step_partial hl c o ho ih hu

example : Made (fun v : P3 ℝ => Real.sqrt (Spec.inner v v))
    ((CoordVec.init.step (fun v => Real.sqrt (Spec.inner v v)) (.assign ![3, 4, 0])).step
      (fun v => Real.sqrt (Spec.inner v v)) (.mult 2)) :=
  .step _ _ (.step _ _ .init trivial) (by show (0 : ℝ) ≤ 2; norm_num)

/-- C68 fails for a negative factor: the norm is negative and marked as up to date. -/
theorem C68_negative_violated {len : P3 K → K} (hl : IsLen len) :
    let c : CoordVec K := (CoordVec.init.step len (.assign ![1, 0, 0])).step len (.mult (-1))
    c.upToDate = true ∧ c.norm = -1 ∧ len c.elems = 1 := by
  have h1 : len (![1, 0, 0] : P3 K) = 1 := by
    rw [len_axis hl _ (by simp) (by simp)]; simp
  refine ⟨rfl, ?_, ?_⟩
  · show (-1 : K) * len ![1, 0, 0] = -1
    rw [h1]; ring
  · show len (fun i => (![1, 0, 0] : P3 K) i * (-1)) = 1
    rw [len_smul hl, h1]; simp

end RSVS.Props
