import Mathlib.Analysis.Real.Sqrt
import Verif.Lemmas.Curvature
import Verif.Lemmas.SphereStep

/-!
# Properties of placing spawned snaxels on a sphere: C99
-/

namespace RSVS.Props

open RSVS.Spec RSVS.Geo RSVS.Sphere

variable {K : Type} [Field K] [LinearOrder K] [IsStrictOrderedRing K]

/-- C99, full statement: the parameters are those of the points of the line that are on the sphere, and there is none when
infinities are given. -/
def C99_intersect_statement (K : Type) [Field K] [LinearOrder K] (eps : K) : Prop :=
  ∀ (root : K → K), IsRoot root → ∀ (line off : P3 K) (r : K), line ≠ 0 →
    (intersect eps root line off r = .miss ∧ ∀ s, ¬ OnSphere off r line s) ∨
    ∃ x y, intersect eps root line off r = .two x y ∧ x ≤ y ∧ ∀ s, OnSphere off r line s ↔ s = x ∨ s = y

/-- C99 (partial): the parameters are right unless the discriminant is between zero and the tolerance; for a line without
direction they are not numbers. -/
theorem C99_intersect_partial (eps : K) (heps : 0 < eps) (root : K → K) (hr : IsRoot root) (line off : P3 K) (r : K) :
    (line = 0 → intersect eps root line off r = .nan) ∧
    (line ≠ 0 → disc line off r < 0 → intersect eps root line off r = .miss ∧ ∀ s, ¬ OnSphere off r line s) ∧
    (line ≠ 0 → (disc line off r = 0 ∨ eps ≤ disc line off r) → ∃ x y, intersect eps root line off r = .two x y ∧ x ≤ y ∧
      ∀ s, OnSphere off r line s ↔ s = x ∨ s = y) := by
  refine ⟨fun h => ?_, fun hl h => ⟨?_, fun s hs => ?_⟩, fun hl h => ?_⟩
  · subst h
    have h0 : ∀ v : P3 K, inner 0 v = 0 := fun v => by simp [inner_eq]
    unfold intersect
    simp only [dot_eq, h0]
    rw [if_neg (by simp)]
    simp
  · unfold intersect
    simp only [dot_eq]
    rw [if_pos]
    exact h
  · rw [onSphere_iff] at hs
    have ha := inner_self_pos hl
    have : disc line off r = (2 * inner line line * s + 2 * inner line off) * (2 * inner line line * s + 2 * inner line off) := by
      unfold disc
      linear_combination (-4 * inner line line) * hs
    rw [this] at h
    exact absurd h (not_lt.mpr (mul_self_nonneg _))
  · have ha := inner_self_pos hl
    have key : ∀ q : K, 0 ≤ q → q * q = disc line off r →
        (-(2 * inner line off) - q) * (1 / (2 * inner line line)) ≤ (-(2 * inner line off) + q) * (1 / (2 * inner line line)) ∧
        ∀ s, OnSphere off r line s ↔ s = (-(2 * inner line off) - q) * (1 / (2 * inner line line)) ∨
          s = (-(2 * inner line off) + q) * (1 / (2 * inner line line)) := by
      intro q hq hq2
      refine ⟨?_, fun s => ?_⟩
      · have : 0 < 1 / (2 * inner line line) := by positivity
        nlinarith
      · rw [onSphere_iff]
        unfold disc at hq2
        have ha' := ha.ne'
        have e : inner line line * (s * s) + 2 * inner line off * s + (inner off off - r * r) =
            inner line line * ((s - (-(2 * inner line off) - q) * (1 / (2 * inner line line))) *
              (s - (-(2 * inner line off) + q) * (1 / (2 * inner line line)))) := by
          field_simp
          linear_combination hq2
        rw [e, mul_eq_zero, mul_eq_zero, sub_eq_zero, sub_eq_zero]
        simp [ha']
    rcases h with h | h
    · obtain ⟨k1, k2⟩ := key 0 le_rfl (by rw [h, mul_zero])
      refine ⟨_, _, ?_, k1, k2⟩
      unfold intersect
      simp only [dot_eq]
      have h' : 2 * inner line off * (2 * inner line off) - 4 * inner line line * (inner off off - r * r) = 0 := h
      rw [h', if_neg (lt_irrefl _), if_neg ha.ne', if_pos (by simpa using heps), sub_zero, add_zero]
    · obtain ⟨q, h1, h2, h3⟩ := intersect_two hr hl h heps
      obtain ⟨k1, k2⟩ := key q h1 h2
      exact ⟨_, _, h3, k1, k2⟩

/-- The inputs of the placing of snaxels: a unit normal, an offset that is not negative, a step, directions of the edges, and
discriminants that are not below the tolerance. -/
structure MayPlace (eps : K) (root : K → K) (spawn offset : K) (n : P3 K) (lines : List (P3 K)) : Prop where
  eps_pos : 0 < eps
  isRoot : IsRoot root
  spawn_pos : 0 < spawn
  small : spawn < 1 / 2
  offset_nonneg : 0 ≤ offset
  unit : inner n n = 1
  direction : ∀ l ∈ lines, l ≠ 0
  clear : ∀ l ∈ lines, eps ≤ disc l (fun i => n i * offset) (offset + maxEdge root lines * spawn)

/-- C99: where the snaxels around a vertex are placed.  There is a scale at which the snaxels whose edges do not point against
the normal are on one sphere, the others are as far from the vertex as the sphere is above it, and all keep the least distance; the
farthest goes the whole step. -/
theorem C99_step (eps : K) (root : K → K) (spawn offset : K) (n : P3 K) (lines : List (P3 K))
    (h : MayPlace eps root spawn offset n lines) (hne : lines ≠ []) :
    ∃ scale xs, 0 < scale ∧ rawStep eps root spawn offset n lines = .ok (some xs) ∧ List.Forall₂ (fun l x =>
      spawn / 10 * maxEdge root lines ≤ x * norm root l ∧ (x ≤ spawn ∨ x * norm root l = spawn / 10 * maxEdge root lines) ∧
      (x * norm root l = spawn / 10 * maxEdge root lines ∨
        (0 ≤ inner l n * offset ∧ OnSphere (fun i => scale * (n i * offset)) (scale * (offset + maxEdge root lines * spawn)) l x) ∨
        (inner l n * offset < 0 ∧ x * norm root l = scale * (maxEdge root lines * spawn)))) lines xs ∧
      ∃ x ∈ xs, spawn ≤ x := by
  have hM := maxFold (norm root) lines 0
  have hMdef : maxEdge root lines = lines.foldl (fun a l => max (norm root l) a) 0 := rfl
  rw [← hMdef] at hM
  set M := maxEdge root lines with hMd
  have hnorm : ∀ l ∈ lines, 0 < norm root l := by
    intro l hl
    have h1 := inner_self_pos (h.direction l hl)
    have h2 := h.isRoot (inner l l) h1.le
    unfold norm
    rw [dot_eq]
    rcases h2.1.lt_or_eq with h3 | h3
    · exact h3
    · rw [← h3] at h2; simp at h2; exact absurd h2 h1.ne
  have hMpos : 0 < M := by
    obtain ⟨l, hl⟩ := List.exists_mem_of_ne_nil lines hne
    exact lt_of_lt_of_le (hnorm l hl) (hM.2.1 l hl)
  have hoo : inner (fun i => n i * offset) (fun i => n i * offset) = offset * offset := by
    have := h.unit
    simp only [inner_eq] at this ⊢
    linear_combination (offset * offset) * this
  have hin : inner (fun i => n i * offset) (fun i => n i * offset) < (offset + M * spawn) * (offset + M * spawn) := by
    rw [hoo]
    have : 0 < M * spawn := mul_pos hMpos h.spawn_pos
    nlinarith [h.offset_nonneg]
  have hlo : ∀ l : P3 K, inner l (fun i => n i * offset) = inner l n * offset := fun l => by simp only [inner_eq]; ring
  have hpick : ∀ l ∈ lines, ∃ p, pick (spawn * M / norm root l)
      (intersect eps root l (fun i => n i * offset) (offset + M * spawn)) = .ok (Pick.val p) ∧ 0 < p ∧
      ((0 ≤ inner l n * offset ∧ OnSphere (fun i => n i * offset) (offset + M * spawn) l p) ∨
        (inner l n * offset < 0 ∧ p = spawn * M / norm root l)) := by
    intro l hl
    obtain ⟨p, k1, k2, k3⟩ := pick_inside h.isRoot (h.direction l hl) h.eps_pos (h.clear l hl) hin (spawn * M / norm root l)
    rw [hlo] at k2 k3
    rcases le_or_gt 0 (inner l n * offset) with hs | hs
    · exact ⟨p, k1, (k2 hs).1, .inl ⟨hs, (k2 hs).2⟩⟩
    · have hp := k3 hs
      exact ⟨p, k1, by rw [hp]; exact div_pos (mul_pos h.spawn_pos hMpos) (hnorm l hl), .inr ⟨hs, hp⟩⟩
  obtain ⟨P, hP⟩ : ∃ P : P3 K → K, ∀ l ∈ lines, pick (spawn * M / norm root l)
      (intersect eps root l (fun i => n i * offset) (offset + M * spawn)) = .ok (Pick.val (P l)) ∧ 0 < P l ∧
      ((0 ≤ inner l n * offset ∧ OnSphere (fun i => n i * offset) (offset + M * spawn) l (P l)) ∨
        (inner l n * offset < 0 ∧ P l = spawn * M / norm root l)) := by
    classical
    refine ⟨fun l => if hl : l ∈ lines then (hpick l hl).choose else 0, fun l hl => ?_⟩
    simp only [dif_pos hl]
    exact (hpick l hl).choose_spec
  have hpicks : picks eps root spawn offset n lines = .ok ((lines.map P).map Pick.val) := by
    unfold picks
    rw [Curv.mapM_map lines (fun l hl => (hP l hl).1), List.map_map]
    rfl
  obtain ⟨m1, m2, m3⟩ := maxNew_vals (lines.map P)
  set mx := maxNew ((lines.map P).map Pick.val) with hmx
  have hmxpos : 0 < mx := by
    obtain ⟨l, hl⟩ := List.exists_mem_of_ne_nil lines hne
    exact lt_of_lt_of_le (hP l hl).2.1 (m2 _ (List.mem_map.mpr ⟨l, hl, rfl⟩))
  have hraw : rawStep eps root spawn offset n lines = .ok (some (lines.map fun l => max (spawn / 10 * (M / norm root l)) (spawn / mx * P l))) := by
    unfold rawStep
    rw [hpicks]
    simp only [Except.map]
    rw [allNeg_vals, ← hmx, List.map_map, List.zipWith_map_right, List.zipWith_self]
    simp only [Bool.false_eq_true, if_false, scaled, Function.comp, if_neg hmxpos.ne']
    rfl
  have hscale : 0 < spawn / mx := div_pos h.spawn_pos hmxpos
  refine ⟨spawn / mx, _, hscale, hraw, ?_, ?_⟩
  · rw [List.forall₂_map_right_iff, List.forall₂_same]
    intro l hl
    have hnl := hnorm l hl
    have hle : spawn / mx * P l ≤ spawn := by
      have : P l ≤ mx := m2 _ (List.mem_map.mpr ⟨l, hl, rfl⟩)
      rw [div_mul_eq_mul_div, div_le_iff₀ hmxpos]
      exact mul_le_mul_of_nonneg_left this h.spawn_pos.le
    have hmin : spawn / 10 * (M / norm root l) * norm root l = spawn / 10 * M := by field_simp
    refine ⟨?_, ?_, ?_⟩
    · rw [← hmin]
      exact mul_le_mul_of_nonneg_right (le_max_left _ _) hnl.le
    · rcases max_choice (spawn / 10 * (M / norm root l)) (spawn / mx * P l) with hc | hc <;> rw [hc]
      · exact .inr hmin
      · exact .inl hle
    · rcases max_choice (spawn / 10 * (M / norm root l)) (spawn / mx * P l) with hc | hc <;> rw [hc]
      · exact .inl hmin
      · right
        rcases (hP l hl).2.2 with ⟨h1, h2⟩ | ⟨h1, h2⟩
        · refine .inl ⟨h1, ?_⟩
          rw [onSphere_iff] at h2 ⊢
          simp only [inner_eq] at h2 ⊢
          linear_combination (spawn / mx) * (spawn / mx) * h2
        · refine .inr ⟨h1, ?_⟩
          rw [h2]
          field_simp
  · rcases m3 with m3 | ⟨p, hp, m3⟩
    · exact absurd m3 hmxpos.ne'
    · obtain ⟨l, hl, rfl⟩ := List.mem_map.mp hp
      refine ⟨_, List.mem_map.mpr ⟨l, hl, rfl⟩, ?_⟩
      refine le_trans (le_of_eq ?_) (le_max_right _ _)
      rw [m3]
      field_simp [(hP l hl).2.1.ne']

/-- C99, full statement: the snaxels stay on their edges. -/
def C99_edge_statement (K : Type) [Field K] [LinearOrder K] [IsStrictOrderedRing K] : Prop :=
  ∀ (eps : K) (root : K → K) (spawn offset : K) (n : P3 K) (snaxs : List (P3 K × Bool)),
    MayPlace eps root spawn offset n (snaxs.map Prod.fst) → snaxs ≠ [] →
    ∃ ds, sphereStep eps root spawn offset n snaxs = .ok (some ds) ∧ ∀ d ∈ ds, 0 ≤ d ∧ d ≤ 1

/-- C99 (partial): the snaxels stay on their edges when no edge is shorter than the longest one times a tenth of the step. -/
theorem C99_edge_partial (eps : K) (root : K → K) (spawn offset : K) (n : P3 K) (snaxs : List (P3 K × Bool))
    (h : MayPlace eps root spawn offset n (snaxs.map Prod.fst)) (hne : snaxs ≠ [])
    (hlen : ∀ l ∈ snaxs.map Prod.fst, spawn / 10 * maxEdge root (snaxs.map Prod.fst) ≤ norm root l) :
    ∃ xs, rawStep eps root spawn offset n (snaxs.map Prod.fst) = .ok (some xs) ∧ xs.length = snaxs.length ∧
      sphereStep eps root spawn offset n snaxs =
        .ok (some (List.zipWith (fun from' x => if from' then x else 1 - x) (snaxs.map Prod.snd) xs)) ∧
      ∀ x ∈ xs, 0 < x ∧ x ≤ 1 := by
  obtain ⟨scale, xs, -, h1, h2, -⟩ := C99_step eps root spawn offset n _ h (by simpa using hne)
  have hlen' : xs.length = snaxs.length := by have := h2.length_eq; simpa using this.symm
  have hx : ∀ x ∈ xs, 0 < x ∧ x ≤ 1 := by
    intro x hx
    obtain ⟨i, hi, rfl⟩ := List.mem_iff_getElem.mp hx
    have hi' : i < (snaxs.map Prod.fst).length := by rw [List.length_map, ← hlen']; exact hi
    have hl : (snaxs.map Prod.fst)[i] ∈ snaxs.map Prod.fst := List.getElem_mem hi'
    obtain ⟨k1, k2, -⟩ := h2.get hi' hi
    simp only [List.get_eq_getElem] at k1 k2
    have hm := hlen _ hl
    have hpos : 0 < norm root (snaxs.map Prod.fst)[i] := by
      have h1 := inner_self_pos (h.direction _ hl)
      have h2 := h.isRoot _ h1.le
      unfold norm
      rw [dot_eq]
      rcases h2.1.lt_or_eq with h3 | h3
      · exact h3
      · rw [← h3] at h2; exact absurd (by simpa using h2.2) h1.ne
    have hM : 0 < maxEdge root (snaxs.map Prod.fst) := lt_of_lt_of_le hpos ((maxFold (norm root) _ 0).2.1 _ hl)
    have hs : 0 < spawn / 10 * maxEdge root (snaxs.map Prod.fst) := mul_pos (div_pos h.spawn_pos (by norm_num)) hM
    constructor
    · by_contra hc
      have := mul_nonpos_of_nonpos_of_nonneg (not_lt.mp hc) hpos.le
      linarith
    · rcases k2 with k2 | k2
      · have := h.small; linarith
      · by_contra hc
        have := mul_lt_mul_of_pos_right (not_le.mp hc) hpos
        linarith
  refine ⟨xs, h1, hlen', ?_, hx⟩
  unfold sphereStep
  rw [h1]
  simp only [Except.bind]
  rw [Curv.mapM_map (g := fun p => if p.1 then p.2 else 1 - p.2)]
  · simp only [Except.map]
    rw [List.zip, List.map_zipWith]
  · rintro ⟨b, x⟩ hp
    have hx' := hx x (List.of_mem_zip hp).2
    unfold place
    simp only
    rw [if_neg]
    cases b <;> simp <;> constructor <;> linarith

/-- Two edges at right angles, one of length `x` and one of unit length. -/
def crossed (x : ℝ) : List (P3 ℝ) := [![x, 0, 0], ![0, 1, 0]]

theorem sqrt_isRoot : IsRoot Real.sqrt := fun x hx => ⟨Real.sqrt_nonneg x, Real.mul_self_sqrt hx⟩

theorem crossed_norm {x : ℝ} (hx : 0 ≤ x) : norm Real.sqrt ![x, 0, 0] = x ∧ norm Real.sqrt ![0, 1, 0] = 1 := by
  unfold norm
  simp only [dot_eq, inner_eq]
  constructor
  · have : (![x, 0, 0] : P3 ℝ) 0 * (![x, 0, 0] : P3 ℝ) 0 + (![x, 0, 0] : P3 ℝ) 1 * (![x, 0, 0] : P3 ℝ) 1 +
        (![x, 0, 0] : P3 ℝ) 2 * (![x, 0, 0] : P3 ℝ) 2 = x * x := by simp
    rw [this]
    exact Real.sqrt_mul_self hx
  · simp

theorem crossed_max {x : ℝ} (hx : 1 ≤ x) : maxEdge Real.sqrt (crossed x) = x := by
  obtain ⟨h1, h2⟩ := crossed_norm (x := x) (by linarith)
  unfold maxEdge crossed
  simp only [List.foldl_cons, List.foldl_nil]
  rw [h1, h2, max_eq_left (by linarith : (0 : ℝ) ≤ x), max_eq_right hx]

theorem crossed_may {x : ℝ} (hx : 1 ≤ x) : MayPlace (1 / 1000) Real.sqrt (1 / 4) 0 ![0, 0, 1] (crossed x) where
  eps_pos := by norm_num
  isRoot := sqrt_isRoot
  spawn_pos := by norm_num
  small := by norm_num
  offset_nonneg := le_rfl
  unit := by simp [inner_eq]
  direction := by
    intro l hl
    simp only [crossed, List.mem_cons, List.not_mem_nil, or_false] at hl
    rcases hl with rfl | rfl
    · intro h; have := congrFun h 0; simp at this; linarith
    · intro h; have := congrFun h 1; simp at this
  clear := by
    intro l hl
    rw [crossed_max hx]
    simp only [crossed, List.mem_cons, List.not_mem_nil, or_false] at hl
    rcases hl with rfl | rfl
    · simp [disc, inner_eq]
      have h1 : 1 ≤ x * x := by nlinarith
      have h2 : 4 * (x * x) * (x * 4⁻¹ * (x * 4⁻¹)) = (x * x) * (x * x) / 4 := by ring
      rw [h2]
      nlinarith
    · simp [disc, inner_eq]; nlinarith

/-- C99: for every tolerance there is a small sphere that the given parameters miss, and a snaxel on an edge that is much
shorter than another is placed beyond the end of its edge, which is refused. -/
theorem C99_violated : (∀ eps > 0, ¬ C99_intersect_statement ℝ eps) ∧ ¬ C99_edge_statement ℝ := by
  constructor
  · intro eps heps h
    have hr0 : 0 < eps / (2 * (1 + eps)) := by positivity
    have hlt : 4 * (eps / (2 * (1 + eps)) * (eps / (2 * (1 + eps)))) < eps := by
      have : 4 * (eps / (2 * (1 + eps)) * (eps / (2 * (1 + eps)))) = eps * (eps / ((1 + eps) * (1 + eps))) := by field_simp; ring
      rw [this]
      have h1 : eps / ((1 + eps) * (1 + eps)) < 1 := by rw [div_lt_one (by positivity)]; nlinarith
      nlinarith
    set r := eps / (2 * (1 + eps)) with hrdef
    have hint : intersect eps Real.sqrt ![1, 0, 0] ![0, 0, 0] r = .two 0 0 := by
      unfold intersect
      simp only [dot_eq, inner_eq]
      simp
      rw [if_pos hlt, if_neg (by nlinarith)]
    rcases h Real.sqrt sqrt_isRoot ![1, 0, 0] ![0, 0, 0] r (by intro h; have := congrFun h 0; simp at this) with ⟨h1, -⟩ | ⟨x, y, h1, -, h2⟩
    · rw [hint] at h1; exact absurd h1 (by simp)
    · rw [hint] at h1
      injection h1 with hx hy
      have := (h2 0).mpr (.inl hx)
      rw [onSphere_iff] at this
      simp [inner_eq] at this
      linarith
  · intro h
    have hp : (([(![100, 0, 0], true), (![0, 1, 0], true)] : List (P3 ℝ × Bool)).map Prod.fst) = crossed 100 := rfl
    obtain ⟨ds, h1, h2⟩ := h (1 / 1000) Real.sqrt (1 / 4) 0 ![0, 0, 1] [(![100, 0, 0], true), (![0, 1, 0], true)]
      (by rw [hp]; exact crossed_may (by norm_num)) (by simp)
    obtain ⟨scale, xs, -, k1, k2, -⟩ := C99_step (1 / 1000) Real.sqrt (1 / 4) 0 ![0, 0, 1] (crossed 100) (crossed_may (by norm_num))
      (by simp [crossed])
    obtain ⟨n1, n2⟩ := crossed_norm (x := 100) (by norm_num)
    rw [crossed_max (by norm_num)] at k2
    unfold crossed at k2
    cases k2 with
    | cons a b =>
      cases b with
      | cons c d =>
        cases d with
        | nil =>
          rename_i x y
          have hy := c.1
          rw [n2] at hy
          unfold sphereStep at h1
          rw [hp, k1] at h1
          simp only [Except.bind, List.map_cons, List.map_nil, List.zip_cons_cons, List.zip_nil_right, List.mapM_cons, List.mapM_nil] at h1
          have hpy : place true y = .error .throws := by
            unfold place
            simp only [if_true]
            rw [if_pos]
            right
            linarith
          rw [hpy] at h1
          cases hx : place true x <;> rw [hx] at h1 <;> simp [bind, Except.bind, Except.map] at h1

/-- Two edges of unit length at right angles: both snaxels go a quarter. -/
example : MayPlace (1 / 1000) Real.sqrt (1 / 4) 0 ![0, 0, 1] (crossed 1) ∧
    ∃ xs, rawStep (1 / 1000) Real.sqrt (1 / 4) 0 ![0, 0, 1] (crossed 1) = .ok (some xs) ∧ ∀ x ∈ xs, 0 < x ∧ x ≤ 1 := by
  refine ⟨crossed_may le_rfl, ?_⟩
  obtain ⟨n1, n2⟩ := crossed_norm (x := 1) zero_le_one
  obtain ⟨xs, h1, -, -, h2⟩ := C99_edge_partial (1 / 1000) Real.sqrt (1 / 4) 0 ![0, 0, 1] [(![1, 0, 0], true), (![0, 1, 0], false)]
    (crossed_may le_rfl) (by simp) (by
      intro l hl
      have hm : maxEdge Real.sqrt (([(![1, 0, 0], true), (![0, 1, 0], false)] : List (P3 ℝ × Bool)).map Prod.fst) = 1 := crossed_max le_rfl
      rw [hm]
      simp only [List.map_cons, List.map_nil, List.mem_cons, List.not_mem_nil, or_false] at hl
      rcases hl with rfl | rfl
      · rw [n1]; norm_num
      · rw [n2]; norm_num)
  exact ⟨xs, h1, h2⟩

/-- A line that meets the unit sphere around the origin at parameters -1/2 and 1/2. -/
example : ∃ x y, intersect (1 / 1000) Real.sqrt ![2, 0, 0] ![0, 0, 0] 1 = .two x y ∧ x ≤ y ∧
    ∀ s, OnSphere ![0, 0, 0] 1 ![2, 0, 0] s ↔ s = x ∨ s = y :=
  (C99_intersect_partial (1 / 1000) (by norm_num) Real.sqrt sqrt_isRoot ![2, 0, 0] ![0, 0, 0] 1).2.2
    (by intro h; have := congrFun h 0; simp at this) (.inr (by simp [disc, inner_eq]; norm_num))


theorem forall_of_mapM {α β : Type} {f : α → Res β} : ∀ (l : List α) (r : List β), l.mapM (m := Except Fault) f = .ok r → List.Forall₂ (fun a b => f a = .ok b) l r
  | [], r, h => by
    simp only [List.mapM_nil, pure, Except.pure, Except.ok.injEq] at h
    subst h
    exact .nil
  | a :: l, r, h => by
    rw [List.mapM_cons, bind_ok_iff] at h
    obtain ⟨b, hb, h⟩ := h
    rw [bind_ok_iff] at h
    obtain ⟨bs, hbs, h⟩ := h
    simp only [pure, Except.pure, Except.ok.injEq] at h
    subst h
    exact .cons hb (forall_of_mapM l bs hbs)

omit [IsStrictOrderedRing K] in
theorem sphere_sgn_neg (x : K) : sgn x = -1 ↔ x < 0 := by
  unfold sgn
  by_cases h : x < 0
  · simp [h, not_lt.mpr h.le]
  · by_cases h' : 0 < x <;> simp [h, h']

omit [IsStrictOrderedRing K] in
theorem pick_neg (err : K) (h : Hits K) (p : Pick K) (hp : pick err h = .ok p) :
    (∃ e, p = .neg e) ↔ ∃ x y, h = .two x y ∧ x < 0 ∧ y < 0 := by
  cases h with
  | miss => simp only [pick, Except.ok.injEq] at hp; subst hp; simp
  | nan => simp [pick] at hp
  | two x y =>
    simp only [pick] at hp
    have hx := sphere_sgn_neg x
    have hy := sphere_sgn_neg y
    constructor
    · rintro ⟨e, rfl⟩
      refine ⟨x, y, rfl, ?_⟩
      split_ifs at hp with h1 h2 h3 <;> simp only [Except.ok.injEq, reduceCtorEq] at hp
      exact ⟨hx.mp h2, hy.mp (h1 ▸ h2)⟩
    · rintro ⟨x', y', e, h1, h2⟩
      simp only [Hits.two.injEq] at e
      obtain ⟨rfl, rfl⟩ := e
      rw [if_pos ((hx.mpr h1).trans (hy.mpr h2).symm), if_pos (hx.mpr h1)] at hp
      simp only [Except.ok.injEq] at hp
      exact ⟨_, hp.symm⟩

omit [IsStrictOrderedRing K] in
theorem pick_ok (err : K) (h : Hits K) : (∃ p, pick err h = .ok p) ↔ h ≠ .nan := by
  cases h with
  | miss => simp [pick]
  | nan => simp [pick]
  | two x y => simp only [pick]; split_ifs <;> simp

omit [IsStrictOrderedRing K] in
/-- C99: the step around a vertex is given up, with no snaxel moved, exactly when some edge meets the sphere only behind
the vertex (and no edge has length zero, for which the step throws). -/
theorem C99_gives_up (eps : K) (root : K → K) (spawn offset : K) (n : P3 K) (lines : List (P3 K)) :
    rawStep eps root spawn offset n lines = .ok none ↔
      (∀ l ∈ lines, intersect eps root l (fun i => n i * offset) (offset + maxEdge root lines * spawn) ≠ .nan) ∧
      ∃ l ∈ lines, ∃ x y, intersect eps root l (fun i => n i * offset) (offset + maxEdge root lines * spawn) = .two x y ∧ x < 0 ∧ y < 0 := by
  have key : ∀ (H : P3 K → Hits K) (E : P3 K → K) (ls : List (P3 K)),
      (∃ ps, ls.mapM (m := Except Fault) (fun l => pick (E l) (H l)) = .ok ps ∧ allNeg ps = true) ↔
        (∀ l ∈ ls, H l ≠ .nan) ∧ ∃ l ∈ ls, ∃ x y, H l = .two x y ∧ x < 0 ∧ y < 0 := by
    intro H E ls
    constructor
    · rintro ⟨ps, h, hn⟩
      have hf := forall_of_mapM ls ps h
      refine ⟨?_, ?_⟩
      · intro l hl
        obtain ⟨p, -, hp⟩ := (List.forall₂_iff_get.mp hf |> fun q => by
          obtain ⟨i, hi, rfl⟩ := List.getElem_of_mem hl
          exact ⟨ps[i]'(q.1 ▸ hi), List.getElem_mem _, q.2 i hi (q.1 ▸ hi)⟩ : ∃ p, p ∈ ps ∧ pick (E l) (H l) = .ok p)
        exact (pick_ok _ _).mp ⟨p, hp⟩
      · unfold allNeg at hn
        obtain ⟨p, hp, hneg⟩ := List.any_eq_true.mp hn
        obtain ⟨i, hi, rfl⟩ := List.getElem_of_mem hp
        have q := List.forall₂_iff_get.mp hf
        have hi' : i < ls.length := q.1 ▸ hi
        refine ⟨ls[i], List.getElem_mem _, (pick_neg _ _ _ (q.2 i hi' hi)).mp ?_⟩
        cases hpp : ps[i] with
        | neg e => exact ⟨e, by simpa using hpp⟩
        | inf => rw [hpp] at hneg; simp at hneg
        | val e => rw [hpp] at hneg; simp at hneg
    · rintro ⟨h1, l, hl, hxy⟩
      induction ls with
      | nil => simp at hl
      | cons a ls ih =>
        obtain ⟨p, hp⟩ := (pick_ok (E a) (H a)).mpr (h1 a (by simp))
        have hall : ∃ ps, ls.mapM (m := Except Fault) (fun l => pick (E l) (H l)) = .ok ps := by
          clear ih hl
          induction ls with
          | nil => exact ⟨[], rfl⟩
          | cons b ls ih =>
            obtain ⟨q, hq⟩ := (pick_ok (E b) (H b)).mpr (h1 b (by simp))
            obtain ⟨ps, hps⟩ := ih fun c hc => h1 c (by simp only [List.mem_cons] at hc ⊢; tauto)
            exact ⟨q :: ps, by rw [List.mapM_cons, hq, hps]; rfl⟩
        rcases List.mem_cons.mp hl with e | e
        · subst e
          obtain ⟨ps, hps⟩ := hall
          obtain ⟨e, rfl⟩ := (pick_neg _ _ _ hp).mpr hxy
          exact ⟨.neg e :: ps, by rw [List.mapM_cons, hp, hps]; rfl, by simp [allNeg]⟩
        · obtain ⟨ps, hps, hn⟩ := ih (fun c hc => h1 c (by simp [hc])) e
          refine ⟨p :: ps, by rw [List.mapM_cons, hp, hps]; rfl, ?_⟩
          unfold allNeg at hn ⊢
          rw [List.any_cons, hn, Bool.or_true]
  rw [← key (fun l => intersect eps root l (fun i => n i * offset) (offset + maxEdge root lines * spawn)) (fun l => spawn * maxEdge root lines / norm root l) lines]
  unfold rawStep picks
  cases h : lines.mapM (m := Except Fault) fun l => pick (spawn * maxEdge root lines / norm root l)
    (intersect eps root l (fun i => n i * offset) (offset + maxEdge root lines * spawn)) with
  | error e => simp [Except.map]
  | ok ps =>
    simp only [Except.map, Except.ok.injEq]
    by_cases hn : allNeg ps = true
    · simp [hn]
    · simp [hn]

/-- The edge meets the sphere only behind the vertex: the step is given up. -/
example : rawStep (1 / 1000) Real.sqrt (1 : ℝ) 1 ![5, 0, 0] [![1, 0, 0]] = .ok none := by
  have h4 : Real.sqrt 16 = 4 := by rw [show (16 : ℝ) = 4 ^ 2 by norm_num]; exact Real.sqrt_sq (by norm_num)
  have e0 : (fun i => (![5, 0, 0] : P3 ℝ) i * 1) = ![5, 0, 0] := by funext i; simp
  have e1 : RSVS.Geo.dot (![1, 0, 0] : P3 ℝ) ![1, 0, 0] = 1 := by simp [RSVS.Geo.dot]
  have e2 : RSVS.Geo.dot (![1, 0, 0] : P3 ℝ) ![5, 0, 0] = 5 := by simp [RSVS.Geo.dot]
  have e3 : RSVS.Geo.dot (![5, 0, 0] : P3 ℝ) ![5, 0, 0] = 25 := by simp [RSVS.Geo.dot]; norm_num
  have em : maxEdge Real.sqrt [(![1, 0, 0] : P3 ℝ)] = 1 := by simp [maxEdge, norm, e1]
  have hi : intersect (1 / 1000) Real.sqrt (![1, 0, 0] : P3 ℝ) ![5, 0, 0] (1 + 1 * 1) = .two (-7) (-3) := by
    unfold intersect
    rw [e1, e2, e3]
    norm_num [h4]
  rw [C99_gives_up, e0, em]
  simp only [List.mem_singleton, forall_eq, exists_eq_left, hi]
  exact ⟨by simp, -7, -3, rfl, by norm_num, by norm_num⟩

end RSVS.Props
