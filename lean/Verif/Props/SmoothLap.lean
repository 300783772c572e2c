import Verif.Lemmas.SmoothLap
import Verif.Props.SmoothStep

/-!
# C122: the laplacian smoothing of the spawn step
-/

namespace RSVS.Props

open RSVS RSVS.Mesh RSVS.Spec RSVS.Smooth

variable {K : Type} [Field K] [LinearOrder K] [IsStrictOrderedRing K]

/-- The smoothing ends, the snaxels stay on their edges, and only the distances of the snaxels in the list change. -/
theorem C122_on_edges {dir : List (Snax K) → Int → Res K} {limit : Int → Res K}
    {sibs : List (Snax K) → Int → List (Snax K)} (hsib : ∀ l e, ∀ t ∈ sibs l e, t ∈ l) {spawn : K} (h0 : 0 ≤ spawn)
    (h5 : spawn ≤ 5) (v : Int) {inds : List Int} {snaxs : List (Snax K)} {ordered : Int → Res Bool}
    (ho : ∀ i ∈ inds, ∃ b, ordered i = .ok b)
    (hd : ∀ l, EditsOf inds snaxs l → ∀ i ∈ inds, ∃ δ, dir l i = .ok δ) (h : LapReady limit inds snaxs) :
    ∃ l, iterSmooth ordered dir limit sibs spawn v inds snaxs = .ok l ∧ EditsOf inds snaxs l ∧
      ∀ s ∈ l, 0 ≤ s.d ∧ s.d ≤ 1 := by
  have horder : ∀ (l : List Int) (b : Bool), (∀ i ∈ l, ∃ b, ordered i = .ok b) →
      ∃ b', l.foldlM (m := Except Fault) (fun _ i => ordered i) b = .ok b' := by
    intro l
    induction l with
    | nil => exact fun b _ => ⟨b, rfl⟩
    | cons i l ih =>
      intro b hl
      obtain ⟨b', hb'⟩ := hl i (by simp)
      obtain ⟨b'', hb''⟩ := ih b' fun j hj => hl j (List.mem_cons_of_mem _ hj)
      exact ⟨b'', by rw [List.foldlM_cons, hb']; exact hb''⟩
  unfold iterSmooth
  split_ifs
  · exact ⟨snaxs, rfl, editsOf_refl _ _, h.range⟩
  · obtain ⟨b, hb⟩ := horder inds true ho
    unfold orderingOk
    rw [hb]
    simp only [Except.bind]
    split_ifs
    · obtain ⟨l, h1, h2, h3⟩ := lapLoop_ok (dir := dir) (limit := limit) hsib h0 h5 v 5 hd h
      exact ⟨l, h1, h3, h2.range⟩
    · exact ⟨snaxs, rfl, editsOf_refl _ _, h.range⟩

/-- The step asked for is at most a third of the spawn distance, scaled by the limit of the edge. -/
theorem C122_step {spawn : K} (h0 : 0 < spawn) {ds : List K} {δ : K} (hδ : δ ∈ ds) {l : K} (hl : 0 ≤ l) :
    |δ * multiplier spawn ds * l| ≤ spawn / 3 * l ∧ |-δ * multiplier spawn ds * l| ≤ spawn / 3 * l := by
  obtain ⟨h1, h2⟩ := multiplier_le h0 hδ
  have : |δ * multiplier spawn ds * l| ≤ spawn / 3 * l := by
    rw [abs_mul, abs_mul, abs_of_nonneg h2, abs_of_nonneg hl]
    exact mul_le_mul_of_nonneg_right h1 hl
  refine ⟨this, ?_⟩
  rw [neg_mul, neg_mul, abs_neg]
  exact this

/-- A snaxel which is alone on its edge and stays on it moves by that step: away from the vertex if the step of its
direction is positive. -/
theorem C122_move {limit : Int → Res K} {sibs : List (Snax K) → Int → List (Snax K)} {spawn : K} (h0 : 0 < spawn) {v : Int}
    {snaxs : List (Snax K)} (hn : (snaxs.map Snax.index).Nodup) {s : Snax K} (hs : s ∈ snaxs) {l : K}
    (hl : limit s.edgeind = .ok l) (hl0 : 0 ≤ l) (halone : (sibs snaxs s.edgeind).length = 1) {ds : List K} {δ : K}
    (hδ : δ ∈ ds) (hin : ∀ x, |x| ≤ spawn / 3 * l → 0 ≤ s.d + x ∧ s.d + x ≤ 1) :
    ∃ x, |x| ≤ spawn / 3 * l ∧ x = (if s.fromvert = v then 1 else -1) * (δ * multiplier spawn ds * l) ∧
      lapOne limit sibs spawn (multiplier spawn ds) v snaxs (s.index, δ) =
        .ok (snaxs.map fun t => if t.index = s.index then { t with d := s.d + x } else t) := by
  obtain ⟨h1, h2⟩ := C122_step h0 hδ hl0
  have hx : |(if s.fromvert = v then δ else -δ) * multiplier spawn ds * l| ≤ spawn / 3 * l := by
    split_ifs
    · exact h1
    · exact h2
  refine ⟨_, hx, by split_ifs <;> ring, ?_⟩
  rw [lapOne_ok hn hs hl]
  have : lapD (sibs snaxs s.edgeind) spawn (multiplier spawn ds) l v s δ =
      s.d + (if s.fromvert = v then δ else -δ) * multiplier spawn ds * l := by
    unfold lapD validateDistance
    dsimp only
    obtain ⟨a, b⟩ := hin _ hx
    rw [if_neg (by rw [not_or, not_lt, not_lt]; exact ⟨a, b⟩), if_pos halone]
  rw [this]

/-- A snaxel which stays on its edge passes none of the others: those before it stay before it.  Missing: a snaxel whose step
leaves the edge is put at a fifth of the spawn distance from the end, without a look at the others. -/
theorem C122_passes_none_partial {A B : Int} (hAB : A < B) {limit : Int → Res K}
    {sibs : List (Snax K) → Int → List (Snax K)} {spawn mult : K} {v : Int} {snaxs : List (Snax K)}
    (hn : (snaxs.map Snax.index).Nodup) {s : Snax K} (hs : s ∈ snaxs) {l : K} (hl : limit s.edgeind = .ok l)
    (hown : s ∈ sibs snaxs s.edgeind)
    (hon : ∀ t ∈ sibs snaxs s.edgeind, OnEdge A B t)
    (hcons : ∀ t ∈ sibs snaxs s.edgeind, ∀ u ∈ sibs snaxs s.edgeind, t.index ≠ s.index → u.index ≠ s.index →
      t.orderedge ≤ s.orderedge → s.orderedge < u.orderedge → posFrom A t ≤ posFrom A u) {δ : K}
    (hin : 0 ≤ s.d + (if s.fromvert = v then δ else -δ) * mult * l ∧
      s.d + (if s.fromvert = v then δ else -δ) * mult * l ≤ 1) :
    ∃ d, lapOne limit sibs spawn mult v snaxs (s.index, δ) =
        .ok (snaxs.map fun t => if t.index = s.index then { t with d := d } else t) ∧
      Respects A s (sibs snaxs s.edgeind) (posFrom A { s with d := d }) := by
  refine ⟨_, lapOne_ok hn hs hl δ, ?_⟩
  obtain ⟨d, h1, h2, _, _⟩ := C39_validate_distance A B hAB
    { s with d := s.d + (if s.fromvert = v then δ else -δ) * mult * l } (hon s hown)
    ((sibs snaxs s.edgeind).map fun t => if t.index = s.index then
      { s with d := s.d + (if s.fromvert = v then δ else -δ) * mult * l } else t)
    (by
      intro t ht
      obtain ⟨u, hu, rfl⟩ := List.mem_map.1 ht
      by_cases ha : u.index = s.index
      · rw [if_pos ha]; exact hon s hown
      · rw [if_neg ha]; exact hon u hu)
    (List.mem_map.2 ⟨s, hown, if_pos rfl⟩) hin.1 hin.2
    (by
      intro t ht u hu h1 h2 h3 h4
      obtain ⟨t', ht', rfl⟩ := List.mem_map.1 ht
      obtain ⟨u', hu', rfl⟩ := List.mem_map.1 hu
      by_cases ha : t'.index = s.index
      · rw [if_pos ha] at h1; exact absurd rfl h1
      by_cases hb : u'.index = s.index
      · rw [if_pos hb] at h2; exact absurd rfl h2
      rw [if_neg ha] at h1 h3 ⊢
      rw [if_neg hb] at h2 h4 ⊢
      exact hcons t' ht' u' hu' h1 h2 h3 h4)
  rw [validate_own { s with d := s.d + (if s.fromvert = v then δ else -δ) * mult * l }] at h1
  have hD : lapD (sibs snaxs s.edgeind) spawn mult l v s δ = d := by
    unfold lapD
    rw [h1]
  rw [hD]
  intro t ht hne
  have := h2 t (List.mem_map.2 ⟨t, ht, if_neg hne⟩) hne
  exact this

/-- Only the last snaxel decides whether the smoothing is given up. -/
theorem C122_ordering {ordered : Int → Res Bool} {o : Int → Bool} (ho : ∀ i, ordered i = .ok (o i)) (inds : List Int) (i : Int) :
    orderingOk ordered (inds ++ [i]) = .ok (o i) := by
  unfold orderingOk
  rw [List.foldlM_append]
  have : ∀ (l : List Int) (b : Bool), ∃ b', l.foldlM (m := Except Fault) (fun _ i => ordered i) b = .ok b' := by
    intro l
    induction l with
    | nil => exact fun b => ⟨b, rfl⟩
    | cons j l ih =>
      intro b
      obtain ⟨b', h⟩ := ih (o j)
      exact ⟨b', by rw [List.foldlM_cons, ho]; exact h⟩
  obtain ⟨b, hb⟩ := this inds true
  rw [hb]
  change List.foldlM (m := Except Fault) (fun _ i => ordered i) b [i] = _
  rw [List.foldlM_cons, ho]
  rfl

/-- The snaxels of an edge. -/
def sibsAt (l : List (Snax ℚ)) (e : Int) : List (Snax ℚ) := l.filter fun s => decide (s.edgeind = e)

theorem sibsAt_mem (l : List (Snax ℚ)) (e : Int) : ∀ t ∈ sibsAt l e, t ∈ l := fun _ h => (List.mem_filter.1 h).1

/-- The order of the edges of snaxel 1 is not found, but the smoothing goes on and moves it. -/
theorem C122_ordering_violated : ∃ (ordered : Int → Res Bool) (snaxs : List (Snax ℚ)) (l : List (Snax ℚ)),
    ordered 1 = .ok false ∧
    iterSmooth ordered (fun _ _ => .ok 1) (fun _ => .ok 1) sibsAt (1 / 10) 1 [1, 3] snaxs = .ok l ∧
    ∃ s ∈ snaxs, s.index = 1 ∧ s ∉ l := by
  refine ⟨fun i => .ok (decide (i ≠ 1)), smoothSnaxs, [⟨1, 4 / 15, 0, 1, 2, 1, 1⟩, ⟨2, 9 / 10, 0, 1, 2, 1, 2⟩,
    ⟨3, 47 / 60, 0, 3, 1, 2, 1⟩, ⟨4, 1 / 4, 0, 1, 4, 3, 1⟩], by decide, by decide +kernel,
    ⟨1, 1 / 10, 0, 1, 2, 1, 1⟩, by decide +kernel, rfl, by decide +kernel⟩

/-- Two snaxels near the first end of an edge; the first leaves the edge and is put behind the second. -/
theorem C122_passes_violated : ∃ (snaxs l : List (Snax ℚ)),
    (∀ s ∈ snaxs, 0 ≤ s.d ∧ s.d ≤ 1) ∧ snaxs = [⟨1, 1 / 1000, 0, 1, 2, 1, 1⟩, ⟨2, 1 / 100, 0, 1, 2, 1, 2⟩] ∧
    lapIter (fun _ i => .ok (if i = 1 then -1 else 0)) (fun _ => .ok 1) sibsAt (1 / 10) 1 [1] snaxs = .ok l ∧
    l = [⟨1, 1 / 50, 0, 1, 2, 1, 1⟩, ⟨2, 1 / 100, 0, 1, 2, 1, 2⟩] :=
  ⟨_, _, by decide +kernel, rfl, by decide +kernel, rfl⟩

/-- The two snaxels of the list `smoothSnaxs` which are near vertex 1. -/
example : ∃ l, iterSmooth (fun _ => .ok true) (fun _ _ => .ok 1) (fun _ => .ok 1) sibsAt (1 / 10) 1 [1, 3] smoothSnaxs = .ok l ∧
    EditsOf [1, 3] smoothSnaxs l ∧ ∀ s ∈ l, 0 ≤ s.d ∧ s.d ≤ 1 :=
  C122_on_edges sibsAt_mem (by norm_num) (by norm_num) 1 (fun _ _ => ⟨true, rfl⟩) (fun _ _ _ _ => ⟨1, rfl⟩)
    ⟨by decide +kernel, by decide +kernel, by decide +kernel, fun _ _ => ⟨1, rfl⟩⟩

example : ∃ x, |x| ≤ (1 / 10 : ℚ) / 3 * 1 ∧ x = (if (3 : Int) = 1 then 1 else -1) * (1 * multiplier (1 / 10) [1, 2] * 1) ∧
    lapOne (fun _ => .ok 1) sibsAt (1 / 10) (multiplier (1 / 10) [1, 2]) 1 smoothSnaxs (3, 1) =
      .ok (smoothSnaxs.map fun t => if t.index = 3 then { t with d := 19 / 20 + x } else t) :=
  C122_move (K := ℚ) (sibs := sibsAt) (snaxs := smoothSnaxs) (l := 1) (s := ⟨3, 19 / 20, 0, 3, 1, 2, 1⟩) (by norm_num) (by decide +kernel) (by decide +kernel) rfl (by norm_num)
    (by decide +kernel) (by simp) (fun x hx => by
      rw [abs_le] at hx
      constructor <;> dsimp only <;> linarith [hx.1, hx.2])

/-- Two snaxels on one edge, the first steps to the place of the second. -/
example : ∃ d, lapOne (fun _ => .ok 1) sibsAt (1 / 10) (1 : ℚ) 1 smoothSnaxs (1, 85 / 100) =
      .ok (smoothSnaxs.map fun t => if t.index = 1 then { t with d := d } else t) ∧
    Respects 1 ⟨1, 1 / 10, 0, 1, 2, 1, 1⟩ (sibsAt smoothSnaxs 1) (posFrom 1 ⟨1, d, 0, 1, 2, 1, 1⟩) :=
  C122_passes_none_partial (K := ℚ) (sibs := sibsAt) (snaxs := smoothSnaxs) (l := 1) (A := 1) (B := 2)
    (s := ⟨1, 1 / 10, 0, 1, 2, 1, 1⟩) (by decide) (by decide +kernel)
    (by decide +kernel) rfl (by decide +kernel) (by unfold OnEdge; decide +kernel) (by decide +kernel)
    (by norm_num)

example : orderingOk (fun i => .ok (decide (i ≠ 1))) [1, 3] = .ok true := C122_ordering (fun _ => rfl) [1] 3

end RSVS.Props
