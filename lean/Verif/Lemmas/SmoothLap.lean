import Verif.Lemmas.SmoothPlane
import Mathlib.Tactic.Linarith
import Mathlib.Tactic.Ring
import Mathlib.Data.List.Forall2

/-!
# The iterations of the laplacian smoothing
-/

namespace RSVS.Smooth

open RSVS RSVS.Mesh RSVS.Spec

variable {K : Type} [Field K] [LinearOrder K] [IsStrictOrderedRing K]

theorem validateOne_range (this : Snax K) {d : K} (h0 : 0 ≤ d) (h1 : d ≤ 1) {t : Snax K} (t0 : 0 ≤ t.d) (t1 : t.d ≤ 1) :
    0 ≤ validateOne this d t ∧ validateOne this d t ≤ 1 := by
  unfold validateOne
  dsimp only
  split_ifs <;> constructor <;> linarith

theorem validateFold_range (this : Snax K) : ∀ (sibs : List (Snax K)) {d : K}, 0 ≤ d → d ≤ 1 →
    (∀ t ∈ sibs, 0 ≤ t.d ∧ t.d ≤ 1) → 0 ≤ sibs.foldl (validateOne this) d ∧ sibs.foldl (validateOne this) d ≤ 1
  | [], _, h0, h1, _ => ⟨h0, h1⟩
  | t :: sibs, _, h0, h1, h => by
    obtain ⟨t0, t1⟩ := h t (by simp)
    obtain ⟨a, b⟩ := validateOne_range this h0 h1 t0 t1
    exact validateFold_range this sibs a b fun u hu => h u (List.mem_cons_of_mem _ hu)

theorem validate_range {this : Snax K} {sibs : List (Snax K)} (h : ∀ t ∈ sibs, 0 ≤ t.d ∧ t.d ≤ 1) {d : K}
    (hd : validateDistance this sibs = .ok d) : 0 ≤ d ∧ d ≤ 1 := by
  unfold validateDistance at hd
  split_ifs at hd with h1 h2 h3
  · rw [not_or, not_lt, not_lt] at h1
    cases hd
    exact h1
  · rw [not_or, not_lt, not_lt] at h1
    cases hd
    exact validateFold_range this sibs h1.1 h1.2 h

theorem validateOne_skip {this : Snax K} (d : K) {t : Snax K} (h : t.index = this.index) : validateOne this d t = d := by
  unfold validateOne
  rw [if_neg (by simp [h])]

/-- The own entry of a snaxel in the list of its edge is not used. -/
theorem validate_own (this : Snax K) (sibs : List (Snax K)) :
    validateDistance this (sibs.map fun t => if t.index = this.index then this else t) = validateDistance this sibs := by
  have h : ∀ (sibs : List (Snax K)) (d : K), (sibs.map fun t => if t.index = this.index then this else t).foldl
      (validateOne this) d = sibs.foldl (validateOne this) d := by
    intro sibs
    induction sibs with
    | nil => intro d; rfl
    | cons t sibs ih =>
      intro d
      rw [List.map_cons, List.foldl_cons, List.foldl_cons, ih]
      by_cases ht : t.index = this.index
      · rw [if_pos ht, validateOne_skip d rfl, validateOne_skip d ht]
      · rw [if_neg ht]
  unfold validateDistance
  rw [List.length_map, h]

/-- The distance which `lapOne` gives to a snaxel. -/
def lapD (sibs : List (Snax K)) (spawn mult l : K) (v : Int) (s : Snax K) (δ : K) : K :=
  match validateDistance { s with d := s.d + (if s.fromvert = v then δ else -δ) * mult * l } sibs with
  | .ok d => d
  | .error _ => if s.d + (if s.fromvert = v then δ else -δ) * mult * l < 1 / 2 then spawn / 5 else 1 - spawn / 5

theorem lapOne_ok {limit : Int → Res K} {sibs : List (Snax K) → Int → List (Snax K)} {spawn mult : K} {v : Int}
    {snaxs : List (Snax K)} (hn : (snaxs.map Snax.index).Nodup) {s : Snax K} (hs : s ∈ snaxs) {l : K}
    (hl : limit s.edgeind = .ok l) (δ : K) :
    lapOne limit sibs spawn mult v snaxs (s.index, δ) = .ok (snaxs.map fun t => if t.index = s.index then
      { t with d := lapD (sibs snaxs s.edgeind) spawn mult l v s δ } else t) := by
  unfold lapOne
  dsimp only
  rw [isearch_self hn hs]
  simp only [Except.bind]
  rw [hl]
  exact setD_ok hn ⟨s, hs, rfl⟩ _

theorem lapD_range {sibs : List (Snax K)} (h : ∀ t ∈ sibs, 0 ≤ t.d ∧ t.d ≤ 1) {spawn : K} (h0 : 0 ≤ spawn) (h5 : spawn ≤ 5)
    (mult l : K) (v : Int) (s : Snax K) (δ : K) : 0 ≤ lapD sibs spawn mult l v s δ ∧ lapD sibs spawn mult l v s δ ≤ 1 := by
  unfold lapD
  split
  · rename_i d hd
    exact validate_range h hd
  · split_ifs <;> constructor <;> linarith

omit [Field K] [LinearOrder K] [IsStrictOrderedRing K] in
theorem editsOf_refl (inds : List Int) (l : List (Snax K)) : EditsOf inds l l := by
  unfold EditsOf
  rw [List.forall₂_same]
  exact fun s _ => ⟨⟨s.d, rfl⟩, fun _ => rfl⟩

omit [Field K] [LinearOrder K] [IsStrictOrderedRing K] in
theorem editsOf_trans {inds : List Int} : ∀ {a b c : List (Snax K)}, EditsOf inds a b → EditsOf inds b c → EditsOf inds a c
  | [], _, _, .nil, .nil => .nil
  | s :: a, _, _, .cons (b := t) h1 h2, .cons (b := u) h3 h4 => by
    refine .cons ⟨?_, fun h => ?_⟩ (editsOf_trans h2 h4)
    · obtain ⟨⟨d, rfl⟩, _⟩ := h1
      obtain ⟨⟨d', rfl⟩, _⟩ := h3
      exact ⟨d', rfl⟩
    · have ht := h1.2 h
      rw [ht] at h3
      exact h3.2 h

omit [Field K] [LinearOrder K] [IsStrictOrderedRing K] in
theorem editsOf_index {inds : List Int} : ∀ {a b : List (Snax K)}, EditsOf inds a b → b.map Snax.index = a.map Snax.index
  | [], _, .nil => rfl
  | s :: a, _, .cons (b := t) h1 h2 => by
    obtain ⟨⟨d, rfl⟩, _⟩ := h1
    rw [List.map_cons, List.map_cons, editsOf_index h2]

omit [Field K] [LinearOrder K] [IsStrictOrderedRing K] in
theorem editsOf_edgeind {inds : List Int} {a b : List (Snax K)} (h : EditsOf inds a b) {t : Snax K} (ht : t ∈ b) :
    ∃ s ∈ a, s.index = t.index ∧ s.edgeind = t.edgeind := by
  induction h with
  | nil => simp at ht
  | cons h1 _ ih =>
    obtain ⟨⟨d, rfl⟩, _⟩ := h1
    rcases List.mem_cons.1 ht with rfl | ht
    · exact ⟨_, List.mem_cons_self, rfl, rfl⟩
    · obtain ⟨s, hs, h3⟩ := ih ht
      exact ⟨s, List.mem_cons_of_mem _ hs, h3⟩

omit [Field K] [LinearOrder K] [IsStrictOrderedRing K] in
theorem editsOf_one {inds : List Int} {i : Int} (hi : i ∈ inds) (l : List (Snax K)) (d : K) :
    EditsOf inds l (l.map fun t => if t.index = i then { t with d := d } else t) := by
  unfold EditsOf
  rw [List.forall₂_map_right_iff, List.forall₂_same]
  intro s _
  by_cases h : s.index = i
  · rw [if_pos h]
    exact ⟨⟨d, rfl⟩, fun h' => absurd (h ▸ hi) h'⟩
  · rw [if_neg h]
    exact ⟨⟨s.d, rfl⟩, fun _ => rfl⟩

theorem lapOnes_ok {limit : Int → Res K} {sibs : List (Snax K) → Int → List (Snax K)} (hsib : ∀ l e, ∀ t ∈ sibs l e, t ∈ l)
    {spawn : K} (h0 : 0 ≤ spawn) (h5 : spawn ≤ 5) (mult : K) (v : Int) {inds : List Int} :
    ∀ (ps : List (Int × K)), (∀ p ∈ ps, p.1 ∈ inds) → ∀ {snaxs : List (Snax K)}, LapReady limit inds snaxs →
      ∃ l, ps.foldlM (m := Except Fault) (lapOne limit sibs spawn mult v) snaxs = .ok l ∧ LapReady limit inds l ∧
        EditsOf inds snaxs l
  | [], _, snaxs, h => ⟨snaxs, rfl, h, editsOf_refl _ _⟩
  | p :: ps, hp, snaxs, h => by
    obtain ⟨s, hs, hsi⟩ := h.hasSnax p.1 (hp p (by simp))
    obtain ⟨l, hl⟩ := h.hasLimit s hs
    have h1 := lapOne_ok (limit := limit) (sibs := sibs) (spawn := spawn) (mult := mult) (v := v) h.oneEach hs hl p.2
    have hpp : (s.index, p.2) = p := by rw [hsi]
    rw [hpp] at h1
    have he := editsOf_one (i := s.index) (inds := inds) (hsi ▸ hp p (by simp)) snaxs
      (lapD (sibs snaxs s.edgeind) spawn mult l v s p.2)
    have hr : LapReady limit inds (snaxs.map fun t => if t.index = s.index then
        { t with d := lapD (sibs snaxs s.edgeind) spawn mult l v s p.2 } else t) := by
      refine ⟨by rw [editsOf_index he]; exact h.oneEach, fun i hi => ?_, fun t ht => ?_, fun t ht => ?_⟩
      · have := h.hasSnax i hi
        rw [← List.mem_map, editsOf_index he, List.mem_map]
        exact this
      · obtain ⟨u, hu, rfl⟩ := List.mem_map.1 ht
        split_ifs
        · exact lapD_range (fun t ht => h.range t (hsib _ _ t ht)) h0 h5 _ _ _ _ _
        · exact h.range u hu
      · obtain ⟨u, hu, _, h3⟩ := editsOf_edgeind he ht
        rw [← h3]
        exact h.hasLimit u hu
    obtain ⟨l', h2, h3, h4⟩ := lapOnes_ok hsib h0 h5 mult v ps (fun q hq => hp q (List.mem_cons_of_mem _ hq)) hr
    refine ⟨l', ?_, h3, editsOf_trans he h4⟩
    rw [List.foldlM_cons, h1]
    exact h2

theorem mapM_total {α β : Type} {f : α → Res β} : ∀ (l : List α), (∀ a ∈ l, ∃ b, f a = .ok b) →
    ∃ bs, l.mapM (m := Except Fault) f = .ok bs
  | [], _ => ⟨[], rfl⟩
  | a :: l, h => by
    obtain ⟨b, hb⟩ := h a (by simp)
    obtain ⟨bs, hbs⟩ := mapM_total l fun c hc => h c (List.mem_cons_of_mem _ hc)
    refine ⟨b :: bs, ?_⟩
    rw [List.mapM_cons, hb]
    change Except.bind (l.mapM (m := Except Fault) f) _ = _
    rw [hbs]
    rfl

theorem lapLoop_ok {dir : List (Snax K) → Int → Res K} {limit : Int → Res K} {sibs : List (Snax K) → Int → List (Snax K)}
    (hsib : ∀ l e, ∀ t ∈ sibs l e, t ∈ l) {spawn : K} (h0 : 0 ≤ spawn) (h5 : spawn ≤ 5) (v : Int) {inds : List Int} :
    ∀ (n : Nat) {snaxs : List (Snax K)}, (∀ l, EditsOf inds snaxs l → ∀ i ∈ inds, ∃ δ, dir l i = .ok δ) →
      LapReady limit inds snaxs → ∃ l, lapLoop dir limit sibs spawn v inds n snaxs = .ok l ∧ LapReady limit inds l ∧
        EditsOf inds snaxs l
  | 0, snaxs, _, h => ⟨snaxs, rfl, h, editsOf_refl _ _⟩
  | n + 1, snaxs, hd, h => by
    obtain ⟨ds, hds⟩ := mapM_total inds (hd snaxs (editsOf_refl _ _))
    obtain ⟨l, h1, h2, h3⟩ := lapOnes_ok (limit := limit) hsib h0 h5 (multiplier spawn ds) v (List.zip inds ds)
      (fun p hp => (List.of_mem_zip hp).1) h
    obtain ⟨l', h4, h6, h7⟩ := lapLoop_ok (dir := dir) hsib h0 h5 v n (fun l' hl' => hd l' (editsOf_trans h3 hl')) h2
    refine ⟨l', ?_, h6, editsOf_trans h3 h7⟩
    unfold lapLoop lapIter
    rw [hds]
    simp only [Except.bind]
    rw [h1]
    exact h4

omit [IsStrictOrderedRing K] in
theorem foldl_max_ge : ∀ (l : List K) (a : K), a ≤ l.foldl (fun a b => max b a) a ∧ ∀ x ∈ l, x ≤ l.foldl (fun a b => max b a) a
  | [], a => ⟨le_rfl, by simp⟩
  | b :: l, a => by
    obtain ⟨h1, h2⟩ := foldl_max_ge l (max b a)
    refine ⟨(le_max_right b a).trans h1, fun x hx => ?_⟩
    rcases List.mem_cons.1 hx with rfl | hx
    · exact (le_max_left x a).trans h1
    · exact h2 x hx

omit [IsStrictOrderedRing K] in
theorem foldl_min_le : ∀ (l : List K) (a : K), l.foldl (fun a b => min b a) a ≤ a ∧ ∀ x ∈ l, l.foldl (fun a b => min b a) a ≤ x
  | [], a => ⟨le_rfl, by simp⟩
  | b :: l, a => by
    obtain ⟨h1, h2⟩ := foldl_min_le l (min b a)
    refine ⟨h1.trans (min_le_right b a), fun x hx => ?_⟩
    rcases List.mem_cons.1 hx with rfl | hx
    · exact h1.trans (min_le_left x a)
    · exact h2 x hx

theorem multiplier_le {spawn : K} (h0 : 0 < spawn) {ds : List K} {δ : K} (hδ : δ ∈ ds) :
    |δ| * multiplier spawn ds ≤ spawn / 3 ∧ 0 ≤ multiplier spawn ds := by
  unfold multiplier
  generalize hA : ds.foldl (fun a b => max b a) (ds.headD 0) = A
  generalize hB : ds.foldl (fun a b => min b a) (ds.headD 0) = B
  have h1 : δ ≤ A := hA ▸ (foldl_max_ge ds _).2 δ hδ
  have h2 : B ≤ δ := hB ▸ (foldl_min_le ds _).2 δ hδ
  have h3 : |δ| ≤ max (max |A| |B|) spawn := by
    refine le_trans ?_ (le_max_left _ _)
    rw [abs_le']
    exact ⟨(h1.trans (le_abs_self A)).trans (le_max_left _ _),
      ((neg_le_neg h2).trans (neg_le_abs B)).trans (le_max_right _ _)⟩
  have h4 : 0 < max (max |A| |B|) spawn := h0.trans_le (le_max_right _ _)
  generalize max (max |A| |B|) spawn = M at h3 h4
  constructor
  · rw [← mul_div_assoc, div_le_iff₀ h4]
    have : |δ| * (spawn * (2 / 6)) = spawn / 3 * |δ| := by ring
    rw [this]
    exact mul_le_mul_of_nonneg_left h3 (by positivity)
  · positivity

end RSVS.Smooth
