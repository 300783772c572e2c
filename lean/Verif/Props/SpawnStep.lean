import Verif.Lemmas.SpawnStep
import Verif.Props.Mesh

/-!
# Properties of the first step of spawned snaxels: C98
-/

namespace RSVS.Props

open RSVS.Spec RSVS.Mesh RSVS.SpawnStep

variable {K : Type} [Field K] [LinearOrder K] [IsStrictOrderedRing K]

/-- C98: steps out of range are refused and steps near zero leave the snaxel. -/
theorem C98_range (eps step : K) (heps : 0 < eps) (m : Mesh) (len : Int → K) (sibs : List (Snax K)) (a : Snax K) :
    (step < -eps ∨ (eps ≤ step ∧ 1 / 2 ≤ step) → takeSpawnStep eps m len step sibs a = .error .throws) ∧
    (|step| < eps → takeSpawnStep eps m len step sibs a = .ok (some a.d)) := by
  constructor
  · intro h
    unfold takeSpawnStep
    have : ¬ approxEq eps step 0 = true := by
      simp only [approxEq, decide_eq_true_eq, sub_zero, not_lt]
      rcases h with h | h
      · rw [abs_of_neg (by linarith)]; linarith
      · rw [abs_of_nonneg (by linarith [h.1])]; exact h.1
    rw [if_neg this, if_pos]
    rcases h with h | h
    · exact .inl h
    · exact .inr h.2
  · intro h
    unfold takeSpawnStep
    rw [if_pos]
    simpa [approxEq] using h

/-- C98: a snaxel that is alone on its edge goes away from the nearer end by the step times the shortest edge there. -/
theorem C98_alone (eps step : K) (heps : 0 < eps) (h1 : eps ≤ step) (h2 : step < 1 / 2) (m : Mesh) (hm : Sound m) (len : Int → K)
    (a : Snax K) (ha : MayStep m len a) (sibs : List (Snax K)) (hs : sibs.length = 1) :
    ∃ s d v, NearEnd a v ∧ ShortestAt m len v s ∧ takeSpawnStep eps m len step sibs a = .ok (some d) ∧
      WentAway len a { a with d := d } (step * s) := by
  obtain ⟨s, d, k1, k2, k3⟩ := step_ok hm heps h1 h2 ha sibs
  refine ⟨s, d, nearVert a, near_end a, k1, ?_, k3⟩
  rw [k2]
  unfold checkedStep
  rw [if_neg, if_pos hs]
  rintro (h | h)
  · exact absurd k3.2.1 (not_le.mpr h)
  · exact absurd k3.2.2.1 (not_le.mpr h)

/-- C98: the steps of a whole snake.  When the new snaxels are alone on their edges, each of them goes away from its nearer end
by the step times the shortest edge there, and all others stay. -/
theorem C98_snake (eps step : K) (heps : 0 < eps) (h1 : eps ≤ step) (h2 : step < 1 / 2) (m : Mesh) (hm : Sound m) (len : Int → K)
    (minIndex : Int) (snaxs : List (Snax K)) (ha : ∀ a ∈ snaxs, minIndex < a.index → MayStep m len a)
    (hs : ∀ a ∈ snaxs, minIndex < a.index → (snaxs.filter fun t => t.edgeind = a.edgeind).length = 1) :
    ∃ r, takeSpawnSteps eps m len step minIndex snaxs = .ok r ∧ ∃ s : Int → K, List.Forall₂ (fun a b =>
      (a.index ≤ minIndex → b = a) ∧ (minIndex < a.index → ∃ v, NearEnd a v ∧ ShortestAt m len v (s v) ∧
        WentAway len a b (step * s v))) snaxs r := by
  classical
  let s : Int → K := fun v => if h : ∃ x, ShortestAt m len v x then h.choose else 0
  have hsv : ∀ v x, ShortestAt m len v x → x = s v := by
    intro v x h
    have hex : ∃ x, ShortestAt m len v x := ⟨x, h⟩
    have k : ShortestAt m len v (s v) := by simp only [s]; rw [dif_pos hex]; exact hex.choose_spec
    obtain ⟨⟨e, he, k1⟩, k2⟩ := h
    obtain ⟨⟨e', he', k3⟩, k4⟩ := k
    have := k2 e' he'
    have := k4 e he
    exact le_antisymm (by linarith) (by linarith)
  have key : ∀ (r l l' : List (Snax K)), (∀ a ∈ r, minIndex < a.index → MayStep m len a) →
      (∀ a ∈ r, minIndex < a.index → ((l' ++ r).filter fun t => t.edgeind = a.edgeind).length = 1) →
      l.map Snax.edgeind = l'.map Snax.edgeind →
      ∃ r', stepFrom eps m len step minIndex l r = .ok (l ++ r') ∧ List.Forall₂ (fun a b =>
        (a.index ≤ minIndex → b = a) ∧ (minIndex < a.index → ∃ v, NearEnd a v ∧ ShortestAt m len v (s v) ∧
        WentAway len a b (step * s v))) r r' := by
    intro r
    induction r with
    | nil => intro l l' _ _ _; exact ⟨[], by simp [stepFrom], .nil⟩
    | cons a r ih =>
      intro l l' ha hs hl
      have hcount : ∀ (x : List (Snax K)) (e : Int), (x.filter fun t => t.edgeind = e).length =
          ((x.map Snax.edgeind).filter fun t => t = e).length := by
        intro x e
        rw [List.filter_map, List.length_map]
        rfl
      by_cases hi : minIndex < a.index
      · have hsib : ((l ++ a :: r).filter fun t => t.edgeind = a.edgeind).length = 1 := by
          rw [hcount, List.map_append, hl, ← List.map_append, ← hcount]
          exact hs a (by simp) hi
        obtain ⟨x, d, v, k1, k2, k3, k4⟩ := C98_alone eps step heps h1 h2 m hm len a (ha a (by simp) hi) _ hsib
        obtain rfl := hsv v x k2
        obtain ⟨r', k5, k6⟩ := ih (l ++ [{ a with d := d }]) (l' ++ [a]) (fun b hb => ha b (by simp [hb]))
          (fun b hb hi => by rw [List.append_assoc]; exact hs b (by simp [hb]) hi) (by simp [hl])
        refine ⟨{ a with d := d } :: r', ?_, .cons ⟨fun h => absurd hi (by omega), fun _ => ⟨v, k1, k2, k4⟩⟩ k6⟩
        rw [stepFrom, if_pos hi, k3]
        simp only [Except.bind]
        rw [k5, List.append_assoc]
        rfl
      · obtain ⟨r', k5, k6⟩ := ih (l ++ [a]) (l' ++ [a]) (fun b hb => ha b (by simp [hb]))
          (fun b hb hi => by rw [List.append_assoc]; exact hs b (by simp [hb]) hi) (by simp [hl])
        refine ⟨a :: r', ?_, .cons ⟨fun _ => rfl, fun h => absurd h hi⟩ k6⟩
        rw [stepFrom, if_neg hi, k5, List.append_assoc]
        rfl
  obtain ⟨r, k1, k2⟩ := key snaxs [] [] ha hs rfl
  exact ⟨r, k1, s, k2⟩

/-- C98, full statement for snaxels that share an edge: a snaxel does not pass others. -/
def C98_shared_statement (K : Type) [Field K] [LinearOrder K] : Prop :=
  ∀ (eps step : K), 0 < eps → eps ≤ step → step < 1 / 2 → ∀ (m : Mesh) (len : Int → K), Sound m → ∀ (a : Snax K),
    MayStep m len a → ∀ (sibs : List (Snax K)), a ∈ sibs → (∀ t ∈ sibs, MayStep m len t ∧ t.edgeind = a.edgeind ∧
      ((t.fromvert = a.fromvert ∧ t.tovert = a.tovert) ∨ (t.fromvert = a.tovert ∧ t.tovert = a.fromvert))) →
    ∀ d, takeSpawnStep eps m len step sibs a = .ok (some d) →
      (∀ t ∈ sibs, Along a a.d < Along t t.d → Along a d ≤ Along t t.d)

/-- C98, full statement: a snaxel goes the whole step when no other snaxel is in the way. -/
def C98_whole_statement (K : Type) [Field K] [LinearOrder K] : Prop :=
  ∀ (eps step : K), 0 < eps → eps ≤ step → step < 1 / 2 → ∀ (m : Mesh) (len : Int → K), Sound m → ∀ (a : Snax K),
    MayStep m len a → a.d = 0 → ∀ (sibs : List (Snax K)), a ∈ sibs → (∀ t ∈ sibs, MayStep m len t ∧ t.edgeind = a.edgeind ∧
      (t.index ≠ a.index → t.fromvert = a.fromvert ∧ t.tovert = a.tovert ∧ step < t.d)) →
    ∃ s, ShortestAt m len a.fromvert s ∧ ∃ d, takeSpawnStep eps m len step sibs a = .ok (some d) ∧
      d * len a.edgeind = step * s

/-- C98 (partial): with others on the edge the snaxel stays on the edge, on the side where the step takes it, and is either at
the end of its step or at the distance of one of the others. -/
theorem C98_shared_partial (eps step : K) (heps : 0 < eps) (h1 : eps ≤ step) (h2 : step < 1 / 2) (m : Mesh) (hm : Sound m)
    (len : Int → K) (a : Snax K) (ha : MayStep m len a) (sibs : List (Snax K)) (hs : 1 < sibs.length)
    (hd : ∀ t ∈ sibs, 0 ≤ t.d ∧ t.d ≤ 1) :
    ∃ s e d v, NearEnd a v ∧ ShortestAt m len v s ∧ WentAway len a { a with d := e } (step * s) ∧
      takeSpawnStep eps m len step sibs a = .ok (some d) ∧ 0 ≤ d ∧ d ≤ 1 ∧ (d < 1 / 2 ↔ e < 1 / 2) ∧
      (d = e ∨ ∃ t ∈ sibs, d = t.d) := by
  obtain ⟨s, e, k1, k2, k3⟩ := step_ok hm heps h1 h2 ha sibs
  have hr : 0 ≤ e ∧ e ≤ 1 := ⟨k3.2.1, k3.2.2.1⟩
  refine ⟨s, e, sibs.foldl (siblingStep a) e, nearVert a, near_end a, k1, k3, ?_,
    siblings_of (fun x => 0 ≤ x) sibs e hr.1 (fun t ht => (hd t ht).1), siblings_of (fun x => x ≤ 1) sibs e hr.2 (fun t ht => (hd t ht).2),
    siblings_side sibs e, siblings_of (fun x => x = e ∨ ∃ t ∈ sibs, x = t.d) sibs e (.inl rfl) (fun t ht => .inr ⟨t, ht, rfl⟩)⟩
  rw [k2]
  unfold checkedStep
  rw [if_neg, if_neg (by omega), if_pos hs]
  rintro (h | h)
  · exact absurd hr.1 (not_le.mpr h)
  · exact absurd hr.2 (not_le.mpr h)

/-- A snaxel on the first edge of `twoEdges`. -/
def onFirst (i : Int) (d : ℚ) : Snax ℚ := { index := i, d := d, v := 1, fromvert := 1, tovert := 2, edgeind := 1, orderedge := i }

theorem onFirst_may (i : Int) {d : ℚ} (h0 : 0 ≤ d) (h1 : d ≤ 1) : MayStep twoEdges (fun _ => (1 : ℚ)) (onFirst i d) where
  low := h0
  high := h1
  edge := by
    rintro v (⟨-, rfl⟩ | ⟨-, rfl⟩)
    · exact ⟨⟨1, [1], [0, 0, 0], false⟩, by simp [twoEdges], rfl, by simp [onFirst]⟩
    · exact ⟨⟨2, [1], [1, 0, 0], false⟩, by simp [twoEdges], rfl, by simp [onFirst]⟩
  pos := fun _ _ _ _ => one_pos

/-- C98: a snaxel passes another, and one that no other is in the way of does not go its step. -/
theorem C98_violated : ¬ C98_shared_statement ℚ ∧ ¬ C98_whole_statement ℚ := by
  constructor
  · intro h
    have := h (1 / 1000) (2 / 5) (by norm_num) (by norm_num) (by norm_num) twoEdges (fun _ => 1) twoEdges_sound (onFirst 2 0)
      (onFirst_may 2 (by norm_num) (by norm_num)) [onFirst 1 (3 / 10), onFirst 2 0] (by simp)
      (by
        intro t ht
        simp only [List.mem_cons, List.not_mem_nil, or_false] at ht
        rcases ht with rfl | rfl
        · exact ⟨onFirst_may 1 (by norm_num) (by norm_num), rfl, .inl ⟨rfl, rfl⟩⟩
        · exact ⟨onFirst_may 2 (by norm_num) (by norm_num), rfl, .inl ⟨rfl, rfl⟩⟩)
      (2 / 5) (by decide +kernel) (onFirst 1 (3 / 10)) (by simp) (by decide +kernel)
    revert this
    decide +kernel
  · intro h
    obtain ⟨s, ⟨⟨e, -, rfl⟩, -⟩, d, h1, h2⟩ := h (1 / 1000) (1 / 10) (by norm_num) (by norm_num) (by norm_num) twoEdges (fun _ => 1) twoEdges_sound (onFirst 2 0)
      (onFirst_may 2 (by norm_num) (by norm_num)) rfl [onFirst 1 (3 / 10), onFirst 2 0] (by simp)
      (by
        intro t ht
        simp only [List.mem_cons, List.not_mem_nil, or_false] at ht
        rcases ht with rfl | rfl
        · exact ⟨onFirst_may 1 (by norm_num) (by norm_num), rfl, fun _ => ⟨rfl, rfl, by norm_num [onFirst]⟩⟩
        · exact ⟨onFirst_may 2 (by norm_num) (by norm_num), rfl, fun h => absurd rfl h⟩)
    have : takeSpawnStep (1 / 1000 : ℚ) twoEdges (fun _ => 1) (1 / 10) [onFirst 1 (3 / 10), onFirst 2 0] (onFirst 2 0) = .ok (some (3 / 10)) := by
      decide +kernel
    rw [this] at h1
    have : d = 3 / 10 := by simpa using h1.symm
    rw [this] at h2
    norm_num at h2

/-- A corner of the tetrahedron with edges of lengths 1, 2 and 4: the three spawned snaxels go half a unit. -/
example : ∃ r, takeSpawnSteps (1 / 1000 : ℚ) tetra (fun e => if e = 1 then 1 else if e = 2 then 2 else 4) (1 / 4) 6
      [⟨3, 1 / 3, 0, 2, 3, 4, 1⟩, ⟨7, 0, 0, 1, 2, 1, 1⟩, ⟨8, 0, 0, 1, 3, 2, 1⟩, ⟨9, 1, 0, 4, 1, 3, 1⟩] = .ok r ∧
    r.map Snax.d = [1 / 3, 1 / 4, 1 / 8, 15 / 16] :=
  ⟨[⟨3, 1 / 3, 0, 2, 3, 4, 1⟩, ⟨7, 1 / 4, 0, 1, 2, 1, 1⟩, ⟨8, 1 / 8, 0, 1, 3, 2, 1⟩, ⟨9, 15 / 16, 0, 4, 1, 3, 1⟩], by decide +kernel,
    by decide +kernel⟩

/-- These snaxels meet the hypotheses of `C98_snake`. -/
example : ∀ a ∈ ([⟨3, 1 / 3, 0, 2, 3, 4, 1⟩, ⟨7, 0, 0, 1, 2, 1, 1⟩, ⟨8, 0, 0, 1, 3, 2, 1⟩, ⟨9, 1, 0, 4, 1, 3, 1⟩] : List (Snax ℚ)),
    6 < a.index → MayStep tetra (fun e => if e = 1 then 1 else if e = 2 then 2 else 4) a := by
  intro a ha hi
  have key : ∀ e ∈ [(1 : Int), 2, 3], VertEdge tetra 1 e := fun e he => ⟨⟨1, [1, 2, 3], [0, 0, 0], false⟩, by simp [tetra], rfl, he⟩
  have hp : ∀ e : Int, (0 : ℚ) < if e = 1 then 1 else if e = 2 then 2 else 4 := fun e => by split_ifs <;> norm_num
  simp only [List.mem_cons, List.not_mem_nil, or_false] at ha
  rcases ha with rfl | rfl | rfl | rfl
  · exact absurd hi (by decide)
  · refine ⟨by norm_num, by norm_num, ?_, fun _ _ e _ => hp e⟩
    rintro v (⟨-, rfl⟩ | ⟨h, rfl⟩)
    · exact key 1 (by simp)
    · norm_num at h
  · refine ⟨by norm_num, by norm_num, ?_, fun _ _ e _ => hp e⟩
    rintro v (⟨-, rfl⟩ | ⟨h, rfl⟩)
    · exact key 2 (by simp)
    · norm_num at h
  · refine ⟨by norm_num, by norm_num, ?_, fun _ _ e _ => hp e⟩
    rintro v (⟨h, rfl⟩ | ⟨-, rfl⟩)
    · norm_num at h
    · exact key 3 (by simp)

/-- The hypotheses of `C98_alone` and `C98_shared_partial`. -/
example : (∃ s d v, NearEnd (onFirst 2 0) v ∧ ShortestAt twoEdges (fun _ => (1 : ℚ)) v s ∧
      takeSpawnStep (1 / 1000) twoEdges (fun _ => 1) (1 / 4) [onFirst 2 0] (onFirst 2 0) = .ok (some d) ∧
      WentAway (fun _ => 1) (onFirst 2 0) { onFirst 2 0 with d := d } (1 / 4 * s)) ∧
    takeSpawnStep (1 / 1000) twoEdges (fun _ => (1 : ℚ)) (1 / 4) [onFirst 1 (1 / 5), onFirst 2 0] (onFirst 2 0) = .ok (some (1 / 5)) :=
  ⟨C98_alone (1 / 1000) (1 / 4) (by norm_num) (by norm_num) (by norm_num) twoEdges twoEdges_sound (fun _ => 1) (onFirst 2 0)
    (onFirst_may 2 (by norm_num) (by norm_num)) [onFirst 2 0] rfl, by decide +kernel⟩

end RSVS.Props
