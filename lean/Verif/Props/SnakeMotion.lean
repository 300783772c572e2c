import Verif.Lemmas.MotionOrder
import Mathlib.Data.Rat.Defs
import Mathlib.Algebra.Order.Field.Rat

/-!
# Properties C33 - C39, C53, C55, C61: motion of snaxels along edges
-/

namespace RSVS.Props

set_option linter.unusedSectionVars false

open RSVS RSVS.Spec

variable {K : Type} [Field K] [LinearOrder K] [IsStrictOrderedRing K]

/-! ## C33 -/

/-- `s'` is `s` at another position. -/
def SameBut (s s' : Snax K) : Prop := s' = { s with d := s'.d }

/-- C33. After `UpdateDistance` with one time step every snaxel is on its edge, has moved by at most the maximum
step of this snaxel, in the direction of its velocity, and nothing else about it has changed. -/
theorem C33_update_distance (dt maxDstep : K) (lim : Snax K → K) (l : List (Snax K)) (i : Nat) (s s' : Snax K)
    (hs : l[i]? = some s) (hs' : (updateDistance dt maxDstep lim l)[i]? = some s')
    (h0 : 0 ≤ s.d) (h1 : s.d ≤ 1) (hl : 0 ≤ lim s * maxDstep) :
    (0 ≤ s'.d ∧ s'.d ≤ 1) ∧ |s'.d - s.d| ≤ lim s * maxDstep ∧ SameBut s s' ∧
      (0 ≤ s.v * dt → s.d ≤ s'.d) ∧ (s.v * dt ≤ 0 → s'.d ≤ s.d) ∧
      (|s.v * dt| ≤ lim s * maxDstep → 0 ≤ s.d + s.v * dt → s.d + s.v * dt ≤ 1 → s'.d = s.d + s.v * dt) := by
  unfold updateDistance at hs'
  rw [List.getElem?_map, hs] at hs'
  simp only [Option.map_some, Option.some.injEq, one_mul] at hs'
  subst hs'
  exact ⟨updateD_mem _ _ _ _, updateD_dist h0 h1 hl, rfl, updateD_up h1 hl, updateD_down h0 hl,
    updateD_exact⟩

/-- C33 for `UpdateDistance` with one time step per snaxel; it throws exactly when the sizes differ. -/
theorem C33_update_distance_vec (dt : List K) (maxDstep : K) (lim : Snax K → K) (l : List (Snax K)) :
    (dt.length ≠ l.length → updateDistanceVec dt maxDstep lim l = .error .throws) ∧
    (dt.length = l.length → ∃ l', updateDistanceVec dt maxDstep lim l = .ok l' ∧ l'.length = l.length ∧
      ∀ (i : Nat) (s : Snax K) (t : K), l[i]? = some s → dt[i]? = some t → 0 ≤ s.d → s.d ≤ 1 →
        0 ≤ lim s * maxDstep → ∃ s', l'[i]? = some s' ∧
          (0 ≤ s'.d ∧ s'.d ≤ 1) ∧ |s'.d - s.d| ≤ lim s * maxDstep ∧ SameBut s s' ∧
          (0 ≤ s.v * t → s.d ≤ s'.d) ∧ (s.v * t ≤ 0 → s'.d ≤ s.d) ∧
          (|s.v * t| ≤ lim s * maxDstep → 0 ≤ s.d + s.v * t → s.d + s.v * t ≤ 1 → s'.d = s.d + s.v * t)) := by
  unfold updateDistanceVec
  refine ⟨fun h => by rw [if_pos h], fun h => ?_⟩
  rw [if_neg (not_not.2 h)]
  refine ⟨_, rfl, by simp [h], ?_⟩
  intro i s t hs ht h0 h1 hl
  refine ⟨{ s with d := updateD s.d s.v t (lim s * (1 * maxDstep)) }, ?_, ?_⟩
  · rw [List.getElem?_zipWith, hs, ht]
  · simp only [one_mul]
    exact ⟨updateD_mem _ _ _ _, updateD_dist h0 h1 hl, rfl, updateD_up h1 hl, updateD_down h0 hl,
      updateD_exact⟩

example : updateDistance (2 : ℚ) (1 / 4) (fun _ => 1) [⟨1, 1 / 2, 1, 1, 2, 7, 1⟩, ⟨2, 1 / 10, -1, 1, 2, 7, 1⟩] =
    [⟨1, 3 / 4, 1, 1, 2, 7, 1⟩, ⟨2, 0, -1, 1, 2, 7, 1⟩] := by decide +kernel

example : updateDistanceVec [(1 / 8 : ℚ), 1] (1 / 4) (fun _ => 1)
    [⟨1, 1 / 2, 1, 1, 2, 7, 1⟩, ⟨2, 1 / 10, -1, 1, 2, 7, 1⟩] =
    .ok [⟨1, 5 / 8, 1, 1, 2, 7, 1⟩, ⟨2, 0, -1, 1, 2, 7, 1⟩] := by decide +kernel

/-! ## C53 -/

/-- C53. `SnaxImpactDt` is symmetric. -/
theorem C53_symmetric (eps : K) (a b : Snax K) : impactDt eps a b = impactDt eps b a := impactDt_symm eps a b

/-- C53. A non-negative result is a time of contact, and no other non-negative time is. -/
theorem C53_contact (eps : K) (heps : 0 < eps) (A B : Int) (a b : Snax K) (ha : OnEdge A B a)
    (hb : OnEdge A B b) (t : K) (ht : 0 ≤ t) : IsContact eps A a b t ↔ t = impactDt eps a b := by
  rw [impactDt_eq eps A B a b ha hb]
  exact isContact_iff eps heps A a b t ht

/-- C53. A positive result is the first time at which the two snaxels are at the same place. -/
theorem C53_first_meeting (eps : K) (heps : 0 < eps) (A B : Int) (a b : Snax K) (ha : OnEdge A B a)
    (hb : OnEdge A B b) (hpos : 0 < impactDt eps a b) :
    posFrom A a + velFrom A a * impactDt eps a b = posFrom A b + velFrom A b * impactDt eps a b ∧
    ∀ t, posFrom A a + velFrom A a * t = posFrom A b + velFrom A b * t → t = impactDt eps a b := by
  have h := (C53_contact eps heps A B a b ha hb _ hpos.le).2 rfl
  rcases h with ⟨_, h⟩ | ⟨_, h2, h3⟩
  · exact absurd h hpos.ne'
  · refine ⟨h3, ?_⟩
    intro t ht
    have hne : velFrom A b - velFrom A a ≠ 0 := by
      intro h0
      rw [h0, abs_zero] at h2
      exact absurd h2 (not_le.2 heps)
    have : (velFrom A b - velFrom A a) * t = (velFrom A b - velFrom A a) * impactDt eps a b := by linarith
    exact mul_left_cancel₀ hne this

/-- C53. The result is 0 exactly when the snaxels are within `eps`, and `-1` is returned when they are apart
and their relative speed is below `eps`; in that case they get closer by less than `eps` per unit of time. -/
theorem C53_no_contact (eps : K) (heps : 0 < eps) (A B : Int) (a b : Snax K) (ha : OnEdge A B a)
    (hb : OnEdge A B b) :
    (impactDt eps a b = 0 ↔ |posFrom A b - posFrom A a| < eps) ∧
    (eps ≤ |posFrom A b - posFrom A a| → |velFrom A b - velFrom A a| < eps → impactDt eps a b = -1) := by
  rw [impactDt_eq eps A B a b ha hb]
  unfold contactTime
  constructor
  · constructor
    · intro h
      by_contra hc
      rw [if_neg hc] at h
      split_ifs at h with h2
      · norm_num at h
      · rcases div_eq_zero_iff.1 h with h3 | h3
        · rw [neg_eq_zero] at h3; rw [h3, abs_zero] at hc; exact hc heps
        · rw [h3, abs_zero] at h2; exact h2 heps
    · intro h; rw [if_pos h]
  · intro h1 h2
    rw [if_neg (not_lt.2 h1), if_pos h2]

example : impactDt (1 / 1000 : ℚ) ⟨1, 1 / 4, 1, 1, 2, 7, 1⟩ ⟨2, 1 / 4, 1, 2, 1, 7, 2⟩ = 1 / 4 ∧
    OnEdge 1 2 (⟨1, 1 / 4, 1, 1, 2, 7, 1⟩ : Snax ℚ) ∧ OnEdge 1 2 (⟨2, 1 / 4, 1, 2, 1, 7, 2⟩ : Snax ℚ) := by
  refine ⟨by decide +kernel, ?_, ?_⟩ <;> simp [OnEdge]

/-! ## C61 -/

/-- The snake as `CalculateTimeStep` sees it: `at_` reads the snaxels, `subs` lists the snaxels of each edge (see C04),
and each edge has two vertices. -/
structure SnakeView (l : List (Snax K)) (at_ : Nat → Snax K) (subs : Int → List Nat) (lo hi : Int → Int) : Prop where
  at_eq : ∀ p s, l[p]? = some s → at_ p = s
  subs_eq : ∀ e, AllPos Snax.edgeind l e (subs e)
  edge : ∀ s ∈ l, OnEdge (lo s.edgeind) (hi s.edgeind) s

/-- C61. `CalculateTimeStep` succeeds and gives each snaxel the least of the default step and of its non-negative times of
contact with the other snaxels of its edge, for any number of snaxels in any table order.  With the
shape-conserving limit the default step is first reduced. -/
theorem C61_time_step (eps : K) (heps : 0 < eps) (conserve : Bool) (dtDefault dist : K) (hdist : 0 ≤ dist)
    (l : List (Snax K))
    (at_ : Nat → Snax K) (subs : Int → List Nat) (lo hi : Int → Int) (hv : SnakeView l at_ subs lo hi) :
    ∃ d0 dt, calculateTimeStep eps conserve dtDefault dist l at_ subs = .ok dt ∧
      (conserve = false → d0 = dtDefault) ∧
      (conserve = true → MinOver dtDefault (fun t => ∃ s ∈ l, s.v > eps ∧ t = dist / |s.v|) d0) ∧
      ∀ (x : Nat) (sx : Snax K), l[x]? = some sx → MinOver d0 (fun t => ∃ (y : Nat) (sy : Snax K), l[y]? = some sy ∧
        y ≠ x ∧ sy.edgeind = sx.edgeind ∧ IsContact eps (lo sx.edgeind) sx sy t) (dt x) := by
  have hsub : ∀ e, (subs e).Nodup ∧ ∀ p, p ∈ subs e ↔ p < l.length ∧ (at_ p).edgeind = e := by
    intro e
    obtain ⟨h1, h2⟩ := hv.subs_eq e
    refine ⟨h1, fun p => ?_⟩
    rw [h2 p]
    constructor
    · rintro ⟨s, hs, he⟩
      obtain ⟨hp, _⟩ := List.getElem?_eq_some_iff.1 hs
      exact ⟨hp, by rw [hv.at_eq p s hs, he]⟩
    · rintro ⟨hp, he⟩
      refine ⟨l[p], List.getElem?_eq_getElem hp, ?_⟩
      rw [← hv.at_eq p _ (List.getElem?_eq_getElem hp)]
      exact he
  refine ⟨if conserve then defaultDt eps dist dtDefault l else dtDefault, ?_⟩
  obtain ⟨dt, e1, e2⟩ := timeStepLoop_spec eps l.length at_ subs
    (if conserve then defaultDt eps dist dtDefault l else dtDefault) hsub (List.range l.length)
    (fun _ => if conserve then defaultDt eps dist dtDefault l else dtDefault) (fun _ => false)
    (by simp) (by
      intro x _
      exact ⟨by simp, fun _ => rfl, fun _ _ _ => rfl⟩)
  refine ⟨dt, e1, ?_, ?_, ?_⟩
  · intro h; rw [h]; rfl
  · intro h; rw [h]; exact defaultDt_minOver eps dist hdist l dtDefault
  · intro x sx hx
    obtain ⟨hxl, _⟩ := List.getElem?_eq_some_iff.1 hx
    have hxe := hv.at_eq x sx hx
    refine (e2 x hxl (Or.inr (List.mem_range.2 hxl))).congr_nonneg ?_
    intro t ht
    constructor
    · rintro ⟨y, hy, hne, he, rfl⟩
      have hy' : l[y]? = some l[y] := List.getElem?_eq_getElem hy
      have hye := hv.at_eq y _ hy'
      rw [hxe, hye] at he ht ⊢
      refine ⟨y, l[y], hy', hne, he, ?_⟩
      have hb := hv.edge l[y] (List.getElem_mem hy)
      rw [he] at hb
      exact (C53_contact eps heps _ _ sx l[y] (hv.edge sx (List.mem_of_getElem? hx)) hb _ ht).2 rfl
    · rintro ⟨y, sy, hy, hne, he, hc⟩
      have hye := hv.at_eq y sy hy
      have hb := hv.edge sy (List.mem_of_getElem? hy)
      rw [he] at hb
      refine ⟨y, (List.getElem?_eq_some_iff.1 hy).1, hne, by rw [hxe, hye, he], ?_⟩
      rw [hxe, hye]
      exact (C53_contact eps heps _ _ sx sy (hv.edge sx (List.mem_of_getElem? hx)) hb t ht).1 hc

/-- Three snaxels on edge 7 going the same way, and one alone on edge 8. -/
def threeOnEdge : List (Snax ℚ) :=
  [⟨1, 0, 3, 1, 2, 7, 1⟩, ⟨2, 1 / 5, 2, 1, 2, 7, 2⟩, ⟨3, 1 / 4, 1, 1, 2, 7, 3⟩, ⟨4, 1 / 2, 1, 2, 3, 8, 1⟩]

def threeAt (p : Nat) : Snax ℚ := threeOnEdge.getD p ⟨0, 0, 0, 0, 0, 0, 0⟩

def threeSubs (e : Int) : List Nat := if e = 7 then [2, 0, 1] else if e = 8 then [3] else []

theorem threeView : SnakeView threeOnEdge threeAt threeSubs (fun e => if e = 7 then 1 else 2)
    (fun e => if e = 7 then 2 else 3) := by
  refine ⟨?_, ?_, ?_⟩
  · intro p s h
    simp [threeAt, h]
  · intro e
    unfold threeSubs
    constructor
    · split_ifs <;> simp
    · intro p
      constructor
      · split_ifs with h1 h2
        · subst h1
          intro hp
          simp at hp
          rcases hp with rfl | rfl | rfl <;> simp [threeOnEdge]
        · subst h2
          intro hp
          simp at hp
          subst hp
          simp [threeOnEdge]
        · simp
      · rintro ⟨s, hs, he⟩
        have hp : p < 4 := (List.getElem?_eq_some_iff.1 hs).1
        have : p = 0 ∨ p = 1 ∨ p = 2 ∨ p = 3 := by omega
        rcases this with rfl | rfl | rfl | rfl <;>
        · simp [threeOnEdge] at hs
          subst hs
          simp at he
          subst he
          simp
  · intro s hs
    simp [threeOnEdge] at hs
    rcases hs with rfl | rfl | rfl | rfl <;> simp [OnEdge]

/-- The steps in the example: contacts are at 1/5 (first with second), 1/8 (first with third), 1/20. -/
example : ∃ dt, calculateTimeStep (1 / 1000000) false 1 1 threeOnEdge threeAt threeSubs = .ok dt ∧
    [dt 0, dt 1, dt 2, dt 3] = [1 / 8, 1 / 20, 1 / 20, 1] := by
  have h : (calculateTimeStep (1 / 1000000) false 1 1 threeOnEdge threeAt threeSubs).map
      (fun dt => [dt 0, dt 1, dt 2, dt 3]) = .ok [1 / 8, 1 / 20, 1 / 20, 1] := by decide +kernel
  revert h
  cases calculateTimeStep (1 / 1000000 : ℚ) false 1 1 threeOnEdge threeAt threeSubs with
  | error f => intro h; cases h
  | ok dt => intro h; exact ⟨dt, rfl, Except.ok.inj h⟩

/-! ## C34 -/

/-- Full statement of C34: a step of the snake computed by `CalculateTimeStep` and `UpdateDistance` keeps the order of any two
snaxels of an edge (up to `eps` times the step, the tolerance used by the contact test). -/
def C34_statement (K : Type) [Field K] [LinearOrder K] : Prop :=
  ∀ (eps : K) (dtDefault maxDstep : K) (l : List (Snax K)) (at_ : Nat → Snax K) (subs : Int → List Nat)
    (lo hi : Int → Int) (dt : Nat → K) (l' : List (Snax K)), 0 < eps → 0 ≤ dtDefault → 0 ≤ maxDstep →
    SnakeView l at_ subs lo hi → (∀ s ∈ l, 0 ≤ s.d ∧ s.d ≤ 1) →
    calculateTimeStep eps false dtDefault 1 l at_ subs = .ok dt →
    updateDistanceVec ((List.range l.length).map dt) maxDstep (fun _ => 1) l = .ok l' →
    ∀ (i j : Nat) (a b a' b' : Snax K), l[i]? = some a → l[j]? = some b → l'[i]? = some a' → l'[j]? = some b' →
      a.edgeind = b.edgeind → posFrom (lo a.edgeind) a ≤ posFrom (lo a.edgeind) b →
      posFrom (lo a.edgeind) a' ≤ posFrom (lo a.edgeind) b' + eps * max (dt i) (dt j)

/-- C34 is false in the code: each snaxel gets its own step, so the first of three snaxels, limited only by its own
contacts, passes the second which stops early because of the third. -/
theorem C34_three_snaxels_violated : ¬ C34_statement ℚ := by
  intro h
  have hc : (calculateTimeStep (1 / 1000000) false 1 1 threeOnEdge threeAt threeSubs).map
      (fun dt => [dt 0, dt 1, dt 2, dt 3]) = .ok [1 / 8, 1 / 20, 1 / 20, 1] := by decide +kernel
  revert hc
  cases hdt : calculateTimeStep (1 / 1000000 : ℚ) false 1 1 threeOnEdge threeAt threeSubs with
  | error f => intro hc; cases hc
  | ok dt =>
    intro hc
    have hc := Except.ok.inj hc
    simp only [List.cons.injEq, and_true] at hc
    obtain ⟨h0, h1, h2, h3⟩ := hc
    have hu : updateDistanceVec ((List.range threeOnEdge.length).map dt) 1 (fun _ => 1) threeOnEdge =
        .ok [⟨1, 3 / 8, 3, 1, 2, 7, 1⟩, ⟨2, 3 / 10, 2, 1, 2, 7, 2⟩, ⟨3, 3 / 10, 1, 1, 2, 7, 3⟩,
          ⟨4, 1, 1, 2, 3, 8, 1⟩] := by
      have : (List.range threeOnEdge.length).map dt = [1 / 8, 1 / 20, 1 / 20, 1] := by
        simp only [threeOnEdge, List.length_cons, List.length_nil]
        simp only [List.range_succ, List.range_zero, List.nil_append, List.cons_append, List.map_cons,
          List.map_nil, h0, h1, h2, h3]
      rw [this]
      decide +kernel
    have := h (1 / 1000000) 1 1 threeOnEdge threeAt threeSubs _ _ dt _ (by norm_num) (by norm_num) (by norm_num)
      threeView (by
        intro s hs
        simp [threeOnEdge] at hs
        rcases hs with rfl | rfl | rfl | rfl <;> norm_num) hdt hu 0 1 _ _ _ _ rfl rfl rfl rfl rfl
        (by norm_num [posFrom])
    rw [h0, h1] at this
    norm_num [posFrom] at this

/-- C34, the part that holds (1): two snaxels of an edge which get the same time step keep their order; they overlap by at
most `eps` times the step, and only when their relative speed is below `eps`.
Missing for the full statement: pairs with different steps, which can pass each other (see above). -/
theorem C34_same_step_partial (eps : K) (heps : 0 < eps) (dtDefault maxDstep : K) (hdt0 : 0 ≤ dtDefault)
    (hm : 0 ≤ maxDstep) (l : List (Snax K)) (at_ : Nat → Snax K) (subs : Int → List Nat)
    (lo hi : Int → Int) (hv : SnakeView l at_ subs lo hi) (lim : Snax K → K)
    (dt : Nat → K) (hdt : calculateTimeStep eps false dtDefault 1 l at_ subs = .ok dt)
    (l' : List (Snax K)) (hl' : updateDistanceVec ((List.range l.length).map dt) maxDstep lim l = .ok l')
    (i j : Nat) (hij : i ≠ j) (a b a' b' : Snax K) (ha : l[i]? = some a) (hb : l[j]? = some b)
    (ha' : l'[i]? = some a') (hb' : l'[j]? = some b') (he : b.edgeind = a.edgeind)
    (hlim : lim a = lim b) (hlim0 : 0 ≤ lim a) (hsame : dt i = dt j)
    (hp : posFrom (lo a.edgeind) a ≤ posFrom (lo a.edgeind) b) :
    posFrom (lo a.edgeind) a' ≤ posFrom (lo a.edgeind) b' ∨
      (|velFrom (lo a.edgeind) b - velFrom (lo a.edgeind) a| < eps ∧
        posFrom (lo a.edgeind) a' ≤ posFrom (lo a.edgeind) b' + eps * dt i) := by
  obtain ⟨d0, dt2, e1, e2, _, e4⟩ := C61_time_step eps heps false dtDefault 1 (by norm_num) l at_ subs lo hi hv
  rw [hdt] at e1
  cases e1
  rw [e2 rfl] at e4
  have hmin := e4 i a ha
  have hnn : 0 ≤ dt i := by
    rcases hmin.2.2 with h | ⟨_, h⟩
    · rw [h]; exact hdt0
    · exact h
  have hA := hv.edge a (List.mem_of_getElem? ha)
  have hB := hv.edge b (List.mem_of_getElem? hb)
  rw [he] at hB
  have hlimit : 0 ≤ impactDt eps a b → dt i ≤ impactDt eps a b := by
    intro h0
    exact hmin.2.1 _ ⟨j, b, hb, hij.symm, he, (C53_contact eps heps _ _ a b hA hB _ h0).2 rfl⟩ h0
  unfold updateDistanceVec at hl'
  rw [if_neg (by simp)] at hl'
  cases hl'
  rw [List.getElem?_zipWith, ha] at ha'
  rw [List.getElem?_zipWith, hb] at hb'
  have hil := (List.getElem?_eq_some_iff.1 ha).1
  have hjl := (List.getElem?_eq_some_iff.1 hb).1
  rw [List.getElem?_map, List.getElem?_range hil] at ha'
  rw [List.getElem?_map, List.getElem?_range hjl] at hb'
  simp only [Option.map_some, Option.some.injEq, one_mul] at ha' hb'
  have hla : 0 ≤ lim a * maxDstep := mul_nonneg hlim0 hm
  rw [← ha', ← hb', ← hlim, ← hsame, posFrom_update _ _ _ _ hla, posFrom_update _ _ _ _ hla]
  rw [impactDt_eq eps _ _ a b hA hB] at hlimit
  exact no_pass_core hnn hla hlimit hp

/-- C34, the part that holds (2): with two snaxels on an edge, whatever else is in the snake, both get the same step and so
keep their order. -/
theorem C34_two_snaxels_partial (eps : K) (heps : 0 < eps) (dtDefault maxDstep : K) (hdt0 : 0 ≤ dtDefault)
    (hm : 0 ≤ maxDstep) (l : List (Snax K)) (at_ : Nat → Snax K) (subs : Int → List Nat)
    (lo hi : Int → Int) (hv : SnakeView l at_ subs lo hi)
    (dt : Nat → K) (hdt : calculateTimeStep eps false dtDefault 1 l at_ subs = .ok dt)
    (l' : List (Snax K)) (hl' : updateDistanceVec ((List.range l.length).map dt) maxDstep (fun _ => 1) l = .ok l')
    (i j : Nat) (hij : i ≠ j) (a b a' b' : Snax K) (ha : l[i]? = some a) (hb : l[j]? = some b)
    (ha' : l'[i]? = some a') (hb' : l'[j]? = some b') (he : b.edgeind = a.edgeind)
    (honly : ∀ (p : Nat) (s : Snax K), l[p]? = some s → s.edgeind = a.edgeind → p = i ∨ p = j)
    (hp : posFrom (lo a.edgeind) a ≤ posFrom (lo a.edgeind) b) :
    posFrom (lo a.edgeind) a' ≤ posFrom (lo a.edgeind) b' ∨
      (|velFrom (lo a.edgeind) b - velFrom (lo a.edgeind) a| < eps ∧
        posFrom (lo a.edgeind) a' ≤ posFrom (lo a.edgeind) b' + eps * dt i) := by
  refine C34_same_step_partial eps heps dtDefault maxDstep hdt0 hm l at_ subs lo hi hv (fun _ => 1) dt hdt l' hl' i j
    hij a b a' b' ha hb ha' hb' he rfl zero_le_one ?_ hp
  obtain ⟨d0, dt2, e1, e2, _, e4⟩ := C61_time_step eps heps false dtDefault 1 (by norm_num) l at_ subs lo hi hv
  rw [hdt] at e1
  cases e1
  rw [e2 rfl] at e4
  have hi := e4 i a ha
  have hj := e4 j b hb
  have hA := hv.edge a (List.mem_of_getElem? ha)
  have hB := hv.edge b (List.mem_of_getElem? hb)
  rw [he] at hB
  refine MinOver.unique hi (hj.congr_nonneg ?_)
  intro t ht
  constructor
  · rintro ⟨y, sy, hy, hne, hey, hc⟩
    rw [he] at hey hc
    have : y = i := (honly y sy hy hey).resolve_right hne
    subst this
    rw [ha] at hy
    cases hy
    refine ⟨j, b, hb, fun h => hne h.symm, he, ?_⟩
    rw [C53_contact eps heps _ _ _ _ hA hB t ht, C53_symmetric]
    exact (C53_contact eps heps _ _ _ _ hB hA t ht).1 hc
  · rintro ⟨y, sy, hy, hne, hey, hc⟩
    have : y = j := (honly y sy hy hey).resolve_left hne
    subst this
    rw [hb] at hy
    cases hy
    refine ⟨i, a, ha, fun h => hne h.symm, he.symm, ?_⟩
    rw [he, C53_contact eps heps _ _ _ _ hB hA t ht, C53_symmetric]
    exact (C53_contact eps heps _ _ _ _ hA hB t ht).1 hc

/-- Two snaxels moving towards each other on edge 7 and one on edge 8; they meet and do not pass. -/
example :
    let l : List (Snax ℚ) := [⟨1, 1 / 4, 1, 1, 2, 7, 1⟩, ⟨2, 1 / 4, 1, 2, 1, 7, 2⟩, ⟨3, 0, 1, 3, 4, 8, 1⟩]
    ((calculateTimeStep (1 / 1000000) false 1 1 l (fun p => l.getD p ⟨0, 0, 0, 0, 0, 0, 0⟩)
      (fun e => if e = 7 then [1, 0] else [2])).bind
      (fun dt => updateDistanceVec ((List.range l.length).map dt) 1 (fun _ => 1) l)) =
    .ok [⟨1, 1 / 2, 1, 1, 2, 7, 1⟩, ⟨2, 1 / 2, 1, 2, 1, 7, 2⟩, ⟨3, 1, 1, 3, 4, 8, 1⟩] := by decide +kernel

/-! ## C35 -/

/-- Full statement of C35. -/
def C35_statement (K : Type) [Field K] [LinearOrder K] : Prop :=
  ∀ (eps dtDefault dist : K) (l : List (Snax K)) (at_ : Nat → Snax K) (subs : Int → List Nat)
    (lo hi : Int → Int) (dt : Nat → K), 0 < eps → 0 ≤ dist → SnakeView l at_ subs lo hi →
    calculateTimeStep eps true dtDefault dist l at_ subs = .ok dt →
    ∀ (i : Nat) (s : Snax K), l[i]? = some s → |s.v| > eps → |s.v * dt i| ≤ dist

/-- C35 is false in the code: a snaxel with negative velocity is ignored by the limit, because the test takes the
absolute value of a comparison instead of the comparison of an absolute value. -/
theorem C35_negative_velocity_violated : ¬ C35_statement ℚ := by
  intro h
  have hc : (calculateTimeStep (1 / 1000000) true 1 (1 / 10) [(⟨1, 1, -1, 1, 2, 7, 1⟩ : Snax ℚ)]
      (fun _ => ⟨1, 1, -1, 1, 2, 7, 1⟩) (fun e => if e = 7 then [0] else [])).map
      (fun dt => dt 0) = .ok 1 := by decide +kernel
  revert hc
  cases hdt : calculateTimeStep (1 / 1000000) true 1 (1 / 10) [(⟨1, 1, -1, 1, 2, 7, 1⟩ : Snax ℚ)]
      (fun _ => ⟨1, 1, -1, 1, 2, 7, 1⟩) (fun e => if e = 7 then [0] else []) with
  | error f => intro hc; cases hc
  | ok dt =>
    intro hc
    have hc : dt 0 = 1 := Except.ok.inj hc
    have := h _ _ _ _ _ _ (fun _ => 1) (fun _ => 2) dt (by norm_num) (by norm_num) ⟨?_, ?_, ?_⟩ hdt 0 _ rfl
      (by norm_num)
    · rw [hc] at this
      norm_num at this
    · intro p s hs
      cases p with
      | zero => simpa using hs
      | succ p => simp at hs
    · intro e
      constructor
      · split_ifs <;> simp
      · intro p
        cases p with
        | zero => by_cases he : e = 7 <;> simp [he, eq_comm]
        | succ p => split_ifs <;> simp
    · intro s hs
      simp at hs
      subst hs
      simp [OnEdge]

/-- C35, the part that holds: no snaxel with positive velocity above `eps` is moved by more than the distance.
Missing: snaxels with negative velocity. -/
theorem C35_positive_velocity_partial (eps : K) (heps : 0 < eps) (dtDefault dist : K) (hdist : 0 ≤ dist)
    (hdt0 : 0 ≤ dtDefault) (l : List (Snax K)) (at_ : Nat → Snax K) (subs : Int → List Nat) (lo hi : Int → Int)
    (hv : SnakeView l at_ subs lo hi) (dt : Nat → K)
    (hdt : calculateTimeStep eps true dtDefault dist l at_ subs = .ok dt)
    (i : Nat) (s : Snax K) (hs : l[i]? = some s) (hpos : s.v > eps) : |s.v * dt i| ≤ dist := by
  obtain ⟨d0, dt2, e1, _, e3, e4⟩ := C61_time_step eps heps true dtDefault dist hdist l at_ subs lo hi hv
  rw [hdt] at e1
  cases e1
  have h3 := e3 rfl
  have h4 := e4 i s hs
  have hv0 : 0 < s.v := lt_trans heps hpos
  have hq : 0 ≤ dist / |s.v| := div_nonneg hdist (abs_nonneg _)
  have h5 : d0 ≤ dist / |s.v| := h3.2.1 _ ⟨s, List.mem_of_getElem? hs, hpos, rfl⟩ hq
  have hd0 : 0 ≤ d0 := by
    rcases h3.2.2 with h | ⟨_, h⟩
    · rw [h]; exact hdt0
    · exact h
  have hdti : 0 ≤ dt i := by
    rcases h4.2.2 with h | ⟨_, h⟩
    · rw [h]; exact hd0
    · exact h
  rw [abs_of_nonneg (mul_nonneg hv0.le hdti)]
  have h6 : dt i ≤ dist / |s.v| := le_trans h4.1 h5
  rw [abs_of_pos hv0, le_div_iff₀ hv0] at h6
  linarith

example : (calculateTimeStep (1 / 1000000) true 1 (1 / 10) [(⟨1, 0, 2, 1, 2, 7, 1⟩ : Snax ℚ)]
      (fun _ => ⟨1, 0, 2, 1, 2, 7, 1⟩) (fun e => if e = 7 then [0] else [])).map
      (fun dt => dt 0) = .ok (1 / 20) := by decide +kernel

/-! ## C36 -/

/-- C36. Flipping leaves the position and the velocity in space of each snaxel unchanged (`vert` gives one coordinate of the
vertices), as well as its identity, edge and position measured from the lower-index vertex, toggles the flip state,
and flipping twice is the identity. -/
theorem C36_flip (vert : Int → K) (l : List (Snax K)) (f : Bool) :
    (∀ (i : Nat) (s s' : Snax K), l[i]? = some s → (flip l f).1[i]? = some s' →
      coordOf vert s' = coordOf vert s ∧
      (vert s'.tovert - vert s'.fromvert) * s'.v = (vert s.tovert - vert s.fromvert) * s.v ∧
      s'.v = -s.v ∧ s'.fromvert = s.tovert ∧ s'.tovert = s.fromvert ∧
      s'.index = s.index ∧ s'.edgeind = s.edgeind ∧ s'.orderedge = s.orderedge ∧
      (s.fromvert ≠ s.tovert → orderPos s' = orderPos s)) ∧
    (flip l f).1.length = l.length ∧ (flip l f).2 = !f ∧
    flip (flip l f).1 (flip l f).2 = (l, f) := by
  refine ⟨?_, by simp [flip], rfl, ?_⟩
  · intro i s s' hs hs'
    simp only [flip] at hs'
    rw [List.getElem?_map, hs] at hs'
    simp only [Option.map_some, Option.some.injEq] at hs'
    subst hs'
    refine ⟨?_, ?_, rfl, rfl, rfl, rfl, rfl, rfl, ?_⟩
    · unfold coordOf flipSnax; dsimp only; ring
    · unfold flipSnax; dsimp only; ring
    · intro hne
      unfold orderPos flipSnax
      dsimp only
      rcases lt_or_gt_of_ne hne with h | h
      · rw [if_pos h, if_neg (not_lt.2 h.le)]; ring
      · rw [if_neg (not_lt.2 (le_of_lt h)), if_pos h]
  · unfold flip
    simp only [List.map_map, Bool.not_not, Prod.mk.injEq, and_true]
    have : (flipSnax ∘ flipSnax : Snax K → Snax K) = id := by
      funext s
      simp [flipSnax]
    rw [this, List.map_id]

example : flip [(⟨1, 1 / 4, 2, 1, 2, 7, 3⟩ : Snax ℚ)] false = ([⟨1, 3 / 4, -2, 2, 1, 7, 3⟩], true) := by
  decide +kernel

/-! ## C37 -/

/-- What impact detection should report on an edge. -/
def ShouldReport (eps : K) (A : Int) (l : List (Snax K)) (i j : Int) : Prop :=
  (∃ a ∈ l, ∃ b ∈ l, a.index = i ∧ b.index = j ∧ (a.orderedge - b.orderedge = 1 ∨ b.orderedge - a.orderedge = 1) ∧
    ∃ t, |t| < eps ∧ IsContact eps A a b t) ∨
  (j = -1 ∧ ∃ a ∈ l, a.index = i ∧ |a.d| < eps ∧ a.v ≤ 0 ∧ OutermostFrom l.length a) ∨
  (j = -2 ∧ ∃ a ∈ l, a.index = i ∧ |a.d - 1| < eps ∧ a.v ≥ 0 ∧ OutermostTo l.length a)

/-- Full statement of C37. -/
def C37_statement (K : Type) [Field K] [LinearOrder K] : Prop :=
  ∀ (eps : K) (A B : Int) (l : List (Snax K)), 0 < eps → eps < 1 / 2 → A < B →
    (∀ s ∈ l, OnEdge A B s) → (l.map Snax.index).Nodup → (∀ s ∈ l, 0 < s.index) →
    (∀ s ∈ l, 1 ≤ s.orderedge ∧ s.orderedge ≤ l.length) → (l.map Snax.orderedge).Nodup →
    ∀ i j, (i, j) ∈ detectImpactOnEdge eps l ↔ ShouldReport eps A l i j

/-- C37 is false in the code: the order number is counted from the lower-index vertex of the edge, but the test compares it
as if it were counted from `fromvert`; a snaxel travelling towards the lower-index vertex which is outermost at
its `fromvert` is not reported. -/
theorem C37_backward_violated : ¬ C37_statement ℚ := by
  intro h
  have := (h (1 / 1000) 1 2 [⟨1, 0, -1, 2, 1, 7, 2⟩, ⟨2, 1 / 2, 1, 2, 1, 7, 1⟩] (by norm_num) (by norm_num)
    (by norm_num) (by intro s hs; simp at hs; rcases hs with rfl | rfl <;> simp [OnEdge])
    (by simp) (by simp) (by simp) (by simp) 1 (-1)).2
    (Or.inr (Or.inl ⟨rfl, ⟨1, 0, -1, 2, 1, 7, 2⟩, by simp, rfl, by norm_num, by norm_num, by simp [OutermostFrom]⟩))
  revert this
  decide +kernel

/-- C37 is false in the code also the other way: an arrival which is not outermost is reported. -/
theorem C37_backward_wrong_report_violated : ∃ l : List (Snax ℚ),
    (1, -1) ∈ detectImpactOnEdge (1 / 1000) l ∧ ¬ ShouldReport (1 / 1000) 1 l 1 (-1) ∧
    (∀ s ∈ l, OnEdge 1 2 s) := by
  refine ⟨[⟨1, 0, -1, 2, 1, 7, 1⟩, ⟨2, 0, -1, 2, 1, 7, 2⟩], by decide +kernel, ?_, ?_⟩
  · rintro (⟨a, ha, b, hb, h1, h2, _⟩ | ⟨_, a, ha, h1, _, _, h4⟩ | ⟨h, _⟩)
    · simp at hb; rcases hb with rfl | rfl <;> simp at h2
    · simp at ha
      rcases ha with rfl | rfl
      · simp [OutermostFrom] at h4
      · simp at h1
    · norm_num at h
  · intro s hs; simp at hs; rcases hs with rfl | rfl <;> simp [OnEdge]

/-- C37, the part that holds: when all snaxels of the edge travel away from the lower-index vertex, exactly the arrivals and
contacts are reported.  Contacts between neighbours are also exact in the other direction (next theorem).
Missing: arrivals of snaxels travelling towards the lower-index vertex. -/
theorem C37_forward_partial (eps : K) (A B : Int) (l : List (Snax K)) (h0 : 0 < eps) (h1 : eps < 1 / 2) (hAB : A < B)
    (hfwd : ∀ s ∈ l, s.fromvert = A ∧ s.tovert = B) (i j : Int) :
    (i, j) ∈ detectImpactOnEdge eps l ↔ ShouldReport eps A l i j := by
  have hon : ∀ s ∈ l, OnEdge A B s := fun s hs => ⟨hAB.ne, Or.inl (hfwd s hs)⟩
  have hcontact : ∀ a ∈ l, ∀ b ∈ l, approxEq eps (impactDt eps a b) 0 = true ↔
      ∃ t, |t| < eps ∧ IsContact eps A a b t :=
    fun a ha b hb => approx_contact eps A B h0 (by linarith) a b (hon a ha) (hon b hb)
  rw [detectImpactOnEdge, mem_detectImpactLoop]
  unfold ShouldReport
  constructor
  · rintro (⟨a, b, hab, ho, hc, h | h⟩ | ⟨a, ha, hend⟩)
    · cases h
      have hsub := pair_mem hab
      exact Or.inl ⟨a, hsub.1, b, hsub.2, rfl, rfl, by omega, (hcontact a hsub.1 b hsub.2).1 hc⟩
    · cases h
      have hsub := pair_mem hab
      refine Or.inl ⟨b, hsub.2, a, hsub.1, rfl, rfl, by omega, (hcontact b hsub.2 a hsub.1).1 ?_⟩
      rw [impactDt_symm]; exact hc
    · right
      obtain ⟨f1, f2⟩ := hfwd a ha
      unfold impactEnd at hend
      split_ifs at hend with c1 c2
      · simp only [List.mem_singleton, Prod.mk.injEq] at hend
        left
        refine ⟨hend.2, a, ha, hend.1.symm, ?_, c1.2.1, ?_⟩
        · have := c1.1; unfold approxEq at this; simpa using this
        · unfold OutermostFrom; rw [f1, f2, if_pos hAB]; exact c1.2.2
      · simp only [List.mem_singleton, Prod.mk.injEq] at hend
        right
        refine ⟨hend.2, a, ha, hend.1.symm, ?_, c2.2.1, ?_⟩
        · have := c2.1; unfold approxEq at this; simpa using this
        · unfold OutermostTo; rw [f1, f2, if_pos hAB]; exact c2.2.2
      · simp at hend
  · rintro (⟨a, ha, b, hb, rfl, rfl, ho, hc⟩ | ⟨rfl, a, ha, rfl, hd, hv, hout⟩ | ⟨rfl, a, ha, rfl, hd, hv, hout⟩)
    · have hne : a ≠ b := by
        rintro rfl; omega
      have hc' := (hcontact a ha b hb).2 hc
      left
      rcases pair_of_mem ha hb hne with h | h
      · exact ⟨a, b, h, by omega, hc', Or.inl rfl⟩
      · refine ⟨b, a, h, by omega, ?_, Or.inr rfl⟩
        rw [impactDt_symm]; exact hc'
    · right
      obtain ⟨f1, f2⟩ := hfwd a ha
      refine ⟨a, ha, ?_⟩
      unfold OutermostFrom at hout
      rw [f1, f2, if_pos hAB] at hout
      unfold impactEnd
      rw [if_pos ⟨by unfold approxEq; simpa using hd, hv, hout⟩]
      simp
    · right
      obtain ⟨f1, f2⟩ := hfwd a ha
      refine ⟨a, ha, ?_⟩
      unfold OutermostTo at hout
      rw [f1, f2, if_pos hAB] at hout
      unfold impactEnd
      rw [if_neg, if_pos ⟨by unfold approxEq; simpa using hd, hv, hout⟩]
      · simp
      · rintro ⟨hh, _⟩
        unfold approxEq at hh
        simp only [sub_zero, decide_eq_true_eq] at hh
        rw [abs_lt] at hh hd
        linarith [hd.1, hd.2, hh.1, hh.2]

/-- C37, contacts: in both directions of travel, exactly the neighbouring pairs in contact are reported, in both orders. -/
theorem C37_contacts_partial (eps : K) (A B : Int) (l : List (Snax K)) (h0 : 0 < eps) (h1 : eps < 1 / 2)
    (hon : ∀ s ∈ l, OnEdge A B s) (i j : Int) (hj : 0 < j) :
    (i, j) ∈ detectImpactOnEdge eps l ↔
      ∃ a ∈ l, ∃ b ∈ l, a.index = i ∧ b.index = j ∧ (a.orderedge - b.orderedge = 1 ∨ b.orderedge - a.orderedge = 1) ∧
        ∃ t, |t| < eps ∧ IsContact eps A a b t := by
  have hcontact : ∀ a ∈ l, ∀ b ∈ l, approxEq eps (impactDt eps a b) 0 = true ↔
      ∃ t, |t| < eps ∧ IsContact eps A a b t :=
    fun a ha b hb => approx_contact eps A B h0 (by linarith) a b (hon a ha) (hon b hb)
  rw [detectImpactOnEdge, mem_detectImpactLoop]
  constructor
  · rintro (⟨a, b, hab, ho, hc, h | h⟩ | ⟨a, ha, hend⟩)
    · cases h
      have hsub := pair_mem hab
      exact ⟨a, hsub.1, b, hsub.2, rfl, rfl, by omega, (hcontact a hsub.1 b hsub.2).1 hc⟩
    · cases h
      have hsub := pair_mem hab
      refine ⟨b, hsub.2, a, hsub.1, rfl, rfl, by omega, (hcontact b hsub.2 a hsub.1).1 ?_⟩
      rw [impactDt_symm]; exact hc
    · unfold impactEnd at hend
      split_ifs at hend
      · simp at hend; omega
      · simp at hend; omega
      · simp at hend
  · rintro ⟨a, ha, b, hb, rfl, rfl, ho, hc⟩
    have hne : a ≠ b := by
      rintro rfl; omega
    have hc' := (hcontact a ha b hb).2 hc
    left
    rcases pair_of_mem ha hb hne with h | h
    · exact ⟨a, b, h, by omega, hc', Or.inl rfl⟩
    · refine ⟨b, a, h, by omega, ?_, Or.inr rfl⟩
      rw [impactDt_symm]; exact hc'

example : detectImpactOnEdge (1 / 1000 : ℚ) [⟨1, 0, -1, 1, 2, 7, 1⟩, ⟨5, 1, 1, 1, 2, 7, 3⟩, ⟨3, 0, 1, 1, 2, 7, 2⟩] =
    [(1, 3), (3, 1), (1, -1), (5, -2)] := by decide +kernel

/-! ## C38 -/

/-- Full statement of C38: order numbers are ranks along the edge, counted from 1. -/
def C38_statement (K : Type) [Field K] [LinearOrder K] : Prop :=
  ∀ (l : List (Snax K)) (subs : Int → List Nat), (∀ e, AllPos Snax.edgeind l e (subs e)) →
    (∀ s ∈ l, s.fromvert ≠ s.tovert) → ∃ l', orderOnEdge subs l = .ok l' ∧
      ∀ (p : Nat) (s : Snax K), l[p]? = some s → ∃ s', l'[p]? = some s' ∧
        s' = { s with orderedge := s'.orderedge } ∧
        (1 ≤ s'.orderedge ∧ s'.orderedge ≤ (subs s.edgeind).length) ∧
        ∀ (q : Nat) (t t' : Snax K), l[q]? = some t → l'[q]? = some t' → q ≠ p → t.edgeind = s.edgeind →
          s'.orderedge ≠ t'.orderedge ∧ (lowPos s < lowPos t → s'.orderedge < t'.orderedge)

/-- Two edges with two snaxels each, at the same positions on both edges up to the last one. -/
def twoCrowded : List (Snax ℚ) :=
  [⟨1, 1 / 4, 0, 1, 2, 7, 0⟩, ⟨2, 1 / 2, 0, 1, 2, 7, 0⟩, ⟨3, 1 / 3, 0, 3, 4, 8, 0⟩, ⟨4, 2 / 3, 0, 3, 4, 8, 0⟩]

/-- C38 is false in the code (1): the table of positions is filled for the first crowded edge and used again
for the second one; the positions are not found and memory is read out of range. -/
theorem C38_two_crowded_edges_violated :
    orderOnEdge (fun e => if e = 7 then [0, 1] else if e = 8 then [2, 3] else []) twoCrowded = .error .ub ∧
    ¬ C38_statement ℚ := by
  have h : orderOnEdge (fun e => if e = 7 then [0, 1] else if e = 8 then [2, 3] else []) twoCrowded =
      .error .ub := by decide +kernel
  refine ⟨h, fun hs => ?_⟩
  have hsub : ∀ e, AllPos Snax.edgeind twoCrowded e
      ((fun e : Int => if e = 7 then [0, 1] else if e = 8 then [2, 3] else []) e) := by
    intro e
    dsimp only
    constructor
    · split_ifs <;> simp
    · intro p
      constructor
      · split_ifs with h1 h2
        · subst h1
          intro hp
          simp at hp
          rcases hp with rfl | rfl <;> simp [twoCrowded]
        · subst h2
          intro hp
          simp at hp
          rcases hp with rfl | rfl <;> simp [twoCrowded]
        · simp
      · rintro ⟨s, hs, he⟩
        have hp : p < 4 := (List.getElem?_eq_some_iff.1 hs).1
        have : p = 0 ∨ p = 1 ∨ p = 2 ∨ p = 3 := by omega
        rcases this with rfl | rfl | rfl | rfl <;>
        · simp [twoCrowded] at hs
          subst hs
          simp at he
          subst he
          simp
  obtain ⟨l', hl', _⟩ := hs twoCrowded _ hsub (by
    intro s hs
    simp [twoCrowded] at hs
    rcases hs with rfl | rfl | rfl | rfl <;> simp)
  rw [h] at hl'
  cases hl'

/-- C38 is false in the code (2): of two snaxels at the same place one keeps its old number. -/
theorem C38_coincident_violated :
    orderOnEdge (fun e => if e = 7 then [0, 1] else []) [(⟨1, 1 / 4, 0, 1, 2, 7, 9⟩ : Snax ℚ), ⟨2, 1 / 4, 0, 1, 2, 7, 9⟩] =
      .ok [⟨1, 1 / 4, 0, 1, 2, 7, 2⟩, ⟨2, 1 / 4, 0, 1, 2, 7, 9⟩] := by decide +kernel

/-- C38 is false in the code (3): a snaxel left alone on its edge keeps its old number. -/
theorem C38_single_violated :
    orderOnEdge (fun e => if e = 7 then [0] else []) [(⟨1, 1 / 4, 0, 1, 2, 7, 2⟩ : Snax ℚ)] =
      .ok [⟨1, 1 / 4, 0, 1, 2, 7, 2⟩] := by decide +kernel

/-- C38, the part that holds: when a single edge `e0` holds more than one snaxel and their positions are pairwise distinct, each gets
as number one plus the count of snaxels of the edge nearer to the lower-index vertex, and nothing else changes.
Missing: several crowded edges, coincident snaxels and stale numbers of lone snaxels (see above). -/
theorem C38_one_crowded_edge_partial (l : List (Snax K)) (subs : Int → List Nat) (e0 : Int)
    (hsubs : ∀ e, AllPos Snax.edgeind l e (subs e)) (hdir : ∀ s ∈ l, s.fromvert ≠ s.tovert)
    (hone : ∀ e, e ≠ e0 → (subs e).length ≤ 1) (hcrowd : 1 < (subs e0).length)
    (hdist : ∀ (p q : Nat) (s t : Snax K), l[p]? = some s → l[q]? = some t → s.edgeind = e0 → t.edgeind = e0 → p ≠ q →
      lowPos s ≠ lowPos t) :
    ∃ l', orderOnEdge subs l = .ok l' ∧ l'.length = l.length ∧
      (∀ (p : Nat) (s : Snax K), l[p]? = some s → s.edgeind ≠ e0 → l'[p]? = some s) ∧
      (∀ (p : Nat) (s : Snax K), l[p]? = some s → s.edgeind = e0 → l'[p]? = some { s with orderedge :=
        ((l.countP (fun t => decide (t.edgeind = e0 ∧ lowPos t < lowPos s)) : Nat) : Int) + 1 }) := by
  have hlow : ∀ s ∈ l, orderPos s = lowPos s := fun s hs => orderPos_eq_lowPos s (hdir s hs)
  obtain ⟨hn, hmem⟩ := hsubs e0
  let g : Nat → K := fun p => ((l[p]?).map orderPos).getD 0
  have hg : ∀ p s, l[p]? = some s → g p = orderPos s := by
    intro p s h; simp [g, h]
  have hinj : (subs e0).map g |>.Nodup := by
    refine List.Nodup.map_on ?_ hn
    intro p hp q hq hpq
    obtain ⟨s, hs, hse⟩ := (hmem p).1 hp
    obtain ⟨t, ht, hte⟩ := (hmem q).1 hq
    by_contra hne
    apply hdist p q s t hs ht hse hte hne
    rw [hg p s hs, hg q t ht, hlow s (List.mem_of_getElem? hs), hlow t (List.mem_of_getElem? ht)] at hpq
    exact hpq
  obtain ⟨l', t', e1, e2, e3, e4⟩ := orderOneEdge_spec (subs e0) l hn (fun p hp => by
    obtain ⟨s, hs, _⟩ := (hmem p).1 hp
    exact (List.getElem?_eq_some_iff.1 hs).1) g hg hinj hcrowd
  refine ⟨l', ?_, e2, ?_, ?_⟩
  · unfold orderOnEdge
    refine orderOnEdges_one subs e0 l l' t' e1 _ (List.nodup_dedup _) ?_ (fun e _ hne => hone e hne)
    rw [List.mem_dedup, (List.perm_insertionSort _ _).mem_iff]
    cases hs : subs e0 with
    | nil => rw [hs] at hcrowd; simp at hcrowd
    | cons p r =>
      obtain ⟨s, h1, h2⟩ := (hmem p).1 (by rw [hs]; simp)
      exact List.mem_map.2 ⟨s, List.mem_of_getElem? h1, h2⟩
  · intro p s hs hne
    rw [e3 p, hs]
    intro hp
    obtain ⟨s', hs', he⟩ := (hmem p).1 hp
    rw [hs] at hs'
    cases hs'
    exact hne he
  · intro p s hs he
    have hp : p ∈ subs e0 := (hmem p).2 ⟨s, hs, he⟩
    rw [e4 p hp, hs]
    simp only [Option.map_some, Option.some.injEq, Snax.mk.injEq, true_and]
    congr 2
    rw [hg p s hs, hlow s (List.mem_of_getElem? hs)]
    refine countP_positions l (subs e0) hn (fun t => decide (t.edgeind = e0)) (fun q => by
      rw [hmem q]; simp) (fun q => decide (g q < lowPos s)) (fun t => decide (t.edgeind = e0 ∧ lowPos t < lowPos s)) ?_
      (by simp only [decide_eq_true_eq]; exact fun t h => h.1)
    intro q t ht hte
    simp only [decide_eq_true_eq] at hte
    rw [hg q t ht, hlow t (List.mem_of_getElem? ht)]
    simp [hte]

example : orderOnEdge (fun e => if e = 7 then [2, 0] else if e = 8 then [1] else [])
    [(⟨1, 1 / 4, 0, 1, 2, 7, 0⟩ : Snax ℚ), ⟨2, 1 / 4, 0, 1, 3, 8, 1⟩, ⟨3, 7 / 8, 0, 2, 1, 7, 0⟩] =
    .ok [⟨1, 1 / 4, 0, 1, 2, 7, 2⟩, ⟨2, 1 / 4, 0, 1, 3, 8, 1⟩, ⟨3, 7 / 8, 0, 2, 1, 7, 1⟩] := by decide +kernel

/-! ## C39 -/

/-- Position `q` (measured from `A`) passes no sibling. -/
def Respects (A : Int) (this : Snax K) (siblings : List (Snax K)) (q : K) : Prop :=
  ∀ s ∈ siblings, s.index ≠ this.index →
    (this.orderedge < s.orderedge → q ≤ posFrom A s) ∧ (s.orderedge ≤ this.orderedge → posFrom A s ≤ q)

/-- C39. With siblings in the order of their numbers, `ValidateDistance` moves the snaxel to the nearest position which passes no
sibling, on the side of that position; it throws exactly when the snaxel is off its edge or has no entry. -/
theorem C39_validate_distance (A B : Int) (hAB : A < B) (this : Snax K) (hthis : OnEdge A B this)
    (siblings : List (Snax K)) (hsib : ∀ s ∈ siblings, OnEdge A B s) (hmem : this ∈ siblings)
    (h0 : 0 ≤ this.d) (h1 : this.d ≤ 1)
    (hcons : ∀ s ∈ siblings, ∀ t ∈ siblings, s.index ≠ this.index → t.index ≠ this.index →
      s.orderedge ≤ this.orderedge → this.orderedge < t.orderedge → posFrom A s ≤ posFrom A t) :
    ∃ d, validateDistance this siblings = .ok d ∧
      Respects A this siblings (posFrom A { this with d := d }) ∧
      (∀ q, Respects A this siblings q →
        |posFrom A { this with d := d } - posFrom A this| ≤ |q - posFrom A this|) ∧
      (Respects A this siblings (posFrom A this) → d = this.d) := by
  have hnear : ∀ x y q : K, ((x ≤ y ∧ y ≤ q) ∨ (q ≤ y ∧ y ≤ x)) → |y - x| ≤ |q - x| := by
    rintro x y q (⟨a, b⟩ | ⟨a, b⟩)
    · rw [abs_of_nonneg (by linarith), abs_of_nonneg (by linarith)]; linarith
    · rw [abs_of_nonpos (by linarith), abs_of_nonpos (by linarith)]; linarith
  have hinj : ∀ d, posFrom A { this with d := d } = posFrom A this → d = this.d := by
    intro d
    unfold posFrom
    dsimp only
    split_ifs
    · exact id
    · intro h; linarith
  have key := validate_fold hAB this hthis (posFrom A this) siblings hsib hcons siblings [] this.d
    (fun s h => h) (by simp) (by simp) (by
      intro q _
      rcases le_total (posFrom A this) q with h | h
      · left; exact ⟨le_rfl, h⟩
      · right; exact ⟨h, le_rfl⟩)
  simp only [List.nil_append] at key
  obtain ⟨k1, k2⟩ := key
  have hun : Respects A this siblings (posFrom A this) →
      siblings.foldl (validateOne this) this.d = this.d := by
    intro hr
    apply hinj
    rcases k2 _ hr with ⟨a, b⟩ | ⟨a, b⟩ <;> exact le_antisymm b a
  unfold validateDistance
  rw [if_neg (by push Not; exact ⟨h0, h1⟩)]
  by_cases hlen : siblings.length = 1
  · rw [if_pos hlen]
    obtain ⟨z, hz⟩ := List.length_eq_one_iff.1 hlen
    have hr : Respects A this siblings (posFrom A this) := by
      intro s hs hne
      rw [hz] at hs hmem
      simp at hs hmem
      exact absurd (by rw [hs, ← hmem]) hne
    refine ⟨this.d, rfl, hr, ?_, fun _ => rfl⟩
    intro q _
    show |posFrom A this - posFrom A this| ≤ _
    rw [sub_self, abs_zero]; exact abs_nonneg _
  · rw [if_neg hlen]
    have : siblings.length > 1 := by
      have := List.length_pos_of_mem hmem
      omega
    rw [if_pos this]
    exact ⟨_, rfl, k1, fun q hq => hnear _ _ _ (k2 q hq), hun⟩

/-- C39. A position outside the edge is refused. -/
theorem C39_off_edge (this : Snax K) (siblings : List (Snax K)) (h : this.d < 0 ∨ 1 < this.d) :
    validateDistance this siblings = .error .throws := by
  unfold validateDistance
  rw [if_pos h]

example : validateDistance (⟨2, 3 / 4, 0, 2, 1, 7, 2⟩ : Snax ℚ)
    [⟨3, 5 / 8, 0, 1, 2, 7, 3⟩, ⟨2, 3 / 4, 0, 2, 1, 7, 2⟩, ⟨1, 1 / 2, 0, 1, 2, 7, 1⟩] = .ok (1 / 2) := by decide +kernel

/-! ## C55 -/

/-- Full statement of C55: the limits around spawn distance `r ^ 2` are `r ^ 3` and `r`; the result is between them (mirrored for a
snaxel in the second half of its edge) and a position already between them is unchanged. -/
def C55_statement (K : Type) [Field K] [LinearOrder K] : Prop :=
  ∀ (x oldD r : K), 0 < r → r < 1 →
    (oldD < 1 / 2 → (r ^ 3 ≤ validateEquilibrateD (some x) oldD r ∧ validateEquilibrateD (some x) oldD r ≤ r) ∧
      (r ^ 3 ≤ x → x ≤ r → validateEquilibrateD (some x) oldD r = x)) ∧
    (1 / 2 ≤ oldD → (1 - r ≤ validateEquilibrateD (some x) oldD r ∧ validateEquilibrateD (some x) oldD r ≤ 1 - r ^ 3) ∧
      (1 - r ≤ x → x ≤ 1 - r ^ 3 → validateEquilibrateD (some x) oldD r = x))

/-- C55 is false in the code: the lower limit is the larger one, so a position between the limits is moved. -/
theorem C55_limits_inverted_violated : ¬ C55_statement ℚ ∧
    validateEquilibrateD (some (1 / 4 : ℚ)) 0 (1 / 2) = 1 / 2 := by
  have h1 : validateEquilibrateD (some (1 / 4 : ℚ)) 0 (1 / 2) = 1 / 2 := by decide +kernel
  refine ⟨fun h => ?_, h1⟩
  have := ((h (1 / 4) 0 (1 / 2) (by norm_num) (by norm_num)).1 (by norm_num)).2 (by norm_num) (by norm_num)
  rw [h1] at this
  norm_num at this

/-- C55, the part that holds: the limits bracket the spawn distance, and the result is always one of the two limits, hence
between them.  Missing: positions between the limits are not kept. -/
theorem C55_within_partial (x oldD r : K) (h0 : 0 < r) (h1 : r < 1) :
    (r ^ 3 < r ^ 2 ∧ r ^ 2 < r) ∧
    (oldD < 1 / 2 → validateEquilibrateD (some x) oldD r = (if x < r then r else r ^ 3)) ∧
    (1 / 2 ≤ oldD → validateEquilibrateD (some x) oldD r = (if x < 1 - r ^ 3 then 1 - r ^ 3 else 1 - r)) := by
  have hr2 : r ^ 2 < r := by nlinarith
  have hr3 : r ^ 3 < r ^ 2 := by nlinarith [sq_nonneg r, pow_pos h0 2]
  refine ⟨⟨hr3, hr2⟩, ?_, ?_⟩
  · intro h
    unfold validateEquilibrateD
    simp only [h, if_true]
    split_ifs <;> first | rfl | (exfalso; linarith)
  · intro h
    unfold validateEquilibrateD
    simp only [not_lt.2 h, if_false]
    split_ifs <;> first | rfl | (exfalso; linarith)

example : validateEquilibrateD (some (7 / 8 : ℚ)) (3 / 4) (1 / 2) = 1 / 2 ∧
    validateEquilibrateD (none : Option ℚ) (3 / 4) (1 / 2) = 3 / 4 := by decide +kernel

end RSVS.Props
