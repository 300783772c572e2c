import Mathlib.Tactic.FieldSimp
import Mathlib.Tactic.Linarith
import Verif.Lemmas.EdgeMetric
import Verif.Lemmas.Mesh
import Verif.Lemmas.Spawn
import Verif.Model.SpawnStep
import Verif.Spec.SpawnStep

/-!
# Lemmas about the first step of spawned snaxels
-/

namespace RSVS.SpawnStep

open RSVS.Mesh RSVS.Lengths RSVS.Spec

variable {K : Type} [Field K] [LinearOrder K] [IsStrictOrderedRing K] {m : Mesh} {len : Int → K}

omit [IsStrictOrderedRing K] in
theorem near_end (a : Snax K) : NearEnd a (nearVert a) := by
  unfold NearEnd nearVert
  split_ifs with h
  · exact .inr ⟨h, rfl⟩
  · exact .inl ⟨not_lt.mp h, rfl⟩

omit [IsStrictOrderedRing K] in
theorem near_unique {a : Snax K} {v : Int} (h : NearEnd a v) : v = nearVert a := by
  unfold NearEnd at h
  unfold nearVert
  rcases h with ⟨h, rfl⟩ | ⟨h, rfl⟩
  · rw [if_neg (not_lt.mpr h)]
  · rw [if_pos h]

omit [Field K] [IsStrictOrderedRing K] in
theorem fold_min (l : List Int) (hl : ∀ e ∈ l, HasEdge m e) : ∀ a : WithTop K,
    l.foldlM (m := Except Fault) (fun a e => (isearch Edge.index m.edges e).map fun _ => minStep a (len e)) a =
      .ok ((l.map len).foldl minStep a) := by
  induction l with
  | nil => intro a; rfl
  | cons e l ih =>
    intro a
    obtain ⟨x, h1, -, -⟩ := Spawn.isearch_ok (ix := Edge.index) (hl e (by simp))
    rw [List.foldlM_cons, h1]
    exact ih (fun e he => hl e (by simp [he])) _

omit [Field K] [IsStrictOrderedRing K] in
theorem shortest_ok (hm : Sound m) {v e : Int} (h : VertEdge m v e) :
    ∃ s, shortest m len v = .ok (some s) ∧ ShortestAt m len v s := by
  obtain ⟨y, hy, hv, he⟩ := h
  obtain ⟨x, h1, h2, h3⟩ := Spawn.isearch_ok (ix := Vert.index) (l := m.verts) (k := v) ⟨y, hy, hv⟩
  obtain rfl := inj_of_nodup hm.unique.verts hy h2 (hv.trans h3.symm)
  have hedge : ∀ e, VertEdge m v e ↔ e ∈ y.edgeind := by
    intro e
    constructor
    · rintro ⟨z, hz, k1, k2⟩
      rwa [← inj_of_nodup hm.unique.verts hz hy (k1.trans hv.symm)]
    · intro h; exact ⟨y, hy, hv, h⟩
  have h5 : shortest m len v = .ok ((y.edgeind.map len).foldl minStep ⊤) := by
    unfold shortest
    rw [h1]
    exact fold_min _ (fun e he => hm.noDangling.vertEdge v e ((hedge e).mpr he) fun h0 =>
      hm.zeroOutside.vertEdge v (h0 ▸ (hedge e).mpr he)) _
  obtain ⟨-, k2, k3⟩ := minFold (y.edgeind.map len) ⊤
  rcases k3 with k3 | ⟨x, hx, k3⟩
  · have := k2 (len e) (List.mem_map.mpr ⟨e, he, rfl⟩)
    rw [k3] at this
    exact absurd this (by simp)
  · refine ⟨x, by rw [h5, k3]; rfl, ?_, fun e he => ?_⟩
    · obtain ⟨e, he, rfl⟩ := List.mem_map.mp hx
      exact ⟨e, (hedge e).mpr he, rfl⟩
    · have := k2 (len e) (List.mem_map.mpr ⟨e, (hedge e).mp he, rfl⟩)
      rw [k3] at this
      exact_mod_cast this

/-- The distance before siblings are looked at. -/
theorem step_ok (hm : Sound m) {eps step : K} (heps : 0 < eps) (h1 : eps ≤ step) (h2 : step < 1 / 2) {a : Snax K}
    (ha : MayStep m len a) (sibs : List (Snax K)) :
    ∃ s d, ShortestAt m len (nearVert a) s ∧ takeSpawnStep eps m len step sibs a = checkedStep sibs a d ∧
      WentAway len a { a with d := d } (step * s) := by
  have hv := near_end a
  have he := ha.edge _ hv
  obtain ⟨s, k1, k2⟩ := shortest_ok (len := len) hm he
  have hpos : ∀ e, VertEdge m (nearVert a) e → 0 < len e := ha.pos _ hv
  have hle : s ≤ len a.edgeind := k2.2 _ he
  have hs : 0 < s := by obtain ⟨⟨e, h, rfl⟩, -⟩ := k2; exact hpos e h
  have hl : 0 < len a.edgeind := hpos _ he
  obtain ⟨x, k3, -, -⟩ := Spawn.isearch_ok (ix := Edge.index) (l := m.edges) (k := a.edgeind)
    (hm.noDangling.vertEdge _ _ he fun h0 => hm.zeroOutside.vertEdge _ (h0 ▸ he))
  refine ⟨s, a.d + signedStep a step * s / len a.edgeind, k2, ?_, rfl, ?_⟩
  · unfold takeSpawnStep
    rw [if_neg, if_neg, k1, k3]
    · simp only [Except.bind]
      rw [if_neg hl.ne']
    · rintro (h | h) <;> linarith
    · simp only [approxEq, decide_eq_true_eq, sub_zero, not_lt]
      rw [abs_of_nonneg (heps.le.trans h1)]
      exact h1
  · have hstep : 0 < step := lt_of_lt_of_le heps h1
    have h0 : 0 ≤ step * s / len a.edgeind := by positivity
    have h3 : step * s / len a.edgeind ≤ 1 / 2 := by
      rw [div_le_iff₀ hl]
      nlinarith
    have hlow := ha.low
    have hhigh := ha.high
    unfold signedStep
    split_ifs with hd
    · simp only
      have : -step * s / len a.edgeind = -(step * s / len a.edgeind) := by ring
      rw [this]
      refine ⟨by linarith, by linarith, fun h => absurd hd (not_lt.mpr h), fun _ => ?_⟩
      field_simp
      ring
    · simp only
      rw [gt_iff_lt, not_lt] at hd
      refine ⟨by linarith, by linarith, fun _ => ?_, fun h => absurd hd (not_le.mpr h)⟩
      field_simp

omit [IsStrictOrderedRing K] in
theorem siblings_of {a : Snax K} (P : K → Prop) : ∀ (l : List (Snax K)) (d : K), P d → (∀ t ∈ l, P t.d) → P (l.foldl (siblingStep a) d)
  | [], _, h, _ => h
  | t :: l, d, h, hl => by
    rw [List.foldl_cons]
    refine siblings_of P l _ ?_ (fun t ht => hl t (by simp [ht]))
    unfold siblingStep
    split_ifs
    exacts [hl t (by simp), h, h, h]

omit [IsStrictOrderedRing K] in
theorem siblings_side {a : Snax K} : ∀ (l : List (Snax K)) (d : K), (l.foldl (siblingStep a) d < 1 / 2 ↔ d < 1 / 2)
  | [], _ => Iff.rfl
  | t :: l, d => by
    rw [List.foldl_cons, siblings_side l]
    unfold siblingStep
    split_ifs with h1 h2 h3
    · by_cases k1 : t.d < 1 / 2 <;> by_cases k2 : d < 1 / 2 <;> simp_all
    all_goals exact Iff.rfl

end RSVS.SpawnStep
