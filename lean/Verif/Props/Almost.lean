import Verif.Lemmas.Almost
import Mathlib.Tactic.NormNum

/-!
# C137: of the snaxels about to reach a vertex, the nearest is put on it
-/

namespace RSVS.Props

open RSVS RSVS.Spec RSVS.Mesh RSVS.Almost

variable {K : Type} [Field K] [LinearOrder K] [IsStrictOrderedRing K]

/-- **C137**, for ranges up to half an edge.  Missing: larger ranges (`C137_range_violated`) and the order of the snaxels along an edge
(`C137_order_violated`). -/
theorem C137_almost_partial (eps lim : K) (hl : lim ≤ 1 / 2) (vs : List Int) (hn : vs.Nodup) (l : List (Snax K)) (imp : Impacts)
    (hv : ∀ s ∈ l, s.fromvert ∈ vs ∧ s.tovert ∈ vs) :
    ∃ l' new pick, almostImpact eps lim vs l imp = .ok (l', imp ++ new) ∧ l'.length = l.length ∧ NearestPut eps lim vs l l' new pick := by
  obtain ⟨cells, h1, h2, h3⟩ := scan_ok (eps := eps) hl hn l hv
  obtain ⟨g, hg⟩ : ∃ g : Int → Nearest K, g = fun v => cells.getD (posOf id vs v).toNat ⟨0, 0, 0⟩ := ⟨_, rfl⟩
  have hcells : cells = vs.map g := by
    apply List.ext_getElem (by rw [List.length_map, h2])
    intro p q1 q2
    have hp : p < vs.length := by rwa [h2] at q1
    have := posOf_getElem (ix := id) (l := vs) (by simpa using hn) p hp
    have hgp : g vs[p] = cells.getD (posOf id vs (id vs[p])).toNat ⟨0, 0, 0⟩ := by rw [hg]; rfl
    rw [List.getElem_map, hgp, this, Int.toNat_natCast, List.getD_eq_getElem?_getD, List.getElem?_eq_getElem q1]
    rfl
  have hsc : ∀ v ∈ vs, Scanned eps lim l v (g v) := by
    intro v hv
    obtain ⟨p, hp, rfl⟩ := List.mem_iff_getElem.1 hv
    exact h3 p _ _ (List.getElem?_eq_getElem hp) (by rw [hcells, List.getElem?_map, List.getElem?_eq_getElem hp]; rfl)
  obtain ⟨pick, hpick⟩ : ∃ pick : Int → Option Nat, pick = fun v => if v ∈ vs then picked (g v) else none := ⟨_, rfl⟩
  have hpv : ∀ v ∈ vs, pick v = picked (g v) := fun v hv => by rw [hpick]; exact if_pos hv
  have hps : ∀ v i, pick v = some i → v ∈ vs ∧ 2 ≤ (g v).cnt ∧ i = (g v).ind := by
    intro v i h
    have hv : v ∈ vs := by
      by_contra hh
      rw [hpick] at h
      simp [hh] at h
    rw [hpv v hv] at h
    unfold picked at h
    split at h
    · next hc => cases h; exact ⟨hv, hc, rfl⟩
    · cases h
  have hfm : cells.filterMap picked = vs.filterMap pick := by
    rw [hcells, List.filterMap_map]
    exact List.filterMap_congr fun v hv => (hpv v hv).symm
  have hind : ∀ v i, pick v = some i → ∃ s, l[i]? = some s ∧ closing eps lim s = some (v, (g v).d) := by
    intro v i h
    obtain ⟨k1, k2, rfl⟩ := hps v i h
    exact (hsc v k1).ind (by omega)
  have hnd : (cells.filterMap picked).Nodup := by
    rw [hfm]
    refine List.Nodup.filterMap ?_ hn
    intro a b i ha hb
    obtain ⟨s, e1, e2⟩ := hind a i ha
    obtain ⟨t, e3, e4⟩ := hind b i hb
    rw [e1] at e3
    cases e3
    rw [e2] at e4
    exact (Prod.mk.injEq _ _ _ _ ▸ Option.some.inj e4 : _ ∧ _).1
  obtain ⟨l', k1, k2⟩ := collapse_ok lim cells l imp hnd (by
    rw [hfm]
    intro i hi
    obtain ⟨v, -, hvi⟩ := List.mem_filterMap.1 hi
    obtain ⟨s, hs, -⟩ := hind v i hvi
    exact (List.getElem?_eq_some_iff.1 hs).1)
  refine ⟨l', cells.filterMap (report lim l), pick, ?_, ?_, ⟨?_, ?_, ?_, ?_, ?_⟩⟩
  · unfold almostImpact
    rw [h1]
    exact k1
  · have e1 := k2 l.length
    have e2 := k2 l'.length
    rw [List.getElem?_eq_none (l := l) le_rfl, Option.map_none, List.getElem?_eq_none_iff] at e1
    rw [List.getElem?_eq_none (l := l') le_rfl, eq_comm, Option.map_eq_none_iff, List.getElem?_eq_none_iff] at e2
    omega
  · intro v hv
    rw [hpv v hv]
    have : (picked (g v)).isSome ↔ 2 ≤ (g v).cnt := by
      unfold picked
      split
      · next h => exact ⟨fun _ => h, fun _ => rfl⟩
      · next h => exact ⟨fun hh => absurd hh (by simp), fun hh => absurd hh h⟩
    rw [this, (hsc v hv).cnt, two_filter]
    constructor
    · rintro ⟨i, j, s, t, q1, q2, q3, q4, q5⟩
      obtain ⟨r, q4⟩ := onto_iff.1 q4
      obtain ⟨q, q5⟩ := onto_iff.1 q5
      exact ⟨i, j, s, t, r, q, q1, q2, q3, (closing_iff hl _ _ _).1 q4, (closing_iff hl _ _ _).1 q5⟩
    · rintro ⟨i, j, s, t, r, q, q1, q2, q3, q4, q5⟩
      exact ⟨i, j, s, t, q1, q2, q3, onto_iff.2 ⟨r, (closing_iff hl _ _ _).2 q4⟩, onto_iff.2 ⟨q, (closing_iff hl _ _ _).2 q5⟩⟩
  · intro v hv i hi
    obtain ⟨s, e1, e2⟩ := hind v i hi
    exact ⟨s, _, e1, (closing_iff hl _ _ _).1 e2, fun t ht q hq => (hsc v hv).least t ht q ((closing_iff hl _ _ _).2 hq)⟩
  · intro v hv i hi
    obtain ⟨s, e1, e2⟩ := hind v i hi
    obtain ⟨-, e3, e4⟩ := hps v i hi
    have hmem : i ∈ cells.filterMap picked := by rw [hfm]; exact List.mem_filterMap.2 ⟨v, hv, hi⟩
    have e5 : l'[i]? = some (ended lim s) := by
      rw [k2, e1, Option.map_some, if_pos hmem]
    have e6 : (s.index, if s.d < lim then (-1 : Int) else -2) ∈ cells.filterMap (report lim l) := by
      refine List.mem_filterMap.2 ⟨g v, by rw [hcells]; exact List.mem_map.2 ⟨v, hv, rfl⟩, ?_⟩
      unfold report
      rw [if_pos e3, ← e4, e1]
      rfl
    refine ⟨s, _, _, e1, e5, ?_, e6⟩
    obtain ⟨q1, ⟨q2, q3, -⟩ | ⟨q2, q3, -⟩⟩ := (closing_iff hl _ _ _).1 e2
    · have : s.d < lim := q3 ▸ q1
      left
      unfold ended
      rw [if_pos this, if_pos this]
      exact ⟨q2, rfl, rfl⟩
    · have : ¬ s.d < lim := by rw [q3] at q1; intro hh; linarith
      right
      unfold ended
      rw [if_neg this, if_neg this]
      exact ⟨q2, rfl, rfl⟩
  · intro i hi
    have : i ∉ cells.filterMap picked := by
      rw [hfm]
      intro hh
      obtain ⟨v, hv, hvi⟩ := List.mem_filterMap.1 hh
      exact hi v hv hvi
    rw [k2]
    simp only [if_neg this, Option.map_id']
  · rw [← hfm, List.map_filterMap, List.filterMap_filterMap]
    apply List.filterMap_congr
    intro c _
    unfold report picked
    split
    · rw [Option.map_map]
      rfl
    · rfl

/-- Two snaxels on edges from vertex 1, coming nearer to it, and one at the other end of the first edge which moves to vertex 2. -/
def closingSnaxs : List (Snax ℚ) :=
  [⟨11, 1/10, -1, 1, 2, 1, 1⟩, ⟨12, 1/20, -1, 1, 3, 2, 1⟩, ⟨13, 19/20, 1, 1, 2, 1, 2⟩]

example : almostImpact (1/1000000) (1/5) [1, 2, 3] closingSnaxs [] =
    .ok ([⟨11, 1/10, -1, 1, 2, 1, 1⟩, ⟨12, 0, -1, 1, 3, 2, 1⟩, ⟨13, 19/20, 1, 1, 2, 1, 2⟩], [(12, -1)]) := by decide +kernel

example : ∃ l' new pick, almostImpact (1/1000000) (1/5) [1, 2, 3] closingSnaxs [] = .ok (l', [] ++ new) ∧ l'.length = 3 ∧
    NearestPut (1/1000000) (1/5) [1, 2, 3] closingSnaxs l' new pick ∧ (pick 1).isSome := by
  obtain ⟨l', new, pick, h1, h2, h3⟩ := C137_almost_partial (1/1000000) (1/5) (by norm_num) [1, 2, 3] (by decide) closingSnaxs [] (by decide +kernel)
  refine ⟨l', new, pick, h1, h2, h3, (h3.two 1 (by simp)).2 ⟨0, 1, _, _, 1/10, 1/20, by decide, rfl, rfl, ⟨by norm_num, .inl ⟨rfl, rfl, by norm_num, ?_⟩⟩,
    ⟨by norm_num, .inl ⟨rfl, rfl, by norm_num, ?_⟩⟩⟩⟩ <;> rw [abs_of_pos] <;> norm_num

/-- **C137, violated** for ranges over half an edge: two snaxels come nearer to vertex 2, and the nearest is put on vertex 1, at the other end of its edge. -/
theorem C137_range_violated : ∃ (lim : ℚ) (l l' : List (Snax ℚ)), lim < 1 ∧ (∀ s ∈ l, 0 < s.d ∧ s.d < 1 ∧ 0 < s.v ∧ s.tovert = 2 ∧ s.fromvert ≠ 2) ∧
    almostImpact (1/1000000) lim [1, 2, 3] l [] = .ok (l', [(11, -1)]) ∧ ∃ s ∈ l', s.index = 11 ∧ s.d = 0 ∧ s.fromvert = 1 := by
  refine ⟨3/5, [⟨11, 11/20, 1, 1, 2, 1, 1⟩, ⟨12, 1/2, 1, 3, 2, 2, 1⟩], [⟨11, 0, 1, 1, 2, 1, 1⟩, ⟨12, 1/2, 1, 3, 2, 2, 1⟩], by norm_num, by decide +kernel,
    by decide +kernel, by decide +kernel⟩

/-- **C137, violated**: a snaxel is put on the vertex although another one is between them on the same edge, and their order on the edge is no longer that of their
distances. -/
theorem C137_order_violated : ∃ (l l' : List (Snax ℚ)), (∀ a ∈ l, ∀ b ∈ l, a.edgeind = b.edgeind → a.orderedge < b.orderedge → a.d < b.d) ∧
    almostImpact (1/1000000) (1/5) [1, 2, 3] l [] = .ok (l', [(11, -1)]) ∧
    ∃ a ∈ l', ∃ b ∈ l', a.edgeind = b.edgeind ∧ a.orderedge < b.orderedge ∧ b.d < a.d := by
  refine ⟨[⟨10, 1/20, 1, 1, 2, 1, 1⟩, ⟨11, 1/10, -1, 1, 2, 1, 2⟩, ⟨12, 3/20, -1, 1, 3, 2, 1⟩],
    [⟨10, 1/20, 1, 1, 2, 1, 1⟩, ⟨11, 0, -1, 1, 2, 1, 2⟩, ⟨12, 3/20, -1, 1, 3, 2, 1⟩], by decide +kernel, by decide +kernel, by decide +kernel⟩

end RSVS.Props
