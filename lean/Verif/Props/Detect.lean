import Verif.Lemmas.Detect
import Verif.Props.SnakeMotion
import Verif.Props.Almost

/-!
# C138: what the detection of impacts reports on a whole snake
-/

namespace RSVS.Detect

open RSVS RSVS.Spec RSVS.Props

variable {K : Type} [Field K] [LinearOrder K] [IsStrictOrderedRing K]

theorem near_iff {eps x y : K} : approxEq eps x y = true ↔ |x - y| < eps := by
  unfold approxEq; simp

theorem alone_from {eps : K} (a : Snax K) : (a.index, -1) ∈ impactAlone eps a ↔ |a.d| < eps ∧ a.v ≤ 0 := by
  unfold impactAlone
  simp only [near_iff, sub_zero]
  split_ifs with c1 c2
  · simp [c1]
  · simp [c1]
  · simp [c1]

theorem alone_to {eps : K} (h1 : eps < 1 / 2) (a : Snax K) : (a.index, -2) ∈ impactAlone eps a ↔ |a.d - 1| < eps ∧ 0 ≤ a.v := by
  unfold impactAlone
  simp only [near_iff, sub_zero]
  split_ifs with c1 c2
  · have : ¬ |a.d - 1| < eps := by
      intro h
      have := abs_lt.1 c1.1
      have := abs_lt.1 h
      linarith
    simp [this]
  · simpa using c2
  · simpa using c2

/-- Full statement of C138: `Detected` with no condition on the direction of the snaxels on edges with several.  It fails as
C37 does (`C37_backward_violated`).  The part that holds: the detection comes to an end; the pairs of snaxels it
reports are, on all edges, the neighbours which touch; the arrivals it reports are exact for snaxels alone on their edges, in either direction, and on edges
whose snaxels all travel from the vertex with the lower index.
Missing: arrivals on edges with several snaxels, some of which travel to the vertex with the lower index. -/
theorem C138_detection_partial {eps : K} {l : List (Snax K)} {subs : Int → List Nat} {low high : Int → Int} (h0 : 0 < eps) (h1 : eps < 1 / 2)
    (hl : (l.map Snax.index).Nodup) (hpos : ∀ s ∈ l, 0 < s.index) (hs : ListsEdges l subs)
    (hon : ∀ s ∈ l, low s.edgeind < high s.edgeind ∧ OnEdge (low s.edgeind) (high s.edgeind) s) :
    ∃ L, snaxImpactDetection eps l subs = .ok L ∧ Detected eps low (fun e => (subs e).length) l L := by
  obtain ⟨L, hL, hmem⟩ := detection_mem (eps := eps) hs
  have huniq : ∀ a ∈ l, ∀ b ∈ l, a.index = b.index → a = b := fun a ha b hb h => List.inj_on_of_nodup_map hl ha hb h
  -- a report of a snaxel comes from its own edge
  have hown : ∀ a ∈ l, ∀ j, (a.index, j) ∈ L ↔ (a.index, j) ∈ block eps l subs a := by
    intro a ha j
    rw [hmem]
    refine ⟨?_, fun h => ⟨a, ha, h⟩⟩
    rintro ⟨c, hc, h⟩
    by_cases hone : (subs c.edgeind).length = 1
    · have h' := h
      unfold block at h'
      rw [if_pos hone] at h'
      rw [huniq a ha c hc (mem_alone h').1] at h ⊢
      exact h
    · have h' := h
      unfold block at h'
      rw [if_neg hone] at h'
      obtain ⟨⟨b, hb, hbi⟩, -⟩ := mem_detect h'
      obtain ⟨hbl, hbe⟩ := (mem_onEdge hs).1 hb
      have hba := huniq b hbl a ha hbi
      subst hba
      unfold block
      rw [hbe, if_neg hone]
      exact h'
  refine ⟨L, hL, ?_, ?_, ?_, ?_⟩
  · intro i j hj
    rw [hmem]
    constructor
    · rintro ⟨c, hc, h⟩
      unfold block at h
      split_ifs at h with hone
      · have := (mem_alone h).2
        simp only at this
        omega
      · rw [C37_contacts_partial eps (low c.edgeind) (high c.edgeind) _ h0 h1 (fun s hse => by
          obtain ⟨p, q⟩ := (mem_onEdge hs).1 hse
          rw [← q]
          exact (hon s p).2) i j hj] at h
        obtain ⟨a, ha, b, hb, r⟩ := h
        obtain ⟨ha, hae⟩ := (mem_onEdge hs).1 ha
        obtain ⟨hb, hbe⟩ := (mem_onEdge hs).1 hb
        exact ⟨a, ha, b, hb, by rw [hae, hbe], by rw [hae]; exact r⟩
    · rintro ⟨a, ha, b, hb, he, r⟩
      refine ⟨a, ha, ?_⟩
      unfold block
      rw [if_neg, C37_contacts_partial eps (low a.edgeind) (high a.edgeind) _ h0 h1 (fun s hse => by
          obtain ⟨p, q⟩ := (mem_onEdge hs).1 hse
          rw [← q]
          exact (hon s p).2) i j hj]
      · exact ⟨a, (mem_onEdge hs).2 ⟨ha, rfl⟩, b, (mem_onEdge hs).2 ⟨hb, he.symm⟩, r⟩
      · rw [alone_iff hl hs ha]
        intro hal
        have := hal b hb he.symm
        subst this
        omega
  · intro a ha hal
    have hone := (alone_iff hl hs ha).2 hal
    rw [hown a ha, hown a ha]
    unfold block
    rw [if_pos hone]
    exact ⟨alone_from a, alone_to h1 a⟩
  · intro a ha hal hf
    have hone := mt (alone_iff hl hs ha).1 hal
    rw [hown a ha, hown a ha]
    unfold block
    rw [if_neg hone]
    have hfw := C37_forward_partial eps (low a.edgeind) (high a.edgeind) (onEdge l subs a.edgeind) h0 h1 (hon a ha).1 (fun s hse => by
      obtain ⟨p, q⟩ := (mem_onEdge hs).1 hse
      have h2 := hon s p
      have h3 := hf s p q
      rw [q] at h2
      obtain ⟨h4, -, h5 | h5⟩ := h2
      · exact h5
      · omega)
    have hin : a ∈ onEdge l subs a.edgeind := (mem_onEdge hs).2 ⟨ha, rfl⟩
    rw [hfw, hfw]
    unfold ShouldReport
    rw [length_onEdge hs]
    constructor
    · constructor
      · rintro (⟨x, hx, b, hb, -, hbi, -⟩ | ⟨-, b, hb, hbi, r⟩ | ⟨h, -⟩)
        · have := hpos b ((mem_onEdge hs).1 hb).1
          omega
        · rw [← huniq b ((mem_onEdge hs).1 hb).1 a ha hbi]
          rw [← huniq b ((mem_onEdge hs).1 hb).1 a ha hbi] at r
          exact r
        · omega
      · intro r
        exact .inr (.inl ⟨rfl, a, hin, rfl, r⟩)
    · constructor
      · rintro (⟨x, hx, b, hb, -, hbi, -⟩ | ⟨h, -⟩ | ⟨-, b, hb, hbi, r⟩)
        · have := hpos b ((mem_onEdge hs).1 hb).1
          omega
        · omega
        · rw [← huniq b ((mem_onEdge hs).1 hb).1 a ha hbi]
          rw [← huniq b ((mem_onEdge hs).1 hb).1 a ha hbi] at r
          exact r
      · intro r
        exact .inr (.inr ⟨rfl, a, hin, rfl, r⟩)
  · intro p hp
    obtain ⟨c, hc, h⟩ := (hmem p).1 hp
    unfold block at h
    split_ifs at h
    · obtain ⟨h2, h3⟩ := mem_alone h
      exact ⟨⟨c, hc, h2.symm⟩, h3.elim .inl fun h => .inr (.inl h)⟩
    · obtain ⟨⟨a, ha, hai⟩, h3⟩ := mem_detect h
      refine ⟨⟨a, ((mem_onEdge hs).1 ha).1, hai⟩, ?_⟩
      rcases h3 with h3 | h3 | ⟨b, hb, hbi⟩
      · exact .inl h3
      · exact .inr (.inl h3)
      · exact .inr (.inr (hbi ▸ hpos b ((mem_onEdge hs).1 hb).1))

/-- A snaxel which `almostImpact` puts on a vertex (C137) is reported, with the same mark, by the detection which follows, if it is alone on its edge.
Missing: edges with several snaxels. -/
theorem C138_arrives_partial {eps lim : K} {vs : List Int} {l : List (Snax K)} {imp : Impacts} {low high : Int → Int} (h0 : 0 < eps) (h1 : eps < 1 / 2)
    (hlim : lim ≤ 1 / 2) (hn : vs.Nodup) (hv : ∀ s ∈ l, s.fromvert ∈ vs ∧ s.tovert ∈ vs) :
    ∃ l' new pick, Almost.almostImpact eps lim vs l imp = .ok (l', imp ++ new) ∧ NearestPut eps lim vs l l' new pick ∧
      ∀ subs, (l'.map Snax.index).Nodup → (∀ s ∈ l', 0 < s.index) → ListsEdges l' subs →
        (∀ s ∈ l', low s.edgeind < high s.edgeind ∧ OnEdge (low s.edgeind) (high s.edgeind) s) →
        ∃ L, snaxImpactDetection eps l' subs = .ok L ∧
          ∀ v ∈ vs, ∀ i s', pick v = some i → l'[i]? = some s' → Alone l' s' → ∃ report ∈ new, report.1 = s'.index ∧ report ∈ L ∧
            ((report.2 = -1 ∧ s'.fromvert = v) ∨ (report.2 = -2 ∧ s'.tovert = v)) := by
  obtain ⟨l', new, pick, hrun, -, hput⟩ := C137_almost_partial eps lim hlim vs hn l imp hv
  refine ⟨l', new, pick, hrun, hput, fun subs hl hpos hs hon => ?_⟩
  obtain ⟨L, hL, hdet⟩ := C138_detection_partial h0 h1 hl hpos hs hon
  refine ⟨L, hL, fun v hvm i s' hp hs' hal => ?_⟩
  obtain ⟨s, t', report, g1, g2, g3, g4⟩ := hput.put v hvm i hp
  obtain ⟨u, r, g5, g6, -⟩ := hput.nearest v hvm i hp
  rw [g1] at g5
  cases g5
  rw [hs'] at g2
  cases g2
  have hmem := List.mem_of_getElem? hs'
  have hne : s'.fromvert ≠ s'.tovert := by
    obtain ⟨-, q1, q2 | q2⟩ := hon s' hmem <;> rw [q2.1, q2.2]
    · exact q1
    · exact q1.symm
  obtain ⟨a1, a2⟩ := hdet.alone s' hmem hal
  obtain ⟨-, g6⟩ := g6
  rcases g3 with ⟨e1, e2, e3⟩ | ⟨e1, e2, e3⟩
  · refine ⟨report, g4, by rw [e3, e2], ?_, .inl ⟨by rw [e3], by rw [e2]; exact e1⟩⟩
    have hve : s.v ≤ 0 := by
      rcases g6 with g6 | g6
      · exact g6.2.2.1
      · rw [e2] at hne
        exact absurd (e1.trans g6.1.symm) hne
    have := a1.2 ⟨by rw [e2]; simpa using h0, by rw [e2]; exact hve⟩
    rw [e2] at this
    rw [e3]
    exact this
  · refine ⟨report, g4, by rw [e3, e2], ?_, .inr ⟨by rw [e3], by rw [e2]; exact e1⟩⟩
    have hve : 0 ≤ s.v := by
      rcases g6 with g6 | g6
      · rw [e2] at hne
        exact absurd (g6.1.trans e1.symm) hne
      · exact g6.2.2.1
    have := a2.2 ⟨by rw [e2]; simpa using h0, by rw [e2]; exact hve⟩
    rw [e2] at this
    rw [e3]
    exact this

/-- Two snaxels close on vertex 2; the nearer one is put there, and reported by the detection. -/
example : ∃ l', Almost.almostImpact (1/1000000) (1/5) [1, 2, 3] [⟨11, 9/10, 1, 1, 2, 1, 1⟩, ⟨12, 1/10, -1, 2, 3, 2, 1⟩, ⟨13, 1/2, 1, 1, 3, 3, 1⟩] [] =
      .ok (l', [(12, -1)]) ∧
    snaxImpactDetection (1/1000000 : ℚ) l' (fun e => if e = 1 then [0] else if e = 2 then [1] else if e = 3 then [2] else []) = .ok [(12, -1)] :=
  ⟨[⟨11, 9/10, 1, 1, 2, 1, 1⟩, ⟨12, 0, -1, 2, 3, 2, 1⟩, ⟨13, 1/2, 1, 1, 3, 3, 1⟩], by decide +kernel, by decide +kernel⟩

/-- Four snaxels: two which touch on edge 7, one which has arrived alone on edge 8 and travels to the vertex with the lower index,
one in the middle of edge 9. -/
def fourSnaxels : List (Snax ℚ) :=
  [⟨1, 1 / 2, 1, 1, 2, 7, 1⟩, ⟨2, 1 / 2, -1, 1, 2, 7, 2⟩, ⟨3, 1, 1, 3, 2, 8, 1⟩, ⟨4, 1 / 2, 0, 3, 4, 9, 1⟩]

/-- The positions of the snaxels of each edge. -/
def fourSubs (e : Int) : List Nat := if e = 7 then [1, 0] else if e = 8 then [2] else if e = 9 then [3] else []

theorem fourSubs_lists : ListsEdges fourSnaxels fourSubs := by
  intro e
  unfold fourSubs
  refine ⟨by split_ifs <;> simp, fun i => ?_⟩
  match i with
  | 0 => split_ifs <;> simp_all [fourSnaxels] <;> omega
  | 1 => split_ifs <;> simp_all [fourSnaxels] <;> omega
  | 2 => split_ifs <;> simp_all [fourSnaxels] <;> omega
  | 3 => split_ifs <;> simp_all [fourSnaxels] <;> omega
  | n + 4 => split_ifs <;> simp [fourSnaxels]

example : ∃ L, snaxImpactDetection (1 / 1000) fourSnaxels fourSubs = .ok L ∧
    Detected (1 / 1000) (fun e => if e = 7 then 1 else if e = 8 then 2 else 3) (fun e => (fourSubs e).length) fourSnaxels L :=
  C138_detection_partial (high := fun e => if e = 7 then 2 else if e = 8 then 3 else 4) (by norm_num) (by norm_num)
    (by decide +kernel) (by decide +kernel) fourSubs_lists (by
      intro s hs
      simp only [fourSnaxels, List.mem_cons, List.not_mem_nil, or_false] at hs
      rcases hs with rfl | rfl | rfl | rfl <;> simp [OnEdge])

example : snaxImpactDetection (1 / 1000) fourSnaxels fourSubs = .ok [(2, 1), (1, 2), (3, -2)] ∨
    snaxImpactDetection (1 / 1000) fourSnaxels fourSubs = .ok [(1, 2), (2, 1), (3, -2)] := by decide +kernel

end RSVS.Detect
