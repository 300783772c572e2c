import Verif.Lemmas.Mesh
import Verif.Lemmas.MeshDetach
import Verif.Spec.Mesh

/-!
# Helper lemmas on the tests of the connectivity
-/

namespace RSVS.Mesh

open RSVS.Spec

theorem posOf_neg_iff {α : Type} {ix : α → Int} {l : List α} {k : Int} :
    posOf ix l k < 0 ↔ ¬ ∃ a ∈ l, ix a = k := by
  unfold posOf
  cases h : l.findIdx? (fun a => ix a == k) with
  | none =>
    rw [List.findIdx?_eq_none_iff] at h
    simp only [show (-1 : Int) < 0 by omega, true_iff]
    rintro ⟨a, ha, hk⟩
    have := h a ha
    simp [hk] at this
  | some p =>
    rw [List.findIdx?_eq_some_iff_getElem] at h
    obtain ⟨hp, h1, _⟩ := h
    constructor
    · intro h'; simp at h'; omega
    · intro h'; exact absurd ⟨l[p], List.getElem_mem hp, by simpa using h1⟩ h'

theorem sum_eq_zero_map {α : Type} {f : α → Nat} {l : List α} :
    (l.map f).sum = 0 ↔ ∀ a ∈ l, f a = 0 := by
  induction l with
  | nil => simp
  | cons a l ih => simp [ih]

theorem unknownRefs_zero {α : Type} {ix : α → Int} {l : List α} {refs : List Int} :
    unknownRefs ix l refs = 0 ↔ ∀ r ∈ refs, r ≠ 0 → ∃ a ∈ l, ix a = r := by
  unfold unknownRefs
  rw [List.countP_eq_zero]
  simp only [Bool.and_eq_true, decide_eq_true_eq, posOf_neg_iff, not_and, Classical.not_not]
  constructor
  · intro h r hr h0
    by_contra hc
    exact h0 (h r hr hc)
  · intro h r hr hc
    by_contra h0
    exact hc (h r hr h0)

theorem unknownRefs0_zero {α : Type} {ix : α → Int} {l : List α} {refs : List Int} :
    unknownRefs0 ix l refs = 0 ↔ ∀ r ∈ refs, ∃ a ∈ l, ix a = r := by
  unfold unknownRefs0
  rw [List.countP_eq_zero]
  simp only [decide_eq_true_eq, posOf_neg_iff, Classical.not_not]

theorem testConnectivity_zero (m : Mesh) :
    m.testConnectivity = 0 ↔ NoDangling m ∧ NoLoose m := by
  unfold testConnectivity
  simp only [Nat.add_eq_zero_iff, sum_eq_zero_map, unknownRefs_zero, unknownRefs0_zero]
  constructor
  · rintro ⟨⟨⟨⟨⟨h1, h2⟩, h3⟩, h4⟩, h5⟩, h6⟩
    refine ⟨⟨?_, ?_, ?_, ?_, ?_, ?_⟩, ?_, ?_⟩
    · rintro v e ⟨x, hx, rfl, he⟩ h0
      have := h1 x hx
      split at this
      · omega
      · exact (unknownRefs_zero.mp this) e he h0
    · rintro v e ⟨x, hx, rfl, he⟩ h0; exact h2 x hx e he h0
    · rintro v e ⟨x, hx, rfl, he⟩ h0; exact h3 x hx e he h0
    · rintro v e ⟨x, hx, rfl, he⟩; exact (h4 x hx).1 e he
    · rintro v e ⟨x, hx, rfl, he⟩ h0; exact h5 x hx e he h0
    · rintro v e ⟨x, hx, rfl, he⟩ h0; exact h6 x hx e he h0
    · intro x hx he
      have := h1 x hx
      simp [he] at this
    · intro x hx he
      have := (h4 x hx).2
      simp [he] at this
  · rintro ⟨hd, hl⟩
    refine ⟨⟨⟨⟨⟨?_, ?_⟩, ?_⟩, ?_⟩, ?_⟩, ?_⟩
    · intro x hx
      rw [if_neg (by simpa using hl.verts x hx), unknownRefs_zero]
      intro r hr h0
      exact hd.vertEdge _ _ ⟨x, hx, rfl, hr⟩ h0
    · intro x hx r hr h0; exact hd.edgeVert _ _ ⟨x, hx, rfl, hr⟩ h0
    · intro x hx r hr h0; exact hd.edgeSurf _ _ ⟨x, hx, rfl, hr⟩ h0
    · intro x hx
      refine ⟨fun r hr => hd.surfEdge _ _ ⟨x, hx, rfl, hr⟩, ?_⟩
      rw [if_neg (by simpa using hl.surfs x hx)]
    · intro x hx r hr h0; exact hd.surfVolu _ _ ⟨x, hx, rfl, hr⟩ h0
    · intro x hx r hr h0; exact hd.voluSurf _ _ ⟨x, hx, rfl, hr⟩ h0

theorem biDirLoop_spec {β : Type} {ixB : β → Int} {bs : List β} {zc : Bool} {back : β → Bool}
    {disp : Nat → Bool} :
    ∀ (refs : List Int) (jj : Nat) (c : Nat × Nat),
      biDirLoop ixB bs zc back disp jj refs = .ok c →
      (c.1 = 0 ↔ ∀ r ∈ refs, (r ≠ 0 ∨ zc = true) → ∃ b ∈ bs, ixB b = r) ∧
      ((bs.map ixB).Nodup →
        (c.2 = 0 ↔ ∀ r ∈ refs, r ≠ 0 → ∀ b ∈ bs, ixB b = r → back b = true)) := by
  intro refs
  induction refs with
  | nil => intro jj c h; cases h; simp
  | cons r rest ih =>
    intro jj c h
    unfold biDirLoop at h
    simp only at h
    by_cases hp : posOf ixB bs r < 0 ∧ (r ≠ 0 ∨ zc = true)
    · rw [if_pos hp] at h
      obtain ⟨x, hx, h⟩ := bind_ok_iff.mp h
      cases hx
      obtain ⟨tl, htl, h⟩ := bind_ok_iff.mp h
      cases h
      obtain ⟨i1, i2⟩ := ih (jj + 1) tl htl
      have hno := posOf_neg_iff.mp hp.1
      refine ⟨?_, ?_⟩
      · constructor
        · intro h; simp at h
        · intro h; exact absurd (h r (by simp) hp.2) hno
      · intro hn
        show 0 + tl.2 = 0 ↔ _
        rw [Nat.zero_add, i2 hn]
        constructor
        · intro h r' hr' h0 b hb hbi
          rcases List.mem_cons.mp hr' with rfl | hr'
          · exact absurd ⟨b, hb, hbi⟩ hno
          · exact h r' hr' h0 b hb hbi
        · intro h r' hr'; exact h r' (by simp [hr'])
    · rw [if_neg hp] at h
      by_cases hr0 : r ≠ 0
      · rw [if_pos hr0] at h
        have hpos : ¬ posOf ixB bs r < 0 := fun h' => hp ⟨h', Or.inl hr0⟩
        have hex : ∃ b ∈ bs, ixB b = r := by
          by_contra hc; exact hpos (posOf_neg_iff.mpr hc)
        obtain ⟨b, hb, h⟩ := bind_ok_iff.mp h
        obtain ⟨hbm, hbi⟩ := elemAt_posOf hb
        have key : ∃ w : Nat, (w = 0 ↔ back b = true) ∧
            (do let tail ← biDirLoop ixB bs zc back disp (jj + 1) rest
                pure (0 + tail.1, w + tail.2) : Res (Nat × Nat)) = .ok c := by
          by_cases hbk : back b = true
          · rw [if_pos hbk] at h
            exact ⟨0, by simp [hbk], h⟩
          · rw [if_neg hbk] at h
            split at h
            · exact ⟨1, by simp [hbk], h⟩
            · cases h
        obtain ⟨w, hw, h⟩ := key
        obtain ⟨tl, htl, h⟩ := bind_ok_iff.mp h
        cases h
        obtain ⟨i1, i2⟩ := ih (jj + 1) tl htl
        refine ⟨?_, ?_⟩
        · show 0 + tl.1 = 0 ↔ _
          rw [Nat.zero_add, i1]
          constructor
          · intro h r' hr' h0
            rcases List.mem_cons.mp hr' with rfl | hr'
            · exact hex
            · exact h r' hr' h0
          · intro h r' hr'; exact h r' (by simp [hr'])
        · intro hn
          show w + tl.2 = 0 ↔ _
          rw [Nat.add_eq_zero_iff, hw, i2 hn]
          constructor
          · rintro ⟨h1, h2⟩ r' hr' h0 b' hb' hbi'
            rcases List.mem_cons.mp hr' with rfl | hr'
            · rw [inj_of_nodup hn hb' hbm (hbi'.trans hbi.symm)]; exact h1
            · exact h2 r' hr' h0 b' hb' hbi'
          · intro h
            exact ⟨h r (by simp) hr0 b hbm hbi, fun r' hr' => h r' (by simp [hr'])⟩
      · rw [if_neg hr0] at h
        obtain ⟨x, hx, h⟩ := bind_ok_iff.mp h
        cases hx
        obtain ⟨tl, htl, h⟩ := bind_ok_iff.mp h
        cases h
        obtain ⟨i1, i2⟩ := ih (jj + 1) tl htl
        refine ⟨?_, ?_⟩
        · show 0 + tl.1 = 0 ↔ _
          rw [Nat.zero_add, i1]
          constructor
          · intro h r' hr' h0
            rcases List.mem_cons.mp hr' with rfl | hr'
            · by_contra hc; exact hp ⟨posOf_neg_iff.mpr hc, h0⟩
            · exact h r' hr' h0
          · intro h r' hr'; exact h r' (by simp [hr'])
        · intro hn
          show 0 + tl.2 = 0 ↔ _
          rw [Nat.zero_add, i2 hn]
          constructor
          · intro h r' hr' h0
            rcases List.mem_cons.mp hr' with rfl | hr'
            · exact absurd h0 hr0
            · exact h r' hr' h0
          · intro h r' hr'; exact h r' (by simp [hr'])

theorem sumCounts_spec {α : Type} {f : α → Res (Nat × Nat)} {P Q : α → Prop} :
    ∀ (l : List α) (c : Nat × Nat),
      (∀ a ∈ l, ∀ x, f a = .ok x → (x.1 = 0 ↔ P a) ∧ (x.2 = 0 ↔ Q a)) →
      sumCounts f l = .ok c → (c.1 = 0 ↔ ∀ a ∈ l, P a) ∧ (c.2 = 0 ↔ ∀ a ∈ l, Q a) := by
  intro l
  induction l with
  | nil => intro c _ h; cases h; simp
  | cons a l ih =>
    intro c hf h
    unfold sumCounts at h
    obtain ⟨x, hx, h⟩ := bind_ok_iff.mp h
    obtain ⟨y, hy, h⟩ := bind_ok_iff.mp h
    cases h
    obtain ⟨h1, h2⟩ := hf a (by simp) x hx
    obtain ⟨h3, h4⟩ := ih y (fun a ha => hf a (by simp [ha])) hy
    simp only [Nat.add_eq_zero_iff, h1, h2, h3, h4, List.forall_mem_cons, and_self]

theorem biDirCounts_spec {m : Mesh} {em : Bool} {c : Nat × Nat} (hu : UniqueIndices m)
    (h : m.biDirCounts em = .ok c) :
    (c.1 = 0 ↔ NoDangling m ∧ Complete m em) ∧ (c.2 = 0 ↔ NoOneWay m) := by
  unfold biDirCounts at h
  obtain ⟨c1, h1, h⟩ := bind_ok_iff.mp h
  obtain ⟨c2, h2, h⟩ := bind_ok_iff.mp h
  obtain ⟨c3, h3, h⟩ := bind_ok_iff.mp h
  obtain ⟨c4, h4, h⟩ := bind_ok_iff.mp h
  obtain ⟨c5, h5, h⟩ := bind_ok_iff.mp h
  obtain ⟨c6, h6, h⟩ := bind_ok_iff.mp h
  cases h
  obtain ⟨a1, b1⟩ := sumCounts_spec
    (P := fun v : Vert => (em = true → v.edgeind ≠ []) ∧
      ∀ r ∈ v.edgeind, r ≠ 0 → HasEdge m r)
    (Q := fun v : Vert => ∀ r ∈ v.edgeind, r ≠ 0 → ∀ b ∈ m.edges, b.index = r → v.index ∈ b.vertind)
    m.verts c1 (by
      intro v hv x hx
      split at hx
      · rename_i he
        cases hx
        have he2 : v.edgeind = [] := by simpa using he.2
        simp [he.1, he2]
      · rename_i he
        obtain ⟨i1, i2⟩ := biDirLoop_spec _ _ _ hx
        refine ⟨?_, ?_⟩
        · rw [i1]
          constructor
          · intro h
            refine ⟨fun hem hv => he ⟨hem, by simp [hv]⟩, fun r hr h0 => h r hr (Or.inl h0)⟩
          · rintro ⟨_, h⟩ r hr h0
            exact h r hr (by simpa using h0)
        · rw [i2 hu.edges]; simp) h1
  obtain ⟨a2, b2⟩ := sumCounts_spec
    (P := fun v : Edge => (em = true → v.vertind.length = 2) ∧
      ∀ r ∈ v.vertind, r ≠ 0 → HasVert m r)
    (Q := fun v : Edge => ∀ r ∈ v.vertind, r ≠ 0 → ∀ b ∈ m.verts, b.index = r → v.index ∈ b.edgeind)
    m.edges c2 (by
      intro v hv x hx
      obtain ⟨y, hy, hx⟩ := bind_ok_iff.mp hx
      cases hx
      obtain ⟨i1, i2⟩ := biDirLoop_spec _ _ _ hy
      refine ⟨?_, ?_⟩
      · rw [Nat.add_eq_zero_iff, i1]
        constructor
        · rintro ⟨h, h'⟩
          refine ⟨fun hem => ?_, fun r hr h0 => h r hr (Or.inl h0)⟩
          by_contra hc
          rw [if_pos ⟨hem, hc⟩] at h'
          omega
        · rintro ⟨h', h⟩
          refine ⟨fun r hr h0 => h r hr (by simpa using h0), ?_⟩
          rw [if_neg (fun hc => hc.2 (h' hc.1))]
      · rw [i2 hu.verts]; simp) h2
  obtain ⟨a3, b3⟩ := sumCounts_spec
    (P := fun v : Edge => ∀ r ∈ v.surfind, r ≠ 0 → HasSurf m r)
    (Q := fun v : Edge => ∀ r ∈ v.surfind, r ≠ 0 → ∀ b ∈ m.surfs, b.index = r → v.index ∈ b.edgeind)
    m.edges c3 (by
      intro v hv x hx
      obtain ⟨i1, i2⟩ := biDirLoop_spec _ _ _ hx
      refine ⟨?_, ?_⟩
      · rw [i1]
        constructor
        · intro h r hr h0; exact h r hr (Or.inl h0)
        · intro h r hr h0; exact h r hr (by simpa using h0)
      · rw [i2 hu.surfs]; simp) h3
  obtain ⟨a4, b4⟩ := sumCounts_spec
    (P := fun v : Surf => v.edgeind ≠ [] ∧ ∀ r ∈ v.edgeind, HasEdge m r)
    (Q := fun v : Surf => ∀ r ∈ v.edgeind, r ≠ 0 → ∀ b ∈ m.edges, b.index = r → v.index ∈ b.surfind)
    m.surfs c4 (by
      intro v hv x hx
      obtain ⟨y, hy, hx⟩ := bind_ok_iff.mp hx
      cases hx
      obtain ⟨i1, i2⟩ := biDirLoop_spec _ _ _ hy
      refine ⟨?_, ?_⟩
      · rw [Nat.add_eq_zero_iff, i1]
        constructor
        · rintro ⟨h, h'⟩
          refine ⟨fun hem => ?_, fun r hr => h r hr (Or.inr rfl)⟩
          rw [if_pos (by simp [hem])] at h'
          omega
        · rintro ⟨h', h⟩
          refine ⟨fun r hr _ => h r hr, ?_⟩
          rw [if_neg (by simpa using h')]
      · rw [i2 hu.edges]; simp) h4
  obtain ⟨a5, b5⟩ := sumCounts_spec
    (P := fun v : Surf => (em = true → m.meshDim > 2 → v.voluind.length = 2) ∧
      ∀ r ∈ v.voluind, r ≠ 0 → HasVolu m r)
    (Q := fun v : Surf => ∀ r ∈ v.voluind, r ≠ 0 → ∀ b ∈ m.volus, b.index = r → v.index ∈ b.surfind)
    m.surfs c5 (by
      intro v hv x hx
      obtain ⟨y, hy, hx⟩ := bind_ok_iff.mp hx
      cases hx
      obtain ⟨i1, i2⟩ := biDirLoop_spec _ _ _ hy
      refine ⟨?_, ?_⟩
      · rw [Nat.add_eq_zero_iff, i1]
        constructor
        · rintro ⟨h, h'⟩
          refine ⟨fun hem hd => ?_, fun r hr h0 => h r hr (Or.inl h0)⟩
          by_contra hc
          rw [if_pos ⟨hd, hem, hc⟩] at h'
          omega
        · rintro ⟨h', h⟩
          refine ⟨fun r hr h0 => h r hr (by simpa using h0), ?_⟩
          rw [if_neg (fun hc => hc.2.2 (h' hc.2.1 hc.1))]
      · rw [i2 hu.volus]; simp) h5
  obtain ⟨a6, b6⟩ := sumCounts_spec
    (P := fun v : Volu => ∀ r ∈ v.surfind, r ≠ 0 → HasSurf m r)
    (Q := fun v : Volu => ∀ r ∈ v.surfind, r ≠ 0 → ∀ b ∈ m.surfs, b.index = r → v.index ∈ b.voluind)
    m.volus c6 (by
      intro v hv x hx
      obtain ⟨i1, i2⟩ := biDirLoop_spec _ _ _ hx
      refine ⟨?_, ?_⟩
      · rw [i1]
        constructor
        · intro h r hr h0; exact h r hr (Or.inl h0)
        · intro h r hr h0; exact h r hr (by simpa using h0)
      · rw [i2 hu.surfs]; simp) h6
  refine ⟨?_, ?_⟩
  · simp only [Nat.add_eq_zero_iff, a1, a2, a3, a4, a5, a6]
    constructor
    · rintro ⟨⟨⟨⟨⟨p1, p2⟩, p3⟩, p4⟩, p5⟩, p6⟩
      refine ⟨⟨?_, ?_, ?_, ?_, ?_, ?_⟩, ?_, ?_, ?_, ?_⟩
      · rintro v e ⟨x, hx, rfl, he⟩ h0; exact (p1 x hx).2 e he h0
      · rintro v e ⟨x, hx, rfl, he⟩ h0; exact (p2 x hx).2 e he h0
      · rintro v e ⟨x, hx, rfl, he⟩ h0; exact p3 x hx e he h0
      · rintro v e ⟨x, hx, rfl, he⟩; exact (p4 x hx).2 e he
      · rintro v e ⟨x, hx, rfl, he⟩ h0; exact (p5 x hx).2 e he h0
      · rintro v e ⟨x, hx, rfl, he⟩ h0; exact p6 x hx e he h0
      · intro x hx; exact (p4 x hx).1
      · intro hem x hx; exact (p1 x hx).1 hem
      · intro hem x hx; exact (p2 x hx).1 hem
      · intro hem hd x hx; exact (p5 x hx).1 hem hd
    · rintro ⟨hd, hc⟩
      refine ⟨⟨⟨⟨⟨?_, ?_⟩, ?_⟩, ?_⟩, ?_⟩, ?_⟩
      · intro x hx
        exact ⟨fun hem => hc.verts hem x hx, fun r hr h0 => hd.vertEdge _ _ ⟨x, hx, rfl, hr⟩ h0⟩
      · intro x hx
        exact ⟨fun hem => hc.edges hem x hx, fun r hr h0 => hd.edgeVert _ _ ⟨x, hx, rfl, hr⟩ h0⟩
      · intro x hx r hr h0; exact hd.edgeSurf _ _ ⟨x, hx, rfl, hr⟩ h0
      · intro x hx
        exact ⟨hc.surfs x hx, fun r hr => hd.surfEdge _ _ ⟨x, hx, rfl, hr⟩⟩
      · intro x hx
        exact ⟨fun hem h3 => hc.volus hem h3 x hx, fun r hr h0 => hd.surfVolu _ _ ⟨x, hx, rfl, hr⟩ h0⟩
      · intro x hx r hr h0; exact hd.voluSurf _ _ ⟨x, hx, rfl, hr⟩ h0
  · simp only [Nat.add_eq_zero_iff, b1, b2, b3, b4, b5, b6]
    constructor
    · rintro ⟨⟨⟨⟨⟨p1, p2⟩, p3⟩, p4⟩, p5⟩, p6⟩
      refine ⟨?_, ?_, ?_, ?_, ?_, ?_⟩
      · rintro v e ⟨x, hx, rfl, he⟩ h0 ⟨y, hy, hi⟩; exact ⟨y, hy, hi, p1 x hx e he h0 y hy hi⟩
      · rintro v e ⟨x, hx, rfl, he⟩ h0 ⟨y, hy, hi⟩; exact ⟨y, hy, hi, p2 x hx e he h0 y hy hi⟩
      · rintro v e ⟨x, hx, rfl, he⟩ h0 ⟨y, hy, hi⟩; exact ⟨y, hy, hi, p3 x hx e he h0 y hy hi⟩
      · rintro v e ⟨x, hx, rfl, he⟩ h0 ⟨y, hy, hi⟩; exact ⟨y, hy, hi, p4 x hx e he h0 y hy hi⟩
      · rintro v e ⟨x, hx, rfl, he⟩ h0 ⟨y, hy, hi⟩; exact ⟨y, hy, hi, p5 x hx e he h0 y hy hi⟩
      · rintro v e ⟨x, hx, rfl, he⟩ h0 ⟨y, hy, hi⟩; exact ⟨y, hy, hi, p6 x hx e he h0 y hy hi⟩
    · intro hn
      refine ⟨⟨⟨⟨⟨?_, ?_⟩, ?_⟩, ?_⟩, ?_⟩, ?_⟩
      · intro x hx r hr h0 y hy hi
        obtain ⟨z, hz, hzi, hm⟩ := hn.vertEdge _ _ ⟨x, hx, rfl, hr⟩ h0 ⟨y, hy, hi⟩
        rwa [inj_of_nodup hu.edges hz hy (hzi.trans hi.symm)] at hm
      · intro x hx r hr h0 y hy hi
        obtain ⟨z, hz, hzi, hm⟩ := hn.edgeVert _ _ ⟨x, hx, rfl, hr⟩ h0 ⟨y, hy, hi⟩
        rwa [inj_of_nodup hu.verts hz hy (hzi.trans hi.symm)] at hm
      · intro x hx r hr h0 y hy hi
        obtain ⟨z, hz, hzi, hm⟩ := hn.edgeSurf _ _ ⟨x, hx, rfl, hr⟩ h0 ⟨y, hy, hi⟩
        rwa [inj_of_nodup hu.surfs hz hy (hzi.trans hi.symm)] at hm
      · intro x hx r hr h0 y hy hi
        obtain ⟨z, hz, hzi, hm⟩ := hn.surfEdge _ _ ⟨x, hx, rfl, hr⟩ h0 ⟨y, hy, hi⟩
        rwa [inj_of_nodup hu.edges hz hy (hzi.trans hi.symm)] at hm
      · intro x hx r hr h0 y hy hi
        obtain ⟨z, hz, hzi, hm⟩ := hn.surfVolu _ _ ⟨x, hx, rfl, hr⟩ h0 ⟨y, hy, hi⟩
        rwa [inj_of_nodup hu.volus hz hy (hzi.trans hi.symm)] at hm
      · intro x hx r hr h0 y hy hi
        obtain ⟨z, hz, hzi, hm⟩ := hn.voluSurf _ _ ⟨x, hx, rfl, hr⟩ h0 ⟨y, hy, hi⟩
        rwa [inj_of_nodup hu.surfs hz hy (hzi.trans hi.symm)] at hm

/-! ### When the test does not throw -/

theorem biDirLoop_total {β : Type} {ixB : β → Int} {bs : List β} {zc : Bool} {back : β → Bool}
    {disp : Nat → Bool} : ∀ (refs : List Int) (jj : Nat),
      (∀ r ∈ refs, r ≠ 0 → ∀ b ∈ bs, ixB b = r → back b = true) →
      ∃ c, biDirLoop ixB bs zc back disp jj refs = .ok c := by
  intro refs
  induction refs with
  | nil => intro jj _; exact ⟨_, rfl⟩
  | cons r rest ih =>
    intro jj h
    obtain ⟨tl, htl⟩ := ih (jj + 1) (fun r' hr' => h r' (by simp [hr']))
    unfold biDirLoop
    simp only
    by_cases hp : posOf ixB bs r < 0 ∧ (r ≠ 0 ∨ zc = true)
    · rw [if_pos hp, htl]; exact ⟨_, rfl⟩
    · rw [if_neg hp]
      by_cases hr0 : r ≠ 0
      · rw [if_pos hr0]
        have hex : ∃ b ∈ bs, ixB b = r := by
          by_contra hc; exact hp ⟨posOf_neg_iff.mpr hc, Or.inl hr0⟩
        obtain ⟨b, hb, hbm, hbi⟩ := elemAt_posOf_ok hex
        have hbk := h r (by simp) hr0 b hbm hbi
        rw [hb]
        refine ⟨(0 + tl.1, 0 + tl.2), ?_⟩
        show (if back b = true then _ else _ : Res (Nat × Nat)) = _
        rw [if_pos hbk, htl]
        rfl
      · rw [if_neg hr0, htl]; exact ⟨_, rfl⟩

theorem sumCounts_total {α : Type} {f : α → Res (Nat × Nat)} :
    ∀ (l : List α), (∀ a ∈ l, ∃ c, f a = .ok c) → ∃ c, sumCounts f l = .ok c := by
  intro l
  induction l with
  | nil => intro _; exact ⟨_, rfl⟩
  | cons a l ih =>
    intro h
    obtain ⟨x, hx⟩ := h a (by simp)
    obtain ⟨y, hy⟩ := ih (fun a ha => h a (by simp [ha]))
    unfold sumCounts
    rw [hx, hy]
    exact ⟨_, rfl⟩

/-- Without one-way references the test does not throw. -/
theorem biDirCounts_total {m : Mesh} (em : Bool) (hu : UniqueIndices m) (h : NoOneWay m) :
    ∃ c, m.biDirCounts em = .ok c := by
  have back : ∀ {β : Type} {ix : β → Int} {bs : List β} {P : β → Prop} {r : Int} {b : β},
      (bs.map ix).Nodup → (∃ x ∈ bs, ix x = r ∧ P x) → b ∈ bs → ix b = r → P b := by
    rintro β ix bs P r b hn ⟨x, hx, hxi, hP⟩ hb hbi
    rw [inj_of_nodup hn hb hx (hbi.trans hxi.symm)]
    exact hP
  obtain ⟨c1, h1⟩ := sumCounts_total (f := fun v : Vert =>
    if em = true ∧ v.edgeind.isEmpty = true then .ok (1, 0)
    else biDirLoop Edge.index m.edges false (fun e => e.vertind.contains v.index)
      (fun jj => decide (jj < m.edges.length)) 0 v.edgeind) m.verts (fun v hv => by
    split
    · exact ⟨_, rfl⟩
    · refine biDirLoop_total _ _ (fun r hr h0 b hb hbi => ?_)
      have := back (P := fun x : Edge => v.index ∈ x.vertind) hu.edges
        (h.vertEdge v.index r ⟨v, hv, rfl, hr⟩ h0 ⟨b, hb, hbi⟩) hb hbi
      simpa using this)
  obtain ⟨c2, h2⟩ := sumCounts_total (f := fun e : Edge => do
    let c ← biDirLoop Vert.index m.verts false (fun v => v.edgeind.contains e.index)
      (fun jj => decide (jj < m.verts.length)) 0 e.vertind
    pure (c.1 + (if em = true ∧ e.vertind.length ≠ 2 then 1 else 0), c.2)) m.edges (fun v hv => by
    obtain ⟨c, hc⟩ := biDirLoop_total (ixB := Vert.index) (bs := m.verts) (zc := false)
      (back := fun x => x.edgeind.contains v.index) (disp := fun jj => decide (jj < m.verts.length))
      v.vertind 0 (fun r hr h0 b hb hbi => by
        have := back (P := fun x : Vert => v.index ∈ x.edgeind) hu.verts
          (h.edgeVert v.index r ⟨v, hv, rfl, hr⟩ h0 ⟨b, hb, hbi⟩) hb hbi
        simpa using this)
    rw [hc]; exact ⟨_, rfl⟩)
  obtain ⟨c3, h3⟩ := sumCounts_total (f := fun e : Edge =>
    biDirLoop Surf.index m.surfs false (fun s => s.edgeind.contains e.index)
      (fun jj => decide (jj < m.surfs.length)) 0 e.surfind) m.edges (fun v hv => by
    refine biDirLoop_total _ _ (fun r hr h0 b hb hbi => ?_)
    have := back (P := fun x : Surf => v.index ∈ x.edgeind) hu.surfs
      (h.edgeSurf v.index r ⟨v, hv, rfl, hr⟩ h0 ⟨b, hb, hbi⟩) hb hbi
    simpa using this)
  obtain ⟨c4, h4⟩ := sumCounts_total (f := fun s : Surf => do
    let c ← biDirLoop Edge.index m.edges true (fun e => e.surfind.contains s.index)
      (fun jj => decide (jj < m.edges.length)) 0 s.edgeind
    pure (c.1 + (if s.edgeind.isEmpty then 1 else 0), c.2)) m.surfs (fun v hv => by
    obtain ⟨c, hc⟩ := biDirLoop_total (ixB := Edge.index) (bs := m.edges) (zc := true)
      (back := fun x => x.surfind.contains v.index) (disp := fun jj => decide (jj < m.edges.length))
      v.edgeind 0 (fun r hr h0 b hb hbi => by
        have := back (P := fun x : Edge => v.index ∈ x.surfind) hu.edges
          (h.surfEdge v.index r ⟨v, hv, rfl, hr⟩ h0 ⟨b, hb, hbi⟩) hb hbi
        simpa using this)
    rw [hc]; exact ⟨_, rfl⟩)
  obtain ⟨c5, h5⟩ := sumCounts_total (f := fun s : Surf => do
    let c ← biDirLoop Volu.index m.volus false (fun c => c.surfind.contains s.index)
      (fun jj => decide (jj < m.volus.length)) 0 s.voluind
    pure (c.1 + (if m.meshDim > 2 ∧ em = true ∧ s.voluind.length ≠ 2 then 1 else 0), c.2))
    m.surfs (fun v hv => by
    obtain ⟨c, hc⟩ := biDirLoop_total (ixB := Volu.index) (bs := m.volus) (zc := false)
      (back := fun x => x.surfind.contains v.index) (disp := fun jj => decide (jj < m.volus.length))
      v.voluind 0 (fun r hr h0 b hb hbi => by
        have := back (P := fun x : Volu => v.index ∈ x.surfind) hu.volus
          (h.surfVolu v.index r ⟨v, hv, rfl, hr⟩ h0 ⟨b, hb, hbi⟩) hb hbi
        simpa using this)
    rw [hc]; exact ⟨_, rfl⟩)
  obtain ⟨c6, h6⟩ := sumCounts_total (f := fun c : Volu =>
    biDirLoop Surf.index m.surfs false (fun s => s.voluind.contains c.index)
      (fun _ => true) 0 c.surfind) m.volus (fun v hv => by
    refine biDirLoop_total _ _ (fun r hr h0 b hb hbi => ?_)
    have := back (P := fun x : Surf => v.index ∈ x.voluind) hu.surfs
      (h.voluSurf v.index r ⟨v, hv, rfl, hr⟩ h0 ⟨b, hb, hbi⟩) hb hbi
    simpa using this)
  unfold biDirCounts
  rw [h1, h2, h3, h4, h5, h6]
  exact ⟨_, rfl⟩

/-- A sound mesh has no one-way references. -/
theorem Sound.noOneWay {m : Mesh} (h : Sound m) : NoOneWay m where
  vertEdge := fun v e hve _ he => (h.sym.vertEdge v e ⟨_, hve.choose_spec.1, hve.choose_spec.2.1⟩ he).1 hve
  edgeVert := fun e v hev _ hv => (h.sym.vertEdge v e hv ⟨_, hev.choose_spec.1, hev.choose_spec.2.1⟩).2 hev
  edgeSurf := fun e s hes _ hs => (h.sym.edgeSurf e s ⟨_, hes.choose_spec.1, hes.choose_spec.2.1⟩ hs).1 hes
  surfEdge := fun s e hse _ he => (h.sym.edgeSurf e s he ⟨_, hse.choose_spec.1, hse.choose_spec.2.1⟩).2 hse
  surfVolu := fun s c hsc _ hc => (h.sym.surfVolu s c ⟨_, hsc.choose_spec.1, hsc.choose_spec.2.1⟩ hc).1 hsc
  voluSurf := fun c s hcs _ hs => (h.sym.surfVolu s c hs ⟨_, hcs.choose_spec.1, hcs.choose_spec.2.1⟩).2 hcs

/-- A sound and complete mesh passes with two zeros. -/
theorem biDirCounts_sound {m : Mesh} {em : Bool} (h : Sound m) (hc : Complete m em) :
    m.biDirCounts em = .ok (0, 0) := by
  obtain ⟨c, hok⟩ := biDirCounts_total em h.unique (Sound.noOneWay h)
  obtain ⟨h1, h2⟩ := biDirCounts_spec h.unique hok
  rw [hok]
  congr 1
  exact Prod.ext (h1.2 ⟨h.noDangling, hc⟩) (h2.2 (Sound.noOneWay h))

end RSVS.Mesh
