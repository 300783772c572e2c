import Verif.Model.CutSurf
import Verif.Spec.CutSurf
import Verif.Props.CutEdges

/-!
# Helper lemmas on the new edge of a surface cut by a box
-/

namespace RSVS.CutEdges

open RSVS.Spec

theorem sortUnique_pairwise (l : List Int) : (sortUnique l).Pairwise (· < ·) :=
  uniqueAdj_sorted (List.pairwise_insertionSort (· ≤ ·) l)

theorem shareEdges_ok {m : Mesh} {eo : List Bool} {P : Int → Prop}
    (h : ∀ f, HasEdge m f → ∃ o, vecGet eo (posOf Edge.index m.edges f) = .ok o ∧
      (o = true ↔ P f)) :
    ∀ l : List Int, (∀ f ∈ l, HasEdge m f) → ∃ i o, shareEdges m eo l = .ok (i, o) ∧
      (∀ f, f ∈ i ↔ f ∈ l ∧ ¬ P f) ∧ (∀ f, f ∈ o ↔ f ∈ l ∧ P f) := by
  intro l
  induction l with
  | nil => intro _; exact ⟨[], [], rfl, by simp, by simp⟩
  | cons f l ih =>
    intro hl
    obtain ⟨i, o, h1, h2, h3⟩ := ih fun g hg => hl g (by simp [hg])
    have hf := hl f (by simp)
    obtain ⟨b, h4, h5⟩ := h f hf
    obtain ⟨x, h6, _, h7⟩ := elemAt_posOf_ok (ix := Edge.index) hf
    have h8 : ¬ posOf Edge.index m.edges f = -1 := by
      rw [posOf_eq_neg_one_iff]
      intro h9
      obtain ⟨y, hy, h10⟩ := hf
      exact h9 y hy h10
    cases hb : b with
    | true =>
      refine ⟨i, f :: o, by simp [shareEdges, h8, h4, h6, h1, hb, h7, bind, Except.bind], ?_, ?_⟩
      · intro g
        rw [h2, List.mem_cons]
        have := h5.mp hb
        constructor
        · exact fun h9 => ⟨Or.inr h9.1, h9.2⟩
        · rintro ⟨h9 | h9, h10⟩
          · exact absurd (h9 ▸ this) h10
          · exact ⟨h9, h10⟩
      · intro g
        rw [List.mem_cons, h3, List.mem_cons]
        have := h5.mp hb
        constructor
        · rintro (h9 | h9)
          · exact ⟨Or.inl h9, h9 ▸ this⟩
          · exact ⟨Or.inr h9.1, h9.2⟩
        · rintro ⟨h9 | h9, h10⟩
          · exact Or.inl h9
          · exact Or.inr ⟨h9, h10⟩
    | false =>
      have this : ¬ P f := fun h9 => by simp [hb] at h5; exact h5 h9
      refine ⟨f :: i, o, by simp [shareEdges, h8, h4, h6, h1, hb, h7, bind, Except.bind], ?_, ?_⟩
      · intro g
        rw [List.mem_cons, h2, List.mem_cons]
        constructor
        · rintro (h9 | h9)
          · exact ⟨Or.inl h9, h9 ▸ this⟩
          · exact ⟨Or.inr h9.1, h9.2⟩
        · rintro ⟨h9 | h9, h10⟩
          · exact Or.inl h9
          · exact Or.inr ⟨h9, h10⟩
      · intro g
        rw [h3, List.mem_cons]
        constructor
        · exact fun h9 => ⟨Or.inr h9.1, h9.2⟩
        · rintro ⟨h9 | h9, h10⟩
          · exact absurd (h9 ▸ h10) this
          · exact ⟨h9, h10⟩

theorem collect_ok {g : Int → Res (List Int)} {Q : Int → Int → Prop} :
    ∀ l : List Int, (∀ f ∈ l, ∃ x, g f = .ok x ∧ ∀ v, v ∈ x ↔ Q f v) →
      ∃ r, collect g l = .ok r ∧ ∀ v, v ∈ r ↔ ∃ f ∈ l, Q f v := by
  intro l
  induction l with
  | nil => intro _; exact ⟨[], rfl, by simp⟩
  | cons f l ih =>
    intro hl
    obtain ⟨r, h1, h2⟩ := ih fun f' hf' => hl f' (by simp [hf'])
    obtain ⟨x, h3, h4⟩ := hl f (by simp)
    refine ⟨x ++ r, by simp [collect, h1, h3, bind, Except.bind], ?_⟩
    intro v
    simp [h2, h4]

theorem innerEnds_ok {m : Mesh} {vo : List Bool} {P : Int → Prop} (hs : Sound m)
    (ht : TwoVerts m) (h : ∀ v, HasVert m v → ∃ b, isOut m vo v = .ok b ∧ (b = true ↔ P v))
    {f : Int} (hf : HasEdge m f) :
    ∃ x, innerEnds m vo f = .ok x ∧ ∀ v, v ∈ x ↔ EdgeVert m f v ∧ ¬ P v := by
  obtain ⟨x, h1, hx, hi⟩ := elemAt_posOf_ok (ix := Edge.index) hf
  obtain ⟨a, b, hab⟩ := List.length_eq_two.mp (ht x hx)
  have hends : ∀ v, EdgeVert m f v ↔ v = a ∨ v = b := by
    intro v
    constructor
    · rintro ⟨y, hy, h2, h3⟩
      have := edge_unique hs.unique.edges hy hx (h2.trans hi.symm)
      subst this
      simpa [hab] using h3
    · intro h2
      exact ⟨x, hx, hi, by simpa [hab] using h2⟩
  obtain ⟨ba, hba, hpa⟩ := h a (ends_have hs ((hends a).mpr (Or.inl rfl)))
  obtain ⟨bb, hbb, hpb⟩ := h b (ends_have hs ((hends b).mpr (Or.inr rfl)))
  have hga : vecGet x.vertind 0 = .ok a := by simp [hab, vecGet]
  have hgb : vecGet x.vertind 1 = .ok b := by simp [hab, vecGet]
  refine ⟨_, by simp only [innerEnds, h1, hga, hgb, hba, hbb, bind, Except.bind]; rfl, ?_⟩
  intro v
  rw [hends, List.mem_append]
  have e1 : v ∈ (if ba = true then [] else [a]) ↔ v = a ∧ ¬ P a := by
    rw [← hpa]; cases ba <;> simp
  have e2 : v ∈ (if bb = true then [] else [b]) ↔ v = b ∧ ¬ P b := by
    rw [← hpb]; cases bb <;> simp
  rw [e1, e2]
  constructor
  · rintro (⟨rfl, h2⟩ | ⟨rfl, h2⟩)
    · exact ⟨Or.inl rfl, h2⟩
    · exact ⟨Or.inr rfl, h2⟩
  · rintro ⟨rfl | rfl, h2⟩
    · exact Or.inl ⟨rfl, h2⟩
    · exact Or.inr ⟨rfl, h2⟩

theorem endsAmong_ok {m : Mesh} (hs : Sound m) (l : List Int) {f : Int} (hf : HasEdge m f) :
    ∃ x, endsAmong m l f = .ok x ∧ ∀ v, v ∈ x ↔ EdgeVert m f v ∧ v ∈ l := by
  obtain ⟨x, h1, hx, hi⟩ := elemAt_posOf_ok (ix := Edge.index) hf
  refine ⟨_, by simp only [endsAmong, h1, bind, Except.bind]; rfl, ?_⟩
  intro v
  rw [List.mem_filter]
  simp only [decide_eq_true_iff]
  constructor
  · exact fun h2 => ⟨⟨x, hx, hi, h2.1⟩, h2.2⟩
  · rintro ⟨⟨y, hy, h2, h3⟩, h4⟩
    have := edge_unique hs.unique.edges hy hx (h2.trans hi.symm)
    subst this
    exact ⟨h3, h4⟩

/-- What the search for the ends gives. -/
theorem findVertIn_ok {m : Mesh} {vo : List Bool} {P : Int → Prop} (hs : Sound m)
    (ht : TwoVerts m) (h : ∀ v, HasVert m v → ∃ b, isOut m vo v = .ok b ∧ (b = true ↔ P v))
    {o i : List Int} (ho : ∀ f ∈ o, HasEdge m f) (hi : ∀ f ∈ i, HasEdge m f)
    (hboth : ∀ f ∈ o, ∀ v, EdgeVert m f v → ¬ P v → ∃ g ∈ i, EdgeVert m g v) :
    ∃ r, findVertIn m vo o i = .ok r ∧ r.Pairwise (· < ·) ∧
      ∀ v, v ∈ r ↔ ∃ f ∈ o, EdgeVert m f v ∧ ¬ P v := by
  obtain ⟨l, h1, h2⟩ := collect_ok (Q := fun f v => EdgeVert m f v ∧ ¬ P v) o
    fun f hf => innerEnds_ok hs ht h (ho f hf)
  by_cases hlen : (sortUnique l).length = 2
  · refine ⟨sortUnique (sortUnique l), ?_, sortUnique_pairwise _, ?_⟩
    · simp [findVertIn, h1, hlen, bind, Except.bind]
    · intro v
      rw [mem_sortUnique, mem_sortUnique, h2]
  · obtain ⟨l', h3, h4⟩ := collect_ok (Q := fun f v => EdgeVert m f v ∧ v ∈ sortUnique l) i
      fun f hf => endsAmong_ok hs (sortUnique l) (hi f hf)
    refine ⟨sortUnique l', ?_, sortUnique_pairwise _, ?_⟩
    · simp [findVertIn, h1, h3, hlen, bind, Except.bind]
    · intro v
      rw [mem_sortUnique, h4]
      constructor
      · rintro ⟨f, _, _, h5⟩
        rwa [mem_sortUnique, h2] at h5
      · intro h5
        obtain ⟨f, hf, h6, h7⟩ := h5
        obtain ⟨g, hg, h8⟩ := hboth f hf v h6 h7
        refine ⟨g, hg, h8, ?_⟩
        rw [mem_sortUnique, h2]
        exact ⟨f, hf, h6, h7⟩

end RSVS.CutEdges
