import Verif.Lemmas.EdgeLength
import Verif.Lemmas.Order
import Verif.Model.EdgeMetric

/-!
# Lemmas about the lengths of the edges at a vertex
-/

namespace RSVS.Lengths

open RSVS.Mesh RSVS.Spec

variable {K : Type} [Field K] [LinearOrder K] [IsStrictOrderedRing K] {root : K → K} {m : LMesh K}

/-- A list of results that are all there. -/
theorem mapM_all {α β : Type} {f : α → Res β} {P : α → β → Prop} : ∀ (l : List α), (∀ a ∈ l, ∃ b, f a = .ok b ∧ P a b) →
    ∃ r, l.mapM (m := Except Fault) f = .ok r ∧ List.Forall₂ P l r
  | [], _ => ⟨[], rfl, .nil⟩
  | a :: l, h => by
    obtain ⟨b, h1, h2⟩ := h a (by simp)
    obtain ⟨r, h3, h4⟩ := mapM_all l (fun x hx => h x (by simp [hx]))
    refine ⟨b :: r, ?_, .cons h2 h4⟩
    rw [List.mapM_cons, h1, h3]; rfl

omit [IsStrictOrderedRing K] in
theorem edgeLengths_ok (hl : LinkedMesh m) (hc : Current root m) :
    ∃ lens, edgeLengths root m = .ok lens ∧ List.Forall₂ (fun e l => LengthOf root m e.v0 e.v1 l) m.edges lens :=
  mapM_all m.edges fun _ he => length_ok hl hc he

/-- The length of the edge of an index. -/
def LengthAt (root : K → K) (m : LMesh K) (i : Int) (l : K) : Prop :=
  ∃ e ∈ m.edges, e.index = i ∧ LengthOf root m e.v0 e.v1 l

omit [LinearOrder K] [IsStrictOrderedRing K] in
theorem lens_at {lens : List K} (h : List.Forall₂ (fun e l => LengthOf root m e.v0 e.v1 l) m.edges lens) {i : Int}
    (hi : ∃ e ∈ m.edges, e.index = i) : ∃ l, vecGet lens (posOf LEdge.index m.edges i) = .ok l ∧ LengthAt root m i l := by
  obtain ⟨p, h1, h2, h3⟩ := posOf_mem hi
  have hlen := h.length_eq
  have hp : p < lens.length := by omega
  refine ⟨lens[p], ?_, m.edges[p], List.getElem_mem h2, ?_, ?_⟩
  · rw [h1]; exact Order.vecGet_nat (List.getElem?_eq_getElem hp)
  · exact h3
  · exact h.get h2 hp

omit [LinearOrder K] [IsStrictOrderedRing K] in
theorem atVert_fold {α : Type} {lens : List K} (h : List.Forall₂ (fun e l => LengthOf root m e.v0 e.v1 l) m.edges lens)
    (op : α → K → α) : ∀ (is : List Int) (a : α), (∀ i ∈ is, ∃ e ∈ m.edges, e.index = i) →
    ∃ xs, is.foldlM (m := Except Fault) (fun a e => (vecGet lens (posOf LEdge.index m.edges e)).map (op a)) a = .ok (xs.foldl op a) ∧
      List.Forall₂ (LengthAt root m) is xs
  | [], a, _ => ⟨[], rfl, .nil⟩
  | i :: is, a, hi => by
    obtain ⟨l, h1, h2⟩ := lens_at h (hi i (by simp))
    obtain ⟨xs, h3, h4⟩ := atVert_fold h op is (op a l) (fun j hj => hi j (by simp [hj]))
    refine ⟨l :: xs, ?_, .cons h2 h4⟩
    rw [List.foldlM_cons, h1]; exact h3

omit [Field K] [IsStrictOrderedRing K] in
theorem minFold (xs : List K) : ∀ a : WithTop K, xs.foldl minStep a ≤ a ∧ (∀ x ∈ xs, xs.foldl minStep a ≤ (x : WithTop K)) ∧
    (xs.foldl minStep a = a ∨ ∃ x ∈ xs, xs.foldl minStep a = (x : WithTop K)) := by
  induction xs with
  | nil => intro a; simp
  | cons y ys ih =>
    intro a
    obtain ⟨h1, h2, h3⟩ := ih (minStep a y)
    have ha : minStep a y ≤ a ∧ minStep a y ≤ (y : WithTop K) ∧ (minStep a y = a ∨ minStep a y = (y : WithTop K)) := by
      unfold minStep
      by_cases h : (y : WithTop K) < a
      · rw [if_pos h]; exact ⟨le_of_lt h, le_refl _, .inr rfl⟩
      · rw [if_neg h]; exact ⟨le_refl _, not_lt.mp h, .inl rfl⟩
    refine ⟨le_trans h1 ha.1, fun x hx => ?_, ?_⟩
    · rcases List.mem_cons.mp hx with rfl | hx
      · exact le_trans h1 ha.2.1
      · exact h2 x hx
    · simp only [List.foldl_cons]
      rcases h3 with h3 | ⟨x, hx, h3⟩
      · rcases ha.2.2 with h4 | h4
        · exact .inl (h3.trans h4)
        · exact .inr ⟨y, by simp, h3.trans h4⟩
      · exact .inr ⟨x, by simp [hx], h3⟩

omit [Field K] [IsStrictOrderedRing K] in
theorem maxFold (xs : List K) : ∀ a : WithBot K, a ≤ xs.foldl maxStep a ∧ (∀ x ∈ xs, (x : WithBot K) ≤ xs.foldl maxStep a) ∧
    (xs.foldl maxStep a = a ∨ ∃ x ∈ xs, xs.foldl maxStep a = (x : WithBot K)) := by
  induction xs with
  | nil => intro a; simp
  | cons y ys ih =>
    intro a
    obtain ⟨h1, h2, h3⟩ := ih (maxStep a y)
    have ha : a ≤ maxStep a y ∧ (y : WithBot K) ≤ maxStep a y ∧ (maxStep a y = a ∨ maxStep a y = (y : WithBot K)) := by
      unfold maxStep
      by_cases h : a < (y : WithBot K)
      · rw [if_pos h]; exact ⟨le_of_lt h, le_refl _, .inr rfl⟩
      · rw [if_neg h]; exact ⟨le_refl _, not_lt.mp h, .inl rfl⟩
    refine ⟨le_trans ha.1 h1, fun x hx => ?_, ?_⟩
    · rcases List.mem_cons.mp hx with rfl | hx
      · exact le_trans ha.2.1 h1
      · exact h2 x hx
    · simp only [List.foldl_cons]
      rcases h3 with h3 | ⟨x, hx, h3⟩
      · rcases ha.2.2 with h4 | h4
        · exact .inl (h3.trans h4)
        · exact .inr ⟨y, by simp, h3.trans h4⟩
      · exact .inr ⟨x, by simp [hx], h3⟩

omit [LinearOrder K] [IsStrictOrderedRing K] in
theorem lengthOf_unique (hl : LinkedMesh m) {v0 v1 : Int} {l l' : K} (h : LengthOf root m v0 v1 l) (h' : LengthOf root m v0 v1 l') :
    l = l' := by
  obtain ⟨a, ha, b, hb, a1, b1, h⟩ := h
  obtain ⟨a', ha', b', hb', a1', b1', h'⟩ := h'
  have e1 : a = a' := inj_of_nodup hl.verts ha ha' (a1.trans a1'.symm)
  have e2 : b = b' := inj_of_nodup hl.verts hb hb' (b1.trans b1'.symm)
  rw [h, h', e1, e2]

omit [LinearOrder K] [IsStrictOrderedRing K] in
theorem lengthAt_unique (hl : LinkedMesh m) {i : Int} {l l' : K} (h : LengthAt root m i l) (h' : LengthAt root m i l') : l = l' := by
  obtain ⟨e, he, i1, h⟩ := h
  obtain ⟨e', he', i2, h'⟩ := h'
  have e1 : e = e' := inj_of_nodup hl.edges he he' (i1.trans i2.symm)
  rw [← e1] at h'
  exact lengthOf_unique hl h h'

end RSVS.Lengths
