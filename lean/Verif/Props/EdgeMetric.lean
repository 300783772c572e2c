import Verif.Lemmas.EdgeMetric
import Verif.Props.EdgeLength

/-!
# Properties of the lengths at vertices: C95
-/

namespace RSVS.Props

open RSVS.Spec RSVS.Lengths RSVS.Geo

variable {K : Type} [Field K] [LinearOrder K] [IsStrictOrderedRing K]

/-- `l` is the length of an edge at the vertex `v`. -/
def LengthAround (root : K → K) (m : LMesh K) (v : LVert K) (l : K) : Prop :=
  ∃ e ∈ m.edges, e.index ∈ v.edgeind ∧ LengthOf root m e.v0 e.v1 l

theorem forall2_mem {α β : Type} {P : α → β → Prop} {l : List α} {r : List β} (h : List.Forall₂ P l r) :
    (∀ a ∈ l, ∃ b ∈ r, P a b) ∧ ∀ b ∈ r, ∃ a ∈ l, P a b := by
  induction h with
  | nil => simp
  | cons h _ ih =>
    refine ⟨fun a ha => ?_, fun b hb => ?_⟩
    · rcases List.mem_cons.mp ha with rfl | ha
      · exact ⟨_, by simp, h⟩
      · obtain ⟨b, hb, hp⟩ := ih.1 a ha; exact ⟨b, by simp [hb], hp⟩
    · rcases List.mem_cons.mp hb with rfl | hb
      · exact ⟨_, by simp, h⟩
      · obtain ⟨a, ha, hp⟩ := ih.2 b hb; exact ⟨a, by simp [ha], hp⟩

omit [LinearOrder K] [IsStrictOrderedRing K] in
/-- The lengths that the loop at a vertex sees are those of the edges around it. -/
theorem around_iff {root : K → K} {m : LMesh K} (hl : LinkedMesh m) {v : LVert K} {xs : List K}
    (h : List.Forall₂ (LengthAt root m) v.edgeind xs) (x : K) : x ∈ xs ↔ LengthAround root m v x := by
  constructor
  · intro hx
    obtain ⟨i, hi, e, he, h1, h2⟩ := (forall2_mem h).2 x hx
    exact ⟨e, he, h1 ▸ hi, h2⟩
  · rintro ⟨e, he, hi, h2⟩
    obtain ⟨y, hy, h3⟩ := (forall2_mem h).1 _ hi
    have : x = y := lengthAt_unique hl ⟨e, he, rfl, h2⟩ h3
    rw [this]; exact hy

omit [IsStrictOrderedRing K] in
/-- C95: the smallest length of each vertex is the least length of its edges, infinite if it has none. -/
theorem C95_min (root : K → K) (m : LMesh K) (hl : LinkedMesh m) (hc : Current root m) :
    ∃ r, vertexMin root m = .ok r ∧ List.Forall₂ (fun v a =>
      (v.edgeind = [] ∧ a = ⊤) ∨ ∃ l : K, a = (l : WithTop K) ∧ LengthAround root m v l ∧ ∀ l', LengthAround root m v l' → l ≤ l')
      m.verts r := by
  obtain ⟨lens, h1, h2⟩ := edgeLengths_ok hl hc
  unfold vertexMin
  rw [h1]
  refine mapM_all m.verts fun v hv => ?_
  obtain ⟨xs, h3, h4⟩ := atVert_fold h2 minStep v.edgeind ⊤ (hl.has v hv)
  refine ⟨_, h3, ?_⟩
  obtain ⟨-, k2, k3⟩ := minFold xs ⊤
  have hx := around_iff hl h4
  rcases k3 with k3 | ⟨x, hx', k3⟩
  · left
    have hnil : xs = [] := by
      rcases xs with _ | ⟨x, xs⟩
      · rfl
      · have := k2 x (by simp)
        rw [k3] at this
        exact absurd this (by simp)
    rw [hnil] at h4
    cases h' : v.edgeind with
    | nil => exact ⟨rfl, k3⟩
    | cons i is => rw [h'] at h4; cases h4
  · right
    refine ⟨x, k3, (hx x).mp hx', fun l' hl' => ?_⟩
    have := k2 l' ((hx l').mpr hl')
    rw [k3] at this
    exact WithTop.coe_le_coe.mp this

omit [IsStrictOrderedRing K] in
/-- C95: the largest length of each vertex is the greatest length of its edges. -/
theorem C95_max (root : K → K) (m : LMesh K) (hl : LinkedMesh m) (hc : Current root m) :
    ∃ r, vertexMax root m = .ok r ∧ List.Forall₂ (fun v a =>
      (v.edgeind = [] ∧ a = ⊥) ∨ ∃ l : K, a = (l : WithBot K) ∧ LengthAround root m v l ∧ ∀ l', LengthAround root m v l' → l' ≤ l)
      m.verts r := by
  obtain ⟨lens, h1, h2⟩ := edgeLengths_ok hl hc
  unfold vertexMax
  rw [h1]
  refine mapM_all m.verts fun v hv => ?_
  obtain ⟨xs, h3, h4⟩ := atVert_fold h2 maxStep v.edgeind ⊥ (hl.has v hv)
  refine ⟨_, h3, ?_⟩
  obtain ⟨-, k2, k3⟩ := maxFold xs ⊥
  have hx := around_iff hl h4
  rcases k3 with k3 | ⟨x, hx', k3⟩
  · left
    have hnil : xs = [] := by
      rcases xs with _ | ⟨x, xs⟩
      · rfl
      · have := k2 x (by simp)
        rw [k3] at this
        exact absurd this (by simp)
    rw [hnil] at h4
    cases h' : v.edgeind with
    | nil => exact ⟨rfl, k3⟩
    | cons i is => rw [h'] at h4; cases h4
  · right
    refine ⟨x, k3, (hx x).mp hx', fun l' hl' => ?_⟩
    have := k2 l' ((hx l').mpr hl')
    rw [k3] at this
    exact WithBot.coe_le_coe.mp this

/-- C95, full statement about the mean. -/
def C95_mean_statement : Prop :=
  ∀ (root : ℚ → ℚ) (m : LMesh ℚ), LinkedMesh m → Current root m → (∀ v ∈ m.verts, v.edgeind.Nodup) →
    ∃ r, vertexMean root m = .ok r ∧ List.Forall₂ (fun v a => v.edgeind ≠ [] →
      ∃ xs : List ℚ, List.Forall₂ (fun i x => ∃ e ∈ m.edges, e.index = i ∧ LengthOf root m e.v0 e.v1 x) v.edgeind xs ∧
        a = ((xs.sum / xs.length : ℚ) : WithTop ℚ)) m.verts r

/-- C95 violated: the mean is infinite at every vertex of every mesh. -/
theorem C95_mean_violated : ¬ C95_mean_statement ∧
    ∀ (root : K → K) (m : LMesh K), LinkedMesh m → Current root m → ∃ r, vertexMean root m = .ok r ∧
      r.length = m.verts.length ∧ ∀ a ∈ r, a = ⊤ := by
  have key : ∀ {K : Type} [Field K] [LinearOrder K] [IsStrictOrderedRing K] (root : K → K) (m : LMesh K), LinkedMesh m →
      Current root m → ∃ r, vertexMean root m = .ok r ∧ r.length = m.verts.length ∧ ∀ a ∈ r, a = ⊤ := by
    intro K _ _ _ root m hl hc
    obtain ⟨lens, h1, h2⟩ := edgeLengths_ok hl hc
    unfold vertexMean
    rw [h1]
    obtain ⟨r, h3, h4⟩ := mapM_all (P := fun _ a => a = ⊤) m.verts (f := fun v => (atVert m lens (fun a x => a + (x : WithTop K)) ⊤ v).map
      fun a => a.map (fun x => x / (v.edgeind.length : K))) (fun v hv => by
        obtain ⟨xs, h3, -⟩ := atVert_fold h2 (fun a x => a + (x : WithTop K)) v.edgeind ⊤ (hl.has v hv)
        have htop : ∀ xs : List K, xs.foldl (fun (a : WithTop K) (x : K) => a + (x : WithTop K)) ⊤ = ⊤ := by
          intro xs
          induction xs with
          | nil => rfl
          | cons x xs ih => rw [List.foldl_cons, WithTop.top_add]; exact ih
        rw [htop] at h3
        exact ⟨⊤, by unfold atVert; rw [h3]; rfl, rfl⟩)
    exact ⟨r, h3, h4.length_eq.symm, fun a ha => by obtain ⟨_, _, h⟩ := (forall2_mem h4).2 a ha; exact h⟩
  refine ⟨fun H => ?_, key⟩
  obtain ⟨r, h1, h2⟩ := H rootOf rightTriangle rightTriangle_ok.1 rightTriangle_ok.2.1 (by decide +kernel)
  obtain ⟨r', h3, h4, h5⟩ := key rootOf rightTriangle rightTriangle_ok.1 rightTriangle_ok.2.1
  rw [h1] at h3
  cases h3
  obtain ⟨a, ha, hp⟩ := (forall2_mem h2).1 (⟨1, [1, 3], ![0, 0, 0]⟩ : LVert ℚ) (by simp [rightTriangle])
  obtain ⟨xs, -, he⟩ := hp (by simp)
  rw [h5 a ha] at he
  exact absurd he.symm (by simp)

example : ∃ r, vertexMin rootOf rightTriangle = .ok r ∧ r = [((3 : ℚ) : WithTop ℚ), ((3 : ℚ) : WithTop ℚ), ((4 : ℚ) : WithTop ℚ)] :=
  ⟨_, rfl, by decide +kernel⟩

example : ∃ r, vertexMax rootOf rightTriangle = .ok r ∧ r.length = 3 := by
  obtain ⟨r, h1, h2⟩ := C95_max rootOf rightTriangle rightTriangle_ok.1 rightTriangle_ok.2.1
  exact ⟨r, h1, h2.length_eq.symm⟩

end RSVS.Props
