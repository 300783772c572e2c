import Verif.Spec.Detect
import Verif.Lemmas.SnakeJoin
import Verif.Lemmas.Motion

/-!
# Lemmas on the detection of impacts on a whole snake
-/

namespace RSVS.Detect

open RSVS RSVS.Spec

variable {K : Type} [Field K] [LinearOrder K]

/-- The snaxels of an edge. -/
def onEdge (l : List (Snax K)) (subs : Int → List Nat) (e : Int) : List (Snax K) := (subs e).filterMap (l[·]?)

/-- The reports of the edge of a snaxel. -/
def block (eps : K) (l : List (Snax K)) (subs : Int → List Nat) (a : Snax K) : Impacts :=
  if (subs a.edgeind).length = 1 then impactAlone eps a else detectImpactOnEdge eps (onEdge l subs a.edgeind)

omit [Field K] [LinearOrder K] in
theorem mem_onEdge {l : List (Snax K)} {subs : Int → List Nat} (hs : ListsEdges l subs) {e : Int} {b : Snax K} :
    b ∈ onEdge l subs e ↔ b ∈ l ∧ b.edgeind = e := by
  unfold onEdge
  rw [List.mem_filterMap]
  constructor
  · rintro ⟨i, hi, hb⟩
    obtain ⟨c, hc, hce⟩ := ((hs e).2 i).1 hi
    rw [hb] at hc
    cases hc
    exact ⟨List.mem_of_getElem? hb, hce⟩
  · rintro ⟨hb, he⟩
    obtain ⟨i, hi⟩ := List.mem_iff_getElem?.1 hb
    exact ⟨i, ((hs e).2 i).2 ⟨b, hi, he⟩, hi⟩

omit [Field K] [LinearOrder K] in
theorem length_onEdge {l : List (Snax K)} {subs : Int → List Nat} (hs : ListsEdges l subs) (e : Int) : (onEdge l subs e).length = (subs e).length := by
  have : ∀ p : List Nat, (∀ i ∈ p, ∃ a, l[i]? = some a) → (p.filterMap (l[·]?)).length = p.length := by
    intro p
    induction p with
    | nil => intro _; rfl
    | cons i p ih =>
      intro h
      obtain ⟨a, ha⟩ := h i (by simp)
      rw [List.filterMap_cons_some ha, List.length_cons, List.length_cons, ih fun j hj => h j (by simp [hj])]
  exact this _ fun i hi => by
    obtain ⟨a, ha, -⟩ := ((hs e).2 i).1 hi
    exact ⟨a, ha⟩

omit [Field K] [LinearOrder K] in
theorem alone_iff {l : List (Snax K)} {subs : Int → List Nat} (hl : (l.map Snax.index).Nodup) (hs : ListsEdges l subs) {a : Snax K} (ha : a ∈ l) :
    (subs a.edgeind).length = 1 ↔ Alone l a := by
  obtain ⟨i, hi⟩ := List.mem_iff_getElem?.1 ha
  have him : i ∈ subs a.edgeind := ((hs a.edgeind).2 i).2 ⟨a, hi, rfl⟩
  constructor
  · intro h b hb he
    obtain ⟨k, hk⟩ := List.length_eq_one_iff.1 h
    obtain ⟨j, hj⟩ := List.mem_iff_getElem?.1 hb
    have hjm : j ∈ subs a.edgeind := ((hs a.edgeind).2 j).2 ⟨b, hj, he⟩
    rw [hk, List.mem_singleton] at him hjm
    rw [him] at hi
    rw [hjm, hi] at hj
    exact (Option.some.inj hj).symm
  · intro h
    have hall : ∀ j ∈ subs a.edgeind, j = i := by
      intro j hj
      obtain ⟨b, hb, he⟩ := ((hs a.edgeind).2 j).1 hj
      have := h b (List.mem_of_getElem? hb) he
      exact position_unique hl hb hi (by rw [this])
    have hnd := (hs a.edgeind).1
    revert him hall hnd
    generalize subs a.edgeind = p
    intro him hall hnd
    match p with
    | [] => simp at him
    | [x] => rfl
    | x :: y :: r =>
      have h1 := hall x (by simp)
      have h2 := hall y (by simp)
      simp [h1, h2] at hnd

theorem loop_mem {eps : K} {l : List (Snax K)} {subs : Int → List Nat} (hs : ListsEdges l subs) :
    ∀ (is : List Nat) (done : Nat → Bool), (∀ i ∈ is, i < l.length) →
    (∀ i j a b, l[i]? = some a → l[j]? = some b → a.edgeind = b.edgeind → done i = done j) →
    ∃ L, impactLoop eps l subs is done = .ok L ∧ ∀ p, p ∈ L ↔ ∃ i ∈ is, done i = false ∧ ∃ a, l[i]? = some a ∧ p ∈ block eps l subs a
  | [], _, _, _ => ⟨[], rfl, by simp⟩
  | i :: is, done, hi, hd => by
    have hi' : ∀ i ∈ is, i < l.length := fun j hj => hi j (by simp [hj])
    unfold impactLoop
    by_cases hc : done i = true
    · rw [if_pos hc]
      obtain ⟨L, h1, h2⟩ := loop_mem hs is done hi' hd
      refine ⟨L, h1, fun p => ?_⟩
      rw [h2]
      constructor
      · rintro ⟨j, hj, h⟩
        exact ⟨j, by simp [hj], h⟩
      · rintro ⟨j, hj, hdj, h⟩
        rcases List.mem_cons.1 hj with rfl | hj
        · rw [hc] at hdj; cases hdj
        · exact ⟨j, hj, hdj, h⟩
    · rw [if_neg hc]
      have hlt := hi i (by simp)
      have hget : l[i]? = some l[i] := List.getElem?_eq_getElem hlt
      rw [hget]
      simp only
      generalize l[i] = a at hget
      have hmem : i ∈ subs a.edgeind := (hs a.edgeind).2 i |>.mpr ⟨a, hget, rfl⟩
      have hd' : ∀ j k b c, l[j]? = some b → l[k]? = some c → b.edgeind = c.edgeind →
          (if j ∈ subs a.edgeind then true else done j) = (if k ∈ subs a.edgeind then true else done k) := by
        intro j k b c hb hcc he
        have : j ∈ subs a.edgeind ↔ k ∈ subs a.edgeind := by
          rw [(hs a.edgeind).2, (hs a.edgeind).2, hb, hcc]
          simp [he]
        simp only [this, hd j k b c hb hcc he]
      obtain ⟨L, h1, h2⟩ := loop_mem hs is _ hi' hd'
      have hrun : (if (subs a.edgeind).length = 1 then
            (impactLoop eps l subs is fun x => if x = i then true else done x).map (impactAlone eps a ++ ·)
          else if (subs a.edgeind).length > 1 then
            (impactLoop eps l subs is fun x => if x ∈ subs a.edgeind then true else done x).map
              (detectImpactOnEdge eps ((subs a.edgeind).filterMap (l[·]?)) ++ ·)
          else .error .throws) = .ok (block eps l subs a ++ L) := by
        unfold block
        by_cases hone : (subs a.edgeind).length = 1
        · rw [if_pos hone, if_pos hone]
          obtain ⟨j, hj⟩ := List.length_eq_one_iff.mp hone
          have hij : i = j := by rw [hj] at hmem; simpa using hmem
          have hfun : (fun x => if x = i then true else done x) = fun x => if x ∈ subs a.edgeind then true else done x := by
            funext x
            rw [hj, hij]
            simp
          rw [hfun, h1]
          rfl
        · have := List.length_pos_of_mem hmem
          rw [if_neg hone, if_neg hone, if_pos (by omega), h1]
          rfl
      refine ⟨block eps l subs a ++ L, hrun, fun p => ?_⟩
      rw [List.mem_append, h2]
      constructor
      · rintro (h | ⟨j, hj, hdj, h⟩)
        · exact ⟨i, by simp, by simpa using hc, a, hget, h⟩
        · refine ⟨j, by simp [hj], ?_, h⟩
          by_contra hh
          simp at hh
          simp [hh] at hdj
      · rintro ⟨j, hj, hdj, b, hb, h⟩
        by_cases hjs : j ∈ subs a.edgeind
        · left
          obtain ⟨b', hb', hbe⟩ := ((hs a.edgeind).2 j).1 hjs
          rw [hb] at hb'
          cases hb'
          unfold block at h ⊢
          rw [hbe] at h
          by_cases hone : (subs a.edgeind).length = 1
          · rw [if_pos hone] at h ⊢
            obtain ⟨k, hk⟩ := List.length_eq_one_iff.1 hone
            rw [hk, List.mem_singleton] at hjs hmem
            rw [hjs] at hb
            rw [hmem, hb] at hget
            cases hget
            exact h
          · rw [if_neg hone] at h ⊢
            exact h
        · right
          rcases List.mem_cons.1 hj with rfl | hj
          · exact absurd hmem hjs
          · exact ⟨j, hj, by simp [hjs, hdj], b, hb, h⟩

theorem detection_mem {eps : K} {l : List (Snax K)} {subs : Int → List Nat} (hs : ListsEdges l subs) :
    ∃ L, snaxImpactDetection eps l subs = .ok L ∧ ∀ p, p ∈ L ↔ ∃ a ∈ l, p ∈ block eps l subs a := by
  obtain ⟨L, h1, h2⟩ := loop_mem (eps := eps) hs (List.range l.length) (fun _ => false) (by simp) (by simp)
  refine ⟨L, h1, fun p => ?_⟩
  rw [h2]
  constructor
  · rintro ⟨i, -, -, a, ha, h⟩
    exact ⟨a, List.mem_of_getElem? ha, h⟩
  · rintro ⟨a, ha, h⟩
    obtain ⟨i, hi⟩ := List.mem_iff_getElem?.1 ha
    exact ⟨i, List.mem_range.2 (List.getElem?_eq_some_iff.1 hi).1, rfl, a, hi, h⟩

theorem mem_end {eps : K} {n : Nat} {a : Snax K} {p : Int × Int} (h : p ∈ impactEnd eps n a) : p.1 = a.index ∧ (p.2 = -1 ∨ p.2 = -2) := by
  unfold impactEnd at h
  split at h
  · simp at h; simp [h]
  · split at h
    · simp at h; simp [h]
    · simp at h

theorem mem_alone {eps : K} {a : Snax K} {p : Int × Int} (h : p ∈ impactAlone eps a) : p.1 = a.index ∧ (p.2 = -1 ∨ p.2 = -2) := by
  unfold impactAlone at h
  split at h
  · simp at h; simp [h]
  · split at h
    · simp at h; simp [h]
    · simp at h

variable [IsStrictOrderedRing K]

theorem mem_detect {eps : K} {l : List (Snax K)} {p : Int × Int} (h : p ∈ detectImpactOnEdge eps l) :
    (∃ a ∈ l, a.index = p.1) ∧ (p.2 = -1 ∨ p.2 = -2 ∨ ∃ a ∈ l, a.index = p.2) := by
  obtain ⟨i, j⟩ := p
  rw [detectImpactOnEdge, mem_detectImpactLoop] at h
  rcases h with ⟨a, b, hab, -, -, h | h⟩ | ⟨a, ha, h⟩
  · cases h
    exact ⟨⟨a, (pair_mem hab).1, rfl⟩, .inr (.inr ⟨b, (pair_mem hab).2, rfl⟩)⟩
  · cases h
    exact ⟨⟨b, (pair_mem hab).2, rfl⟩, .inr (.inr ⟨a, (pair_mem hab).1, rfl⟩)⟩
  · obtain ⟨h1, h2⟩ := mem_end h
    exact ⟨⟨a, ha, h1.symm⟩, h2.elim .inl fun h => .inr (.inl h)⟩

end RSVS.Detect
