import Mathlib.Tactic.Linarith
import Verif.Lemmas.CloseMerge
import Verif.Props.Hash
import Verif.Props.Mesh

/-!
# Properties of groups of close vertices: C92
-/

namespace RSVS.Props

open RSVS.Spec RSVS.Mesh

/-- `closeVert` as `GroupCloseVertices` and `GroupCloseSnaxels` return it, with its hash table in the order `t`. -/
def hashedGroups (lab : List Int) (t : Table) : HashedVector :=
  { (({ vec := lab, table := [], isHash := true } : HashedVector).generate) with table := t }

theorem hashedGroups_all {lab : List Int} {t : Table}
    (ht : t.Perm (({ vec := lab, table := [], isHash := true } : HashedVector).generate).table) (l : Int) :
    ((hashedGroups lab t).findAll l).Nodup ∧ ∀ p : Nat, p ∈ (hashedGroups lab t).findAll l ↔ lab[p]? = some l := by
  obtain ⟨h1, h2⟩ := (C06_after_generate { vec := lab, table := [], isHash := true } [] t ht l).2.1
  refine ⟨h1, fun p => ?_⟩
  have := h2 p
  simp only [id, exists_eq_right] at this
  exact this

/-- C92: two vertices get the same number exactly when they are joined by a path of short edges, and a vertex gets none exactly
when no short edge leaves it. -/
theorem C92_groups (m : Mesh) (tol : ℚ) (hm : Sound m) (h2 : TwoVerts m) (hs : InSpace m) :
    ∃ lab, groupCloseVertices m tol = .ok lab ∧ GroupNumbers m tol lab :=
  groupCloseVertices_ok hm h2 hs tol

/-- C92: merging leaves one vertex of each group, whatever the order of the hash table, and the mesh is sound. -/
theorem C92_merge (m : Mesh) (lab : List Int) (t : Table) (del : Bool) (hm : Sound m) (h2 : TwoVerts m) (hl : NoLoops m)
    (ho : ListedOnce m) (hlen : lab.length = m.verts.length)
    (ht : t.Perm (({ vec := lab, table := [], isHash := true } : HashedVector).generate).table) :
    ∃ (m' : Mesh) (gone : List Int) (into : Int → Int), mergeGrouped m lab (hashedGroups lab t).findAll del = .ok (m', gone) ∧
      GroupsMerged m m' lab into gone ∧ Sound m' ∧ TwoVerts m' ∧
      m'.verts.map Vert.index = (m.verts.map Vert.index).filter fun a => !del || decide (into a = a) :=
  mergeGrouped_ok hm h2 hl ho hlen (hashedGroups_all ht) del

/-- Merged vertices have the same number. -/
theorem merged_same {m m' : Mesh} {lab gone : List Int} {into : Int → Int} (hm : Sound m) (hlen : lab.length = m.verts.length)
    (h : GroupsMerged m m' lab into gone) {i j : Nat} {x y : Vert} (hx : m.verts[i]? = some x) (hy : m.verts[j]? = some y) :
    into x.index = into y.index ↔ i = j ∨ ∃ l, l ≠ -1 ∧ lab[i]? = some l ∧ lab[j]? = some l := by
  have hi : i < lab.length := by rw [hlen]; exact (List.getElem?_eq_some_iff.mp hx).1
  have hj : j < lab.length := by rw [hlen]; exact (List.getElem?_eq_some_iff.mp hy).1
  have ei : lab[i]? = some lab[i] := List.getElem?_eq_getElem hi
  have ej : lab[j]? = some lab[j] := List.getElem?_eq_getElem hj
  -- where a vertex goes: to one of its own number
  have go : ∀ (i : Nat) (x : Vert) (l : Int), m.verts[i]? = some x → lab[i]? = some l →
      ∃ (k : Nat) (z : Vert), m.verts[k]? = some z ∧ lab[k]? = some l ∧ into x.index = z.index ∧ (l = -1 → k = i) := by
    intro i x l hx hl
    by_cases h1 : l = -1
    · subst h1; exact ⟨i, x, hx, hl, h.kept i x hx hl, fun _ => rfl⟩
    · obtain ⟨k, z, hz, hk, e⟩ := h.member i x l hx hl h1
      exact ⟨k, z, hz, hk, e, fun h => absurd h h1⟩
  constructor
  · intro e
    obtain ⟨k, z, hz, hk, e1, e2⟩ := go i x _ hx ei
    obtain ⟨k', z', hz', hk', e1', e2'⟩ := go j y _ hy ej
    have hkk : k = k' := pos_unique hm hz hz' (by rw [← e1, ← e1', e])
    subst hkk
    have hll : lab[i] = lab[j] := by rw [hk] at hk'; exact Option.some.inj hk'
    by_cases h1 : lab[i] = -1
    · left; rw [← e2 h1, ← e2' (hll ▸ h1)]
    · right; exact ⟨lab[i], h1, ei, by rw [ej, hll]⟩
  · rintro (rfl | ⟨l, hl, h1, h3⟩)
    · rw [hx] at hy; cases hy; rfl
    · exact h.merged i j x y l hx hy h1 h3 hl

/-- C92: after `GroupCloseVertices` and `MergeGroupedVertices` two vertices are one exactly when a path of short edges joined
them. -/
theorem C92_close (m : Mesh) (tol : ℚ) (del : Bool) (hm : Sound m) (h2 : TwoVerts m) (hl : NoLoops m) (ho : ListedOnce m)
    (hs : InSpace m) : ∃ lab, groupCloseVertices m tol = .ok lab ∧
      ∀ t : Table, t.Perm (({ vec := lab, table := [], isHash := true } : HashedVector).generate).table →
      ∃ (m' : Mesh) (gone : List Int) (into : Int → Int), mergeGrouped m lab (hashedGroups lab t).findAll del = .ok (m', gone) ∧ Sound m' ∧ TwoVerts m' ∧
        (∀ a b, HasVert m a → HasVert m b → (into a = into b ↔ ShortPath m tol a b)) ∧
        (∀ a, HasVert m a → ShortPath m tol a (into a)) ∧
        (∀ a, a ∈ gone ↔ HasVert m a ∧ into a ≠ a) ∧
        (∀ e v, EdgeVert m' e v ↔ ∃ u, EdgeVert m e u ∧ into u = v) ∧
        (∀ e f, EdgeSurf m' e f ↔ EdgeSurf m e f) ∧ m'.surfs = m.surfs ∧ m'.volus = m.volus ∧
        (∀ a, HasVert m' a ↔ HasVert m a ∧ (del = true → into a = a)) := by
  obtain ⟨lab, h1, hg⟩ := C92_groups m tol hm h2 hs
  refine ⟨lab, h1, fun t ht => ?_⟩
  obtain ⟨m', gone, into, k1, k2, k3, k4, k5⟩ := C92_merge m lab t del hm h2 hl ho hg.length ht
  have same : ∀ a b, HasVert m a → HasVert m b → (into a = into b ↔ ShortPath m tol a b) := by
    rintro a b ⟨x, hx, rfl⟩ ⟨y, hy, rfl⟩
    obtain ⟨i, hi⟩ := List.mem_iff_getElem?.mp hx
    obtain ⟨j, hj⟩ := List.mem_iff_getElem?.mp hy
    have il : i < lab.length := by rw [hg.length]; exact (List.getElem?_eq_some_iff.mp hi).1
    have jl : j < lab.length := by rw [hg.length]; exact (List.getElem?_eq_some_iff.mp hj).1
    have ei : lab[i]? = some lab[i] := List.getElem?_eq_getElem il
    have ej : lab[j]? = some lab[j] := List.getElem?_eq_getElem jl
    rw [merged_same hm hg.length k2 hi hj]
    constructor
    · rintro (rfl | ⟨l, hl, h3, h4⟩)
      · rw [hi] at hj; cases hj; exact .refl
      · exact (hg.group i j x y l l hi hj h3 h4 hl).mp rfl
    · intro hp
      by_cases hn : lab[i] = -1
      · have hal := (hg.alone i x _ hi ei).mp hn
        rcases Relation.ReflTransGen.cases_head hp with h5 | ⟨c, h5, -⟩
        · left; exact pos_unique hm hi hj h5
        · exact absurd h5 (hal c)
      · right
        have := (hg.group i j x y _ _ hi hj ei ej hn).mpr hp
        exact ⟨lab[i], hn, ei, by rw [ej, this]⟩
  have stays : ∀ a, HasVert m a → HasVert m (into a) ∧ into (into a) = into a := by
    rintro a ⟨x, hx, rfl⟩
    obtain ⟨i, hi⟩ := List.mem_iff_getElem?.mp hx
    have il : i < lab.length := by rw [hg.length]; exact (List.getElem?_eq_some_iff.mp hi).1
    have ei : lab[i]? = some lab[i] := List.getElem?_eq_getElem il
    by_cases hn : lab[i] = -1
    · rw [hn] at ei
      have := k2.kept i x hi ei
      rw [this, this]
      exact ⟨⟨x, hx, rfl⟩, rfl⟩
    · obtain ⟨k, z, hz, hk, e⟩ := k2.member i x _ hi ei hn
      refine ⟨⟨z, List.mem_of_getElem? hz, e.symm⟩, ?_⟩
      rw [e, k2.merged k i z x _ hz hi hk ei hn, e]
  refine ⟨m', gone, into, k1, k3, k4, same, ?_, k2.gone, k2.edgeVert, k2.edgeSurf, k2.surfs, k2.volus, ?_⟩
  · intro a ha
    obtain ⟨h5, h6⟩ := stays a ha
    exact (same a _ ha h5).mp h6.symm
  · intro a
    have hv : ∀ (m : Mesh) (a : Int), HasVert m a ↔ a ∈ m.verts.map Vert.index := by
      intro m a; simp [HasVert]
    rw [hv, hv, k5, List.mem_filter]
    cases del <;> simp

/-- A square and a triangle on it; the vertices 1, 2 and 3 are close to each other, 4 and 5 are not. -/
def shortEdges : Mesh :=
  { verts := [{ index := 7, edgeind := [1, 4], coord := [0, 0, 0] }, { index := 2, edgeind := [1, 2], coord := [1/4, 0, 0] },
      { index := 3, edgeind := [2, 3, 5], coord := [1/2, 0, 0] }, { index := 4, edgeind := [3, 4, 6], coord := [1/2, 5, 0] },
      { index := 5, edgeind := [5, 6], coord := [9, 5, 0] }]
    edges := [{ index := 1, vertind := [7, 2], surfind := [1, 0] }, { index := 2, vertind := [2, 3], surfind := [1, 0] },
      { index := 3, vertind := [3, 4], surfind := [1, 2] }, { index := 4, vertind := [4, 7], surfind := [1, 0] },
      { index := 5, vertind := [3, 5], surfind := [2, 0] }, { index := 6, vertind := [5, 4], surfind := [2, 0] }]
    surfs := [{ index := 1, edgeind := [1, 2, 3, 4], voluind := [0, 0] }, { index := 2, edgeind := [3, 5, 6], voluind := [0, 0] }]
    volus := [] }

theorem shortEdges_ok : Sound shortEdges ∧ TwoVerts shortEdges ∧ NoLoops shortEdges ∧ ListedOnce shortEdges ∧
    InSpace shortEdges := by
  refine ⟨sound_of_checked (by decide +kernel), by unfold TwoVerts; decide +kernel, ?_, by unfold ListedOnce; decide +kernel,
    by unfold InSpace; decide +kernel⟩
  have h : ∀ e ∈ shortEdges.edges, e.vertind.Nodup := by decide +kernel
  intro e he x hx
  have := h e he
  rw [hx] at this
  simp at this

example : groupCloseVertices shortEdges (3/10) = .ok [1, 1, 1, -1, -1] := by decide +kernel

/-- The first vertex is joined to the third though they are further apart than the tolerance. -/
example : ∃ (lab : List Int) (m' : Mesh) (gone : List Int) (into : Int → Int),
    groupCloseVertices shortEdges (3/10) = .ok lab ∧ Sound m' ∧ into 7 = into 3 ∧ ¬ into 7 = into 4 ∧
    (∀ a, a ∈ gone ↔ HasVert shortEdges a ∧ into a ≠ a) ∧ ¬ Near shortEdges (3/10) 7 3 := by
  obtain ⟨h1, h2, h3, h4, h5⟩ := shortEdges_ok
  obtain ⟨lab, k1, k2⟩ := C92_close shortEdges (3/10) true h1 h2 h3 h4 h5
  obtain ⟨m', gone, into, -, k4, -, k6, -, k7, -⟩ := k2 _ (List.Perm.refl _)
  have v : HasVert shortEdges 7 ∧ HasVert shortEdges 3 ∧ HasVert shortEdges 4 := by unfold HasVert; decide +kernel
  obtain ⟨lab', e1, e2⟩ := C92_groups shortEdges (3/10) h1 h2 h5
  have e3 : groupCloseVertices shortEdges (3/10) = .ok [1, 1, 1, -1, -1] := by decide +kernel
  rw [e3] at e1
  cases e1
  refine ⟨lab, m', gone, into, k1, k4, ?_, ?_, k7, ?_⟩
  · rw [k6 _ _ v.1 v.2.1]
    exact (e2.group 0 2 _ _ 1 1 rfl rfl rfl rfl (by decide)).mp rfl
  · rw [k6 _ _ v.1 v.2.2]
    intro hc
    have := (e2.group 0 3 _ _ 1 (-1) rfl rfl rfl rfl (by decide)).mpr hc
    exact absurd this (by decide)
  · unfold Near; decide +kernel

variable {K : Type} [Field K] [LinearOrder K] [IsStrictOrderedRing K]

/-- C92: the number of a snaxel is the vertex it is close to. -/
theorem C92_snaxels (snaxs : List (Snax K)) (tol : K) (ht : 2 * tol ≤ 1)
    (hv : ∀ s ∈ snaxs, 1 ≤ s.fromvert ∧ 1 ≤ s.tovert) :
    (groupCloseSnaxels snaxs tol).length = snaxs.length ∧
    ∀ (i : Nat) (s : Snax K) (l : Int), snaxs[i]? = some s → (groupCloseSnaxels snaxs tol)[i]? = some l →
      (l = -1 ↔ ∀ v, ¬ CloseTo tol s.d s.fromvert s.tovert v) ∧
      ∀ v, v ≠ -1 → (l = v ↔ CloseTo tol s.d s.fromvert s.tovert v) := by
  refine ⟨by simp [groupCloseSnaxels], fun i s l hs hl => ?_⟩
  obtain ⟨h1, h2⟩ := hv s (List.mem_of_getElem? hs)
  simp only [groupCloseSnaxels, List.getElem?_map, hs, Option.map_some, Option.some.injEq] at hl
  unfold CloseTo
  by_cases c1 : s.d < tol
  · rw [if_pos c1] at hl
    have c2 : ¬ 1 - s.d < tol := by intro h; linarith
    subst hl
    refine ⟨⟨fun h => by omega, fun h => absurd ⟨c1, rfl⟩ (fun hc => h s.fromvert (.inl hc))⟩, fun v _ => ?_⟩
    simp only [c1, c2, true_and, false_and, or_false]
    exact eq_comm
  · rw [if_neg c1] at hl
    by_cases c2 : 1 - s.d < tol
    · rw [if_pos c2] at hl
      subst hl
      refine ⟨⟨fun h => by omega, fun h => absurd ⟨c2, rfl⟩ (fun hc => h s.tovert (.inr hc))⟩, fun v _ => ?_⟩
      simp only [c1, c2, true_and, false_and, false_or]
      exact eq_comm
    · rw [if_neg c2] at hl
      subst hl
      simp only [c1, c2, false_and, or_self, not_false_eq_true, implies_true, true_and, iff_false]
      exact fun v hv h => hv h.symm

/-- C92: `GroupCloseSnaxels` and `MergeGroupedVertices` make one of the snaxels that are close to the same vertex, and of
no others. -/
theorem C92_snake (snaxs : List (Snax K)) (conn : Mesh) (tol : K) (t : Table) (del : Bool) (ht : 2 * tol ≤ 1)
    (hv : ∀ s ∈ snaxs, 1 ≤ s.fromvert ∧ 1 ≤ s.tovert) (hstep : snaxs.map Snax.index = conn.verts.map Vert.index)
    (hm : Sound conn) (h2 : TwoVerts conn) (hl : NoLoops conn) (ho : ListedOnce conn)
    (hp : t.Perm (({ vec := groupCloseSnaxels snaxs tol, table := [], isHash := true } : HashedVector).generate).table) :
    ∃ (m' : Mesh) (gone : List Int) (into : Int → Int), mergeGrouped conn (groupCloseSnaxels snaxs tol) (hashedGroups (groupCloseSnaxels snaxs tol) t).findAll del =
        .ok (m', gone) ∧ Sound m' ∧ TwoVerts m' ∧ (∀ a, a ∈ gone ↔ HasVert conn a ∧ into a ≠ a) ∧
      (∀ e v, EdgeVert m' e v ↔ ∃ u, EdgeVert conn e u ∧ into u = v) ∧
      (∀ a, HasVert m' a ↔ HasVert conn a ∧ (del = true → into a = a)) ∧
      ∀ s ∈ snaxs, ∀ r ∈ snaxs, (into s.index = into r.index ↔ s.index = r.index ∨
        ∃ v, CloseTo tol s.d s.fromvert s.tovert v ∧ CloseTo tol r.d r.fromvert r.tovert v) := by
  obtain ⟨e1, e2⟩ := C92_snaxels snaxs tol ht hv
  have hll : snaxs.length = conn.verts.length := by simpa using congrArg List.length hstep
  obtain ⟨m', gone, into, k1, k2, k3, k4, k5⟩ := C92_merge conn (groupCloseSnaxels snaxs tol) t del hm h2 hl ho
    (e1.trans hll) hp
  refine ⟨m', gone, into, k1, k3, k4, k2.gone, k2.edgeVert, ?_, ?_⟩
  · intro a
    have hv : ∀ (m : Mesh) (a : Int), HasVert m a ↔ a ∈ m.verts.map Vert.index := by
      intro m a; simp [HasVert]
    rw [hv, hv, k5, List.mem_filter]
    cases del <;> simp
  · intro s hs r hr
    obtain ⟨i, hi⟩ := List.mem_iff_getElem?.mp hs
    obtain ⟨j, hj⟩ := List.mem_iff_getElem?.mp hr
    have pick : ∀ (i : Nat) (s : Snax K), snaxs[i]? = some s → ∃ x, conn.verts[i]? = some x ∧ x.index = s.index := by
      intro i s hs
      have : (snaxs.map Snax.index)[i]? = (conn.verts.map Vert.index)[i]? := by rw [hstep]
      rw [List.getElem?_map, List.getElem?_map, hs] at this
      simp only [Option.map_some] at this
      obtain ⟨x, hx, e⟩ := Option.map_eq_some_iff.mp this.symm
      exact ⟨x, hx, e⟩
    obtain ⟨x, hx, ex⟩ := pick i s hi
    obtain ⟨y, hy, ey⟩ := pick j r hj
    rw [← ex, ← ey, merged_same hm (e1.trans hll) k2 hx hy]
    have il : i < (groupCloseSnaxels snaxs tol).length := by rw [e1]; exact (List.getElem?_eq_some_iff.mp hi).1
    have jl : j < (groupCloseSnaxels snaxs tol).length := by rw [e1]; exact (List.getElem?_eq_some_iff.mp hj).1
    have ei : (groupCloseSnaxels snaxs tol)[i]? = some _ := List.getElem?_eq_getElem il
    have ej : (groupCloseSnaxels snaxs tol)[j]? = some _ := List.getElem?_eq_getElem jl
    have pos : ∀ s ∈ snaxs, ∀ v, CloseTo tol s.d s.fromvert s.tovert v → v ≠ -1 := by
      rintro s hs v hc rfl
      obtain ⟨h5, h6⟩ := hv s hs
      rcases hc with ⟨-, h⟩ | ⟨-, h⟩ <;> omega
    constructor
    · rintro (rfl | ⟨l, hl, h3, h4⟩)
      · left; rw [hx] at hy; cases hy; rfl
      · right
        exact ⟨l, ((e2 i s l hi h3).2 l hl).mp rfl, ((e2 j r l hj h4).2 l hl).mp rfl⟩
    · rintro (h5 | ⟨v, h5, h6⟩)
      · left; exact pos_unique hm hx hy h5
      · right
        have hv1 := pos s hs v h5
        have g1 := ((e2 i s _ hi ei).2 v hv1).mpr h5
        have g2 := ((e2 j r _ hj ej).2 v hv1).mpr h6
        exact ⟨v, hv1, by rw [ei, g1], by rw [ej, g2]⟩

/-- Three snaxels of which two are close to vertex 4. -/
example : groupCloseSnaxels ([{ index := 1, d := 1/100, v := 0, fromvert := 4, tovert := 1, edgeind := 4, orderedge := 1 },
    { index := 2, d := 99/100, v := 0, fromvert := 2, tovert := 4, edgeind := 5, orderedge := 1 },
    { index := 3, d := 1/2, v := 0, fromvert := 4, tovert := 3, edgeind := 6, orderedge := 1 }] : List (Snax ℚ)) (1/10) =
    [4, 4, -1] := by decide +kernel

end RSVS.Props
