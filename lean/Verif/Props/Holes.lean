import Verif.Lemmas.Holes
import Verif.Props.Close

/-!
# Properties of points in holes: C93
-/

namespace RSVS.Props

open RSVS.Spec RSVS.Mesh RSVS.Holes

/-- The hashed vector reports its elements. -/
theorem hashedGroups_reports {lab : List Int} {t : Table}
    (ht : t.Perm (({ vec := lab, table := [], isHash := true } : HashedVector).generate).table) :
    Reports (hashedGroups lab t) lab := by
  intro v
  have h := (C06_after_generate { vec := lab, table := [], isHash := true } [] t ht v).1
  have e : (hashedGroups lab t).find v = ({ (({ vec := lab, table := [], isHash := true } : HashedVector).generate) with
    table := t } : HashedVector).find v := rfl
  rw [e]
  rcases h with ⟨h1, h2⟩ | ⟨p, h1, x, h2, h3⟩
  · refine ⟨fun _ hv => h2 v hv rfl, fun _ => h1⟩
  · constructor
    · intro h4
      have : (p : Int) = -1 := h1.symm.trans h4
      omega
    · intro hv
      have : x ∈ lab := List.mem_of_getElem? h2
      exact absurd (h3 ▸ this) hv

/-- C93, full statement about the search from one vertex. -/
def C93_statement : Prop :=
  ∀ (m : Mesh) (vertIn : List Bool) (lab : List Int) (t : Table) (v : Int), Sound m → TwoVerts m →
    vertIn.length = m.verts.length → HasVert m v →
    t.Perm (({ vec := lab, table := [], isHash := true } : HashedVector).generate).table →
    ∃ r ex, findVertexHole m vertIn (hashedGroups lab t) v (List.replicate m.verts.length false) = .ok (r, ex) ∧
      GoodHole m vertIn lab v r

/-- C93 (partial): the search ends; it throws only from an uncertain vertex, gives -1 or a vertex that is inside and certain,
and is right from a certain vertex. -/
theorem C93_search_partial (m : Mesh) (vertIn : List Bool) (lab : List Int) (t : Table) (v : Int) (hm : Sound m)
    (hl : vertIn.length = m.verts.length) (hv : HasVert m v)
    (ht : t.Perm (({ vec := lab, table := [], isHash := true } : HashedVector).generate).table) :
    (findVertexHole m vertIn (hashedGroups lab t) v (List.replicate m.verts.length false) = .error .throws ∧ v ∈ lab) ∨
    ∃ r ex, findVertexHole m vertIn (hashedGroups lab t) v (List.replicate m.verts.length false) = .ok (r, ex) ∧
      (r = -1 ∨ SureIn m vertIn lab r) ∧ (v ∉ lab → GoodHole m vertIn lab v r) := by
  have h := holeSearch_ok hm (hashedGroups_reports ht) hl (m.verts.length + 1) [v] 0 (List.replicate m.verts.length false)
    (by intro w hw; rw [List.mem_singleton.mp hw]; exact hv) (by simp) (by simp)
  have hfresh : ∀ w, ¬ VertIn m (List.replicate m.verts.length false) w := by
    rintro w ⟨i, x, -, -, h⟩
    simp [List.getElem?_replicate] at h
  rcases h with ⟨h1, w, hw, hw'⟩ | ⟨⟨r, ex⟩, h1, st⟩
  · left; rw [List.mem_singleton.mp hw] at hw'; exact ⟨h1, hw'⟩
  · refine .inr ⟨r, ex, h1, ?_, fun hno => ?_⟩
    · by_cases hr : r = -1
      · exact .inl hr
      · exact .inr (st.found hr).1
    · rcases st.home (by intro w hw; rw [List.mem_singleton.mp hw]; exact hno) with h2 | h2
      · refine .inr ⟨h2, fun w hw hp => ?_⟩
        have hvin : VertIn m vertIn v := by
          rcases Relation.ReflTransGen.cases_head hp with h3 | ⟨c, h3, -⟩
          · rw [h3]; exact hw.1
          · exact h3.1
        rcases st.new v ⟨hvin, hno⟩ (st.tried h2 v (by simp) hvin) with h3 | h3
        · exact hfresh v h3
        · exact sure_ne hm hvin (h3.trans h2)
      · have hrv : r = v := List.mem_singleton.mp h2
        have hr : r ≠ -1 := by
          have := hm.pos.verts v hv
          omega
        exact .inl ⟨(st.found hr).1, by rw [hrv]⟩

/-- Two edges apart. -/
def apartEdges : Mesh :=
  { verts := [{ index := 1, edgeind := [1], coord := [0, 0, 0] }, { index := 2, edgeind := [1], coord := [1, 0, 0] },
      { index := 3, edgeind := [2], coord := [0, 5, 0] }, { index := 4, edgeind := [2], coord := [1, 5, 0] }]
    edges := [{ index := 1, vertind := [1, 2], surfind := [] }, { index := 2, vertind := [3, 4], surfind := [] }]
    surfs := [], volus := [] }

theorem apartEdges_ok : Sound apartEdges ∧ TwoVerts apartEdges :=
  ⟨sound_of_checked (by decide +kernel), by unfold TwoVerts; decide +kernel⟩

theorem apartEdges_stays {a : Int} (ha : a = 1 ∨ a = 2) {vi : List Bool} {b : Int} (h : Relation.ReflTransGen (StepIn apartEdges vi) a b) :
    b = 1 ∨ b = 2 := by
  induction h with
  | refl => exact ha
  | tail _ h ih =>
    obtain ⟨-, -, e, he, hv⟩ := h
    have hc : ∀ e ∈ apartEdges.edges, e.vertind = [1, 2] ∨ e.vertind = [3, 4] := by decide +kernel
    rcases hc e he with h1 | h1 <;> rw [h1] at hv <;> simp at hv <;> omega

/-- C93 violated: the indices of the edges of an uncertain vertex are used as their positions, so that the search goes on at
other edges.  It then gives a vertex that is not joined to the first one, none though a neighbour is inside and certain, or
throws. -/
theorem C93_violated : ¬ C93_statement ∧ ∃ (m : Mesh) (v : Int), Sound m ∧ TwoVerts m ∧ HasVert m v ∧
    (∃ vertIn ex, findVertexHole m vertIn (hashedGroups [v] [(v, 0)]) v (List.replicate m.verts.length false) = .ok (3, ex) ∧
      ¬ Relation.ReflTransGen (StepIn m vertIn) v 3) ∧
    (∃ vertIn ex, findVertexHole m vertIn (hashedGroups [v] [(v, 0)]) v (List.replicate m.verts.length false) = .ok (-1, ex) ∧
      ∃ w, SureIn m vertIn [v] w ∧ StepIn m vertIn v w) ∧
    ∃ w, HasVert m w ∧ findVertexHole m [true, true, true, true] (hashedGroups [w] [(w, 0)]) w
      (List.replicate m.verts.length false) = .error .throws := by
  have key : ∃ ex, findVertexHole apartEdges [true, false, true, false] (hashedGroups [1] [(1, 0)]) 1
      (List.replicate apartEdges.verts.length false) = .ok (3, ex) := ⟨[true, false, true, false], by decide +kernel⟩
  have far : ¬ Relation.ReflTransGen (StepIn apartEdges [true, false, true, false]) 1 3 := fun h => by
    rcases apartEdges_stays (.inl rfl) h with h | h <;> omega
  constructor
  · intro H
    obtain ⟨ex, hk⟩ := key
    obtain ⟨r, ex', h1, h2⟩ := H apartEdges [true, false, true, false] [1] [(1, 0)] 1 apartEdges_ok.1 apartEdges_ok.2 rfl
      (by unfold HasVert; decide +kernel) (by decide +kernel)
    rw [hk] at h1
    cases h1
    rcases h2 with ⟨-, h2⟩ | ⟨h2, -⟩
    · exact far h2
    · omega
  · obtain ⟨ex, hk⟩ := key
    refine ⟨apartEdges, 1, apartEdges_ok.1, apartEdges_ok.2, by unfold HasVert; decide +kernel, ⟨_, ex, hk, far⟩,
      ⟨[true, true, false, false], [true, false, false, false], by decide +kernel, 2, ⟨⟨1, _, rfl, rfl, rfl⟩, by decide⟩,
        ⟨0, _, rfl, rfl, rfl⟩, ⟨1, _, rfl, rfl, rfl⟩, _, List.mem_cons_self, .inl rfl⟩, 3, by unfold HasVert; decide +kernel,
      by decide +kernel⟩

variable {K : Type}

/-- C93 (partial): the points that are given are different vertices, inside and certain, at most one for each volume of the
snake; a volume is left without one only if the certain vertices that its snaxels come from are points already.  Without
uncertain vertices among those nothing is thrown and the point of a volume is one of them. -/
theorem C93_holes_partial (s : Snake K) (m : Mesh) (lab : List Int) (t : Table) (hm : Sound m) (hc : Sound s.conn)
    (h2 : TwoVerts s.conn) (hs : InStep s) (hl : s.vertIn.length = m.verts.length) (hf : s.flipped = false)
    (hfr : ∀ x ∈ s.snaxs, HasVert m x.fromvert) (he : ∀ f ∈ s.conn.surfs, f.edgeind ≠ [])
    (hv : ∀ c ∈ s.conn.volus, c.surfind ≠ [])
    (ht : t.Perm (({ vec := lab, table := [], isHash := true } : HashedVector).generate).table) :
    (findHoles s m (hashedGroups lab t) = .error .throws ∧ ∃ x ∈ s.snaxs, x.fromvert ∈ lab) ∨
    ∃ (holes : List Int) (at_ : List (Volu × Option Int)), findHoles s m (hashedGroups lab t) = .ok holes ∧
      holes = at_.filterMap Prod.snd ∧ at_.map Prod.fst = s.conn.volus ∧ holes.Nodup ∧
      (∀ v ∈ holes, v ∉ lab ∧ ∃ (i : Nat) (x : Vert), m.verts[i]? = some x ∧ x.index = v ∧ InsideAt s i) ∧
      (∀ p ∈ at_, p.2 = none → ∀ v, ComesFrom s p.1 v → SureIn m s.vertIn lab v → v ∈ holes) ∧
      (∀ p ∈ at_, ∀ v, p.2 = some v → (∀ w, ComesFrom s p.1 w → w ∉ lab) → ComesFrom s p.1 v) := by
  have h : HoleSnake s m := ⟨hm, hc, h2, hs.verts, hl, hfr, he, hv⟩
  have inv0 : HolesOf s m lab [] [] (List.replicate s.vertIn.length false) := by
    refine ⟨rfl, by simp [hl], by simp, by simp, ?_, by simp, by simp⟩
    rintro v - ⟨i, x, -, -, h⟩
    simp [List.getElem?_replicate] at h
  unfold findHoles
  rcases findHoles_loop h (hashedGroups_reports ht) s.conn.volus [] [] (-1) _ (fun _ h => h) inv0 with
    ⟨h1, c, -, v, ⟨x, ⟨hx, -⟩, rfl⟩, hv'⟩ | ⟨done, holes, i, ex, h1, h2, h3⟩
  · left; rw [h1]; exact ⟨rfl, x, hx, hv'⟩
  · right
    rw [h1]
    rw [List.nil_append] at h2
    refine ⟨holes, done, rfl, h2.list, h3, h2.nodup, fun v hv => ?_, h2.none, h2.home⟩
    obtain ⟨⟨⟨i, x, hx, e, hin⟩, hno⟩, -⟩ := h2.sure v hv
    exact ⟨hno, i, x, hx, e, true, hin, by rw [hf]; rfl⟩

/-- The tetrahedron as a snake: its snaxels come from the vertex 1 of a mesh and one of them from the vertex 2. -/
def holed : Snake ℚ :=
  { snaxs := tetra.verts.map (fun v => ⟨v.index, 1 / 2, 0, if v.index = 1 then 2 else 1, 3, 1, 1⟩)
    snaxedges := tetra.edges.map (fun e => ⟨e.index, 1⟩), snaxsurfs := tetra.surfs.map (fun f => ⟨f.index, 1⟩), conn := tetra
    base := 0, vertIn := [true, true, false, false], flipped := false }

theorem holed_ok : Sound holed.conn ∧ TwoVerts holed.conn ∧ InStep holed ∧ holed.vertIn.length = apartEdges.verts.length ∧
    (∀ x ∈ holed.snaxs, HasVert apartEdges x.fromvert) ∧ (∀ f ∈ holed.conn.surfs, f.edgeind ≠ []) ∧
    ∀ c ∈ holed.conn.volus, c.surfind ≠ [] :=
  ⟨tetra_sound, by unfold TwoVerts; decide +kernel, ⟨by decide +kernel, by decide +kernel, by decide +kernel⟩, by decide +kernel,
    by unfold HasVert; decide +kernel, by decide +kernel, by decide +kernel⟩

/-- With the vertex 2 uncertain, the point is the vertex 1. -/
example : findHoles holed apartEdges (hashedGroups [2, -1] [(2, 0), (-1, 1)]) = .ok [1] := by decide +kernel

example : ∃ holes, findHoles holed apartEdges (hashedGroups [4, -1] [(4, 0), (-1, 1)]) = .ok holes ∧ holes.Nodup := by
  obtain ⟨h1, h2, h3, h4, h5, h6, h7⟩ := holed_ok
  rcases C93_holes_partial holed apartEdges [4, -1] [(4, 0), (-1, 1)] apartEdges_ok.1 h1 h2 h3 h4 rfl h5 h6 h7 (by decide +kernel) with
    ⟨-, h⟩ | ⟨holes, -, h, -, -, h', -⟩
  · exact absurd h (by decide +kernel)
  · exact ⟨holes, h, h'⟩

end RSVS.Props
