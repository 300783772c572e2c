import Mathlib.Tactic.Ring
import Mathlib.Tactic.Linarith
import Verif.Lemmas.Mesh
import Verif.Lemmas.MeshDetach
import Verif.Spec.EdgeLength

/-!
# Lemmas about stored lengths
-/

namespace RSVS.Lengths

open RSVS.Mesh RSVS.Spec RSVS.Geo

variable {K : Type} [Field K] [LinearOrder K] [IsStrictOrderedRing K] {root : K → K} {m m' : LMesh K}

omit [LinearOrder K] [IsStrictOrderedRing K] in
theorem sumSquares_eq (dim : Nat) (a b : P3 K) :
    sumSquares dim a b = ∑ i : Fin 3, if i.val < dim then (a i - b i) ^ 2 else 0 := by
  have h3 : List.finRange 3 = [0, 1, 2] := by decide
  unfold sumSquares
  rw [h3, Fin.sum_univ_three]
  by_cases h0 : 0 < dim <;> by_cases h1 : 1 < dim <;> by_cases h2 : 2 < dim <;>
    simp [h0, h1, h2]

/-- An edge without its length. -/
def bare (e : LEdge K) : Int × Int × Int × Bool := (e.index, e.v0, e.v1, e.isBorder)

/-- The same mesh but for lengths. -/
structure SameBare (m m' : LMesh K) : Prop where
  verts : m'.verts.map (fun v => (v.index, v.edgeind)) = m.verts.map (fun v => (v.index, v.edgeind))
  edges : m'.edges.map bare = m.edges.map bare
  dim : m'.dim = m.dim

omit [Field K] [LinearOrder K] [IsStrictOrderedRing K] in
theorem SameBare.linked (h : SameBare m m') (hl : LinkedMesh m) : LinkedMesh m' := by
  have hvi : m'.verts.map LVert.index = m.verts.map LVert.index := by
    have := congrArg (List.map Prod.fst) h.verts
    simpa [Function.comp_def] using this
  have hei : m'.edges.map LEdge.index = m.edges.map LEdge.index := by
    have := congrArg (List.map Prod.fst) h.edges
    simpa [Function.comp_def, bare] using this
  have hv : ∀ x ∈ m'.verts, ∃ y ∈ m.verts, y.index = x.index ∧ y.edgeind = x.edgeind := by
    intro x hx
    have : (x.index, x.edgeind) ∈ m'.verts.map (fun v => (v.index, v.edgeind)) := List.mem_map.mpr ⟨x, hx, rfl⟩
    rw [h.verts] at this
    obtain ⟨y, hy, e⟩ := List.mem_map.mp this
    simp only [Prod.mk.injEq] at e
    exact ⟨y, hy, e⟩
  have hv' : ∀ x ∈ m.verts, ∃ y ∈ m'.verts, y.index = x.index ∧ y.edgeind = x.edgeind := by
    intro x hx
    have : (x.index, x.edgeind) ∈ m.verts.map (fun v => (v.index, v.edgeind)) := List.mem_map.mpr ⟨x, hx, rfl⟩
    rw [← h.verts] at this
    obtain ⟨y, hy, e⟩ := List.mem_map.mp this
    simp only [Prod.mk.injEq] at e
    exact ⟨y, hy, e⟩
  have he : ∀ x ∈ m'.edges, ∃ y ∈ m.edges, bare y = bare x := by
    intro x hx
    have : bare x ∈ m'.edges.map bare := List.mem_map.mpr ⟨x, hx, rfl⟩
    rw [h.edges] at this
    exact List.mem_map.mp this
  have he' : ∀ x ∈ m.edges, ∃ y ∈ m'.edges, bare y = bare x := by
    intro x hx
    have : bare x ∈ m.edges.map bare := List.mem_map.mpr ⟨x, hx, rfl⟩
    rw [← h.edges] at this
    exact List.mem_map.mp this
  refine ⟨by rw [hvi]; exact hl.verts, by rw [hei]; exact hl.edges, fun e hm => ?_, fun v hm i hi => ?_⟩
  · obtain ⟨y, hy, ey⟩ := he e hm
    simp only [bare, Prod.mk.injEq] at ey
    obtain ⟨⟨a, ha, a1, a2⟩, ⟨b, hb, b1, b2⟩⟩ := hl.ends y hy
    obtain ⟨a', ha', a3, a4⟩ := hv' a ha
    obtain ⟨b', hb', b3, b4⟩ := hv' b hb
    exact ⟨⟨a', ha', by rw [a3, a1, ey.2.1], by rw [a4, ← ey.1]; exact a2⟩, ⟨b', hb', by rw [b3, b1, ey.2.2.1], by
      rw [b4, ← ey.1]; exact b2⟩⟩
  · obtain ⟨y, hy, y1, y2⟩ := hv v hm
    obtain ⟨e, hm', e1⟩ := hl.has y hy i (by rw [y2]; exact hi)
    obtain ⟨e', hm'', e2⟩ := he' e hm'
    simp only [bare, Prod.mk.injEq] at e2
    exact ⟨e', hm'', by rw [e2.1, e1]⟩

omit [Field K] [LinearOrder K] [IsStrictOrderedRing K] in
theorem SameBare.trans {m'' : LMesh K} (h : SameBare m m') (h' : SameBare m' m'') : SameBare m m'' :=
  ⟨h'.verts.trans h.verts, h'.edges.trans h.edges, h'.dim.trans h.dim⟩

omit [Field K] [LinearOrder K] [IsStrictOrderedRing K] in
theorem SameBare.refl (m : LMesh K) : SameBare m m := ⟨rfl, rfl, rfl⟩

omit [LinearOrder K] [IsStrictOrderedRing K] in
theorem lengthSquared_ok (hl : LinkedMesh m) {e : LEdge K} (he : e ∈ m.edges) :
    ∃ x, lengthSquared m e = .ok x ∧ LengthOf root m e.v0 e.v1 (root x) := by
  obtain ⟨⟨a, ha, a1, -⟩, ⟨b, hb, b1, -⟩⟩ := hl.ends e he
  obtain ⟨a', h1, h2, h3⟩ := elemAt_posOf_ok (ix := LVert.index) ⟨a, ha, a1⟩
  obtain ⟨b', h4, h5, h6⟩ := elemAt_posOf_ok (ix := LVert.index) ⟨b, hb, b1⟩
  refine ⟨sumSquares m.dim a'.coord b'.coord, ?_, a', h2, b', h5, h3, h6, by rw [sumSquares_eq]⟩
  unfold lengthSquared isearch
  rw [h1]
  simp only [Except.bind]
  rw [h4]
  rfl

omit [IsStrictOrderedRing K] in
/-- `edge::Length` gives the length of the edge. -/
theorem length_ok (hl : LinkedMesh m) (hc : Current root m) {e : LEdge K} (he : e ∈ m.edges) :
    ∃ l, length root m e = .ok l ∧ LengthOf root m e.v0 e.v1 l := by
  unfold length
  by_cases h : 0 ≤ e.length
  · rw [if_pos h]; exact ⟨_, rfl, hc e he h⟩
  · rw [if_neg h]
    obtain ⟨x, h1, h2⟩ := lengthSquared_ok (root := root) hl he
    rw [h1]; exact ⟨_, rfl, h2⟩

omit [IsStrictOrderedRing K] in
theorem setLengths_map (hl : LinkedMesh m) (hc : Current root m) (hr : ∀ x, 0 ≤ root x) : ∀ (l : List (LEdge K)), (∀ e ∈ l, e ∈ m.edges) →
    ∃ es, l.mapM (m := Except Fault) (setLength root m) = .ok es ∧ es.map bare = l.map bare ∧
      ∀ e ∈ es, 0 ≤ e.length ∧ LengthOf root m e.v0 e.v1 e.length
  | [], _ => ⟨[], rfl, rfl, by simp⟩
  | e :: l, hm => by
    obtain ⟨es, h1, h2, h3⟩ := setLengths_map hl hc hr l (fun e h => hm e (by simp [h]))
    have hone : ∃ e', setLength root m e = .ok e' ∧ bare e' = bare e ∧ 0 ≤ e'.length ∧ LengthOf root m e'.v0 e'.v1 e'.length := by
      unfold setLength
      by_cases h : 0 ≤ e.length
      · rw [if_pos h]; exact ⟨e, rfl, rfl, h, hc e (hm e (by simp)) h⟩
      · rw [if_neg h]
        obtain ⟨x, k1, k2⟩ := lengthSquared_ok (root := root) hl (hm e (by simp))
        unfold length
        rw [if_neg h, k1]
        exact ⟨{ e with length := root x }, rfl, rfl, hr x, k2⟩
    obtain ⟨e', k1, k2, k3⟩ := hone
    refine ⟨e' :: es, ?_, by simp [k2, h2], ?_⟩
    · rw [List.mapM_cons, k1, h1]; rfl
    · intro x hx
      rcases List.mem_cons.mp hx with rfl | hx
      · exact k3
      · exact h3 x hx

omit [IsStrictOrderedRing K] in
theorem setEdgeLengths_ok (hl : LinkedMesh m) (hc : Current root m) (hr : ∀ x, 0 ≤ root x) :
    ∃ m', setEdgeLengths root m = .ok m' ∧ SameBare m m' ∧ m'.verts = m.verts ∧ Current root m' ∧ Flagged m' ∧ m'.lengthsSet = true := by
  obtain ⟨es, h1, h2, h3⟩ := setLengths_map hl hc hr m.edges (fun _ h => h)
  refine ⟨{ m with edges := es, lengthsSet := true }, ?_, ⟨rfl, h2, rfl⟩, rfl, fun e he _ => (h3 e he).2, fun _ e he => (h3 e he).1, rfl⟩
  unfold setEdgeLengths
  rw [h1]; rfl

omit [LinearOrder K] [IsStrictOrderedRing K] in
theorem invalidate_ok (hn : (m.edges.map LEdge.index).Nodup) {i : Int} (h : ∃ e ∈ m.edges, e.index = i) :
    invalidate m i = .ok { m with
      edges := m.edges.map (fun x => if x.index = i then { x with length := -1 } else x), lengthsSet := false } := by
  have h1 := modAt_posOf (ix := LEdge.index) hn h (fun x : LEdge K => { x with length := -1 })
  obtain ⟨p, h2, h3, -⟩ := posOf_mem h
  unfold invalidate
  rw [h2] at h1 ⊢
  unfold modAt at h1
  rw [if_neg (by omega)] at h1
  simp only [Int.toNat_natCast, h3, if_true] at h1
  rw [if_neg (by omega)]
  simp only [Int.toNat_natCast]
  rw [Except.ok.inj h1]

omit [LinearOrder K] [IsStrictOrderedRing K] in
theorem invalidate_all : ∀ (l : List Int) (m : LMesh K), (m.edges.map LEdge.index).Nodup → (∀ i ∈ l, ∃ e ∈ m.edges, e.index = i) →
    ∃ m', l.foldlM (m := Except Fault) invalidate m = .ok m' ∧
      m'.edges = m.edges.map (fun x => if x.index ∈ l then { x with length := -1 } else x) ∧ m'.verts = m.verts ∧ m'.dim = m.dim
  | [], m, _, _ => ⟨m, rfl, by simp, rfl, rfl⟩
  | i :: l, m, hn, h => by
    rw [List.foldlM_cons, invalidate_ok hn (h i (by simp))]
    have hidx : (m.edges.map (fun x => if x.index = i then ({ x with length := -1 } : LEdge K) else x)).map LEdge.index =
        m.edges.map LEdge.index := by
      rw [List.map_map]
      apply List.map_congr_left
      intro x _
      simp only [Function.comp]
      split <;> rfl
    obtain ⟨m', k1, k2, k3, k4⟩ := invalidate_all l { m with
      edges := m.edges.map (fun x => if x.index = i then { x with length := -1 } else x), lengthsSet := false }
      (by rw [hidx]; exact hn) (by
        intro j hj
        obtain ⟨e, he, ej⟩ := h j (by simp [hj])
        refine ⟨if e.index = i then { e with length := -1 } else e, List.mem_map.mpr ⟨e, he, rfl⟩, ?_⟩
        split <;> exact ej)
    refine ⟨m', k1, ?_, k3, k4⟩
    rw [k2, List.map_map]
    apply List.map_congr_left
    intro x _
    by_cases h1 : x.index = i
    · by_cases h2 : i ∈ l <;> simp [h1, h2]
    · by_cases h2 : x.index ∈ l <;> simp [h1, h2]

theorem moveVert_ok (hl : LinkedMesh m) (hc : Current root m) {mv : Nat × P3 K} (hmv : mv.1 < m.verts.length) :
    ∃ m', moveVert m mv = .ok m' ∧ SameBare m m' ∧ Current root m' ∧
      m'.verts.map LVert.coord = (m.verts.map LVert.coord).set mv.1 mv.2 := by
  unfold moveVert
  have hg : m.verts[mv.1]? = some m.verts[mv.1] := List.getElem?_eq_getElem hmv
  have hvg : vecGet m.verts (mv.1 : Int) = .ok m.verts[mv.1] := by
    unfold vecGet
    rw [if_neg (by omega)]
    simp [hg]
  rw [hvg]
  simp only [Except.bind]
  obtain ⟨m', k1, k2, k3, k4⟩ := invalidate_all (m.verts[mv.1]).edgeind
    { m with verts := m.verts.modify mv.1 (fun x => { x with coord := mv.2 }) } hl.edges (hl.has _ (List.getElem_mem hmv))
  have hsame : SameBare m m' := by
    refine ⟨?_, ?_, k4⟩
    · rw [k3]
      apply List.ext_getElem (by simp)
      intro i h1 h2
      simp only [List.getElem_map, List.getElem_modify]
      split <;> rfl
    · rw [k2, List.map_map]
      apply List.map_congr_left
      intro x _
      simp only [Function.comp]
      split <;> rfl
  refine ⟨m', k1, hsame, ?_, ?_⟩
  · intro e he hpos
    rw [k2] at he
    obtain ⟨x, hx, ex⟩ := List.mem_map.mp he
    by_cases hin : x.index ∈ (m.verts[mv.1]).edgeind
    · rw [if_pos hin] at ex
      subst ex
      exact absurd hpos (by simp)
    · rw [if_neg hin] at ex
      subst ex
      obtain ⟨a, ha, b, hb, a1, b1, hlen⟩ := hc x hx hpos
      -- the ends were not moved
      have keep : ∀ a ∈ m.verts, x.index ∈ a.edgeind → a ∈ m'.verts := by
        intro a ha hia
        obtain ⟨j, hj, ej⟩ := List.mem_iff_getElem.mp ha
        rw [k3]
        refine List.mem_iff_getElem.mpr ⟨j, by simpa using hj, ?_⟩
        rw [List.getElem_modify]
        split
        · rename_i hji
          subst hji
          rw [ej] at hin
          exact absurd hia hin
        · exact ej
      obtain ⟨⟨a', ha', a1', a2'⟩, ⟨b', hb', b1', b2'⟩⟩ := hl.ends x hx
      have ea : a' = a := inj_of_nodup hl.verts ha' ha (a1'.trans a1.symm)
      have eb : b' = b := inj_of_nodup hl.verts hb' hb (b1'.trans b1.symm)
      subst ea; subst eb
      exact ⟨a', keep a' ha' a2', b', keep b' hb' b2', a1, b1, by rw [k4]; exact hlen⟩
  · rw [k3]
    apply List.ext_getElem (by simp)
    intro i h1 h2
    simp only [List.getElem_map, List.getElem_modify, List.getElem_set]
    split
    · rfl
    · rfl

theorem moveAll_ok : ∀ (mvs : List (Nat × P3 K)) {m : LMesh K}, LinkedMesh m → Current root m → (∀ mv ∈ mvs, mv.1 < m.verts.length) →
    ∃ m', mvs.foldlM (m := Except Fault) moveVert m = .ok m' ∧ SameBare m m' ∧ Current root m' ∧
      m'.verts.map LVert.coord = mvs.foldl (fun l mv => l.set mv.1 mv.2) (m.verts.map LVert.coord)
  | [], m, _, hc, _ => ⟨m, rfl, SameBare.refl m, hc, rfl⟩
  | mv :: mvs, m, hl, hc, hmv => by
    obtain ⟨m1, h1, h2, h3, h4⟩ := moveVert_ok hl hc (hmv mv (by simp))
    have hlen : m1.verts.length = m.verts.length := by simpa using congrArg List.length h2.verts
    obtain ⟨m2, k1, k2, k3, k4⟩ := moveAll_ok mvs (h2.linked hl) h3 (fun mv h => by rw [hlen]; exact hmv mv (by simp [h]))
    refine ⟨m2, ?_, h2.trans k2, k3, by rw [k4, h4]; rfl⟩
    rw [List.foldlM_cons, h1]; exact k1

theorem updateCoord_ok (hl : LinkedMesh m) (hc : Current root m) (hr : ∀ x, 0 ≤ root x) {mvs : List (Nat × P3 K)}
    (hmv : ∀ mv ∈ mvs, mv.1 < m.verts.length) :
    ∃ m', updateCoord root m mvs = .ok m' ∧ SameBare m m' ∧ Current root m' ∧ Flagged m' ∧ m'.lengthsSet = true ∧
      m'.verts.map LVert.coord = mvs.foldl (fun l mv => l.set mv.1 mv.2) (m.verts.map LVert.coord) := by
  obtain ⟨m1, h1, h2, h3, h4⟩ := moveAll_ok mvs hl hc hmv
  obtain ⟨m2, k1, k2, k3, k4, k5, k6⟩ := setEdgeLengths_ok (h2.linked hl) h3 hr
  refine ⟨m2, ?_, h2.trans k2, k4, k5, k6, by rw [k3, h4]⟩
  unfold updateCoord
  rw [h1]; exact k1

omit [IsStrictOrderedRing K] in
theorem transform_ok {t : Fin 3 → Trans K} (hc : Current root m) (ht : ∀ i, (t i).mult ^ 2 = 1) :
    SameBare m (transform t m) ∧ Current root (transform t m) := by
  refine ⟨⟨by simp [transform, Function.comp_def], rfl, rfl⟩, fun e he hpos => ?_⟩
  obtain ⟨a, ha, b, hb, a1, b1, hlen⟩ := hc e he hpos
  refine ⟨_, List.mem_map.mpr ⟨a, ha, rfl⟩, _, List.mem_map.mpr ⟨b, hb, rfl⟩, a1, b1, ?_⟩
  rw [hlen]
  congr 1
  apply Finset.sum_congr rfl
  intro i _
  have : (transform t m).dim = m.dim := rfl
  rw [this]
  split
  · simp only [Trans.app]
    have : (t i).new + (a.coord i - (t i).old) * (t i).mult - ((t i).new + (b.coord i - (t i).old) * (t i).mult) =
      (a.coord i - b.coord i) * (t i).mult := by ring
    rw [this, mul_pow, ht i, mul_one]
  · rfl

theorem copyMesh_ok (hc : Current root m) (cap size : Nat) :
    Current root (copyMesh cap size m) := by
  have hcopy : ∀ e : LEdge K, ¬ 0 ≤ (copyEdge e).length := by intro e; simp [copyEdge]
  intro e he hpos
  unfold copyMesh at he
  simp only at he
  have : e ∈ m.edges := by
    split at he
    · obtain ⟨x, -, rfl⟩ := List.mem_map.mp he
      exact absurd hpos (hcopy x)
    · rcases List.mem_append.mp he with h | h
      · exact List.mem_of_mem_take h
      · obtain ⟨x, -, rfl⟩ := List.mem_map.mp h
        exact absurd hpos (hcopy x)
  exact hc e this hpos

omit [Field K] [LinearOrder K] [IsStrictOrderedRing K] in
/-- Being linked depends on neither lengths nor borders. -/
theorem linked_of {m m' : LMesh K} (hv : m'.verts = m.verts)
    (he : m'.edges.map (fun e => (e.index, e.v0, e.v1)) = m.edges.map (fun e => (e.index, e.v0, e.v1))) (hl : LinkedMesh m) : LinkedMesh m' := by
  have hei : m'.edges.map LEdge.index = m.edges.map LEdge.index := by
    have := congrArg (List.map Prod.fst) he
    simpa [Function.comp_def] using this
  have h1 : ∀ x ∈ m'.edges, ∃ y ∈ m.edges, (y.index, y.v0, y.v1) = (x.index, x.v0, x.v1) := by
    intro x hx
    have : (x.index, x.v0, x.v1) ∈ m'.edges.map (fun e => (e.index, e.v0, e.v1)) := List.mem_map.mpr ⟨x, hx, rfl⟩
    rw [he] at this
    exact List.mem_map.mp this
  have h2 : ∀ x ∈ m.edges, ∃ y ∈ m'.edges, (y.index, y.v0, y.v1) = (x.index, x.v0, x.v1) := by
    intro x hx
    have : (x.index, x.v0, x.v1) ∈ m.edges.map (fun e => (e.index, e.v0, e.v1)) := List.mem_map.mpr ⟨x, hx, rfl⟩
    rw [← he] at this
    exact List.mem_map.mp this
  refine ⟨by rw [hv]; exact hl.verts, by rw [hei]; exact hl.edges, fun e hm => ?_, fun v hm i hi => ?_⟩
  · obtain ⟨y, hy, ey⟩ := h1 e hm
    simp only [Prod.mk.injEq] at ey
    rw [hv, ← ey.1, ← ey.2.1, ← ey.2.2]
    exact hl.ends y hy
  · obtain ⟨e, hm', e1⟩ := hl.has v (hv ▸ hm) i hi
    obtain ⟨e', hm'', e2⟩ := h2 e hm'
    simp only [Prod.mk.injEq] at e2
    exact ⟨e', hm'', by rw [e2.1, e1]⟩

omit [LinearOrder K] [IsStrictOrderedRing K] in
theorem copyMesh_ends (cap size : Nat) : (copyMesh cap size m).edges.map (fun e => (e.index, e.v0, e.v1)) =
    m.edges.map (fun e => (e.index, e.v0, e.v1)) := by
  have hc : ((fun e : LEdge K => (e.index, e.v0, e.v1)) ∘ copyEdge) = fun e : LEdge K => (e.index, e.v0, e.v1) := rfl
  unfold copyMesh
  simp only
  split
  · rw [List.map_map, hc]
  · rw [List.map_append, List.map_map, hc, ← List.map_append, List.take_append_drop]

end RSVS.Lengths
