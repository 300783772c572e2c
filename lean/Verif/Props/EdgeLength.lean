import Mathlib.Algebra.Order.Ring.Rat
import Mathlib.Tactic.NormNum
import Verif.Lemmas.EdgeLength

/-!
# Properties of stored lengths: C94
-/

namespace RSVS.Props

open RSVS.Spec RSVS.Lengths RSVS.Geo

variable {K : Type} [Field K] [LinearOrder K] [IsStrictOrderedRing K]

/-- The operation can be applied: vertices that are moved exist. -/
def OpFits (m : LMesh K) : Op K → Prop
  | .move mvs => ∀ mv ∈ mvs, mv.1 < m.verts.length
  | _ => True

/-- The operation keeps lengths: no change of scale. -/
def OpKeeps : Op K → Prop
  | .transform t => ∀ i, (t i).mult ^ 2 = 1
  | _ => True

/-- The operation makes no copy. -/
def OpInPlace : Op K → Prop
  | .copy _ _ => False
  | _ => True

/-- C94, full statement: operations leave meshes on which `edge::Length` is the distance of the ends, on which the lengths are
stored whenever the mesh says so. -/
def C94_statement : Prop :=
  ∀ (root : ℚ → ℚ) (ops : List (Op ℚ)) (m : LMesh ℚ), (∀ x, 0 ≤ root x) → LinkedMesh m → Current root m → Flagged m →
    (∀ op ∈ ops, OpFits m op) →
    ∃ m', ops.foldlM (m := Except Fault) (step root) m = .ok m' ∧ Flagged m' ∧
      ∀ e ∈ m'.edges, ∃ l, Lengths.length root m' e = .ok l ∧ LengthOf root m' e.v0 e.v1 l

/-- What one operation does. -/
theorem C94_step (root : K → K) (op : Op K) (m : LMesh K) (hr : ∀ x, 0 ≤ root x) (hl : LinkedMesh m) (hc : Current root m)
    (hfit : OpFits m op) (hk : OpKeeps op) :
    ∃ m', step root m op = .ok m' ∧ LinkedMesh m' ∧ Current root m' ∧ (OpInPlace op → Flagged m → Flagged m') ∧
      m'.verts.length = m.verts.length := by
  have len : ∀ {m' : LMesh K}, SameBare m m' → m'.verts.length = m.verts.length := fun h => by
    simpa using congrArg List.length h.verts
  cases op with
  | prepare =>
    unfold step prepare
    by_cases h : m.lengthsSet = true
    · rw [if_pos h]; exact ⟨m, rfl, hl, hc, fun _ h => h, rfl⟩
    · rw [if_neg h]
      obtain ⟨m', h1, h2, h3, h4, h5, h6⟩ := setEdgeLengths_ok hl hc hr
      exact ⟨m', h1, h2.linked hl, h4, fun _ _ => h5, len h2⟩
  | setLengths =>
    obtain ⟨m', h1, h2, h3, h4, h5, h6⟩ := setEdgeLengths_ok hl hc hr
    exact ⟨m', h1, h2.linked hl, h4, fun _ _ => h5, len h2⟩
  | move mvs =>
    obtain ⟨m', h1, h2, h3, h4, -⟩ := updateCoord_ok hl hc hr hfit
    exact ⟨m', h1, h2.linked hl, h3, fun _ _ => h4, len h2⟩
  | transform t =>
    obtain ⟨h1, h2⟩ := transform_ok hc hk
    exact ⟨_, rfl, h1.linked hl, h2, fun _ h => h, len h1⟩
  | copy cap size =>
    exact ⟨_, rfl, linked_of (m := m) rfl (copyMesh_ends cap size) hl, copyMesh_ok hc cap size, fun h => h.elim, rfl⟩

/-- C94 (partial): without changes of scale the length of every edge is the distance of its ends after all sequences of
operations, copies among them; without copies the lengths are stored when the mesh says so. -/
theorem C94_lengths_partial (root : K → K) : ∀ (ops : List (Op K)) (m : LMesh K), (∀ x, 0 ≤ root x) → LinkedMesh m →
    Current root m → (∀ op ∈ ops, OpFits m op ∧ OpKeeps op) →
    ∃ m', ops.foldlM (m := Except Fault) (step root) m = .ok m' ∧ LinkedMesh m' ∧
      (∀ e ∈ m'.edges, (∃ l, Lengths.length root m' e = .ok l ∧ LengthOf root m' e.v0 e.v1 l) ∧
        (0 ≤ e.length → LengthOf root m' e.v0 e.v1 e.length)) ∧
      ((∀ op ∈ ops, OpInPlace op) → Flagged m → Flagged m')
  | [], m, _, hl, hc, _ => ⟨m, rfl, hl, fun _ he => ⟨length_ok hl hc he, hc _ he⟩, fun _ h => h⟩
  | op :: ops, m, hr, hl, hc, hok => by
    obtain ⟨m1, h1, h2, h3, h4, h5⟩ := C94_step root op m hr hl hc (hok op (by simp)).1 (hok op (by simp)).2
    obtain ⟨m2, k1, k2, k3, k4⟩ := C94_lengths_partial root ops m1 hr h2 h3 (fun o ho => by
      obtain ⟨f1, f2⟩ := hok o (by simp [ho])
      refine ⟨?_, f2⟩
      cases o <;> simp only [OpFits] at f1 ⊢
      rw [h5]; exact f1)
    refine ⟨m2, ?_, k2, k3, fun hp hf => k4 (fun o ho => hp o (by simp [ho])) (h4 (hp op (by simp)) hf)⟩
    rw [List.foldlM_cons, h1]; exact k1

/-- C94 (partial): vertices that are moved have their new coordinates, and the lengths are stored and right. -/
theorem C94_move (root : K → K) (m : LMesh K) (mvs : List (Nat × P3 K)) (hr : ∀ x, 0 ≤ root x) (hl : LinkedMesh m)
    (hc : Current root m) (hmv : ∀ mv ∈ mvs, mv.1 < m.verts.length) :
    ∃ m', updateCoord root m mvs = .ok m' ∧
      m'.verts.map LVert.coord = mvs.foldl (fun l mv => l.set mv.1 mv.2) (m.verts.map LVert.coord) ∧
      m'.verts.map LVert.index = m.verts.map LVert.index ∧
      m'.edges.map (fun e => (e.index, e.v0, e.v1, e.isBorder)) = m.edges.map (fun e => (e.index, e.v0, e.v1, e.isBorder)) ∧
      ∀ e ∈ m'.edges, 0 ≤ e.length ∧ LengthOf root m' e.v0 e.v1 e.length := by
  obtain ⟨m', h1, h2, h3, h4, h5, h6⟩ := updateCoord_ok hl hc hr hmv
  refine ⟨m', h1, h6, ?_, h2.edges, fun e he => ⟨h4 h5 e he, h3 e he (h4 h5 e he)⟩⟩
  have := congrArg (List.map Prod.fst) h2.verts
  simpa [Function.comp_def] using this

/-- C94 (partial): whatever the flag says and whichever lengths are left after copies, `SetEdgeLengths` stores all of them. -/
theorem C94_set (root : K → K) (m : LMesh K) (cap size : Nat) (hr : ∀ x, 0 ≤ root x) (hl : LinkedMesh m) (hc : Current root m) :
    ∃ m', setEdgeLengths root (copyMesh cap size m) = .ok m' ∧ m'.lengthsSet = true ∧
      ∀ e ∈ m'.edges, 0 ≤ e.length ∧ LengthOf root m' e.v0 e.v1 e.length := by
  obtain ⟨m', h1, -, -, h4, h5, h6⟩ := setEdgeLengths_ok (m := copyMesh cap size m) (linked_of (m := m) rfl (copyMesh_ends cap size) hl) (copyMesh_ok hc cap size) hr
  exact ⟨m', h1, h6, fun e he => ⟨h5 h6 e he, h4 e he (h5 h6 e he)⟩⟩

/-- A triangle with edges of length 3, 4 and 5: no length is stored. -/
def rightTriangle : LMesh ℚ :=
  { verts := [⟨1, [1, 3], ![0, 0, 0]⟩, ⟨2, [1, 2], ![3, 0, 0]⟩, ⟨3, [2, 3], ![0, 4, 0]⟩]
    edges := [⟨1, 1, 2, -1, true⟩, ⟨2, 2, 3, -1, false⟩, ⟨3, 3, 1, -1, false⟩], lengthsSet := false, dim := 3 }

/-- A square root that is right for the squares below. -/
def rootOf (x : ℚ) : ℚ := if x = 9 then 3 else if x = 16 then 4 else if x = 25 then 5 else if x = 36 then 6 else 0

theorem rootOf_nonneg (x : ℚ) : 0 ≤ rootOf x := by
  unfold rootOf; split_ifs <;> norm_num

theorem rightTriangle_ok : LinkedMesh rightTriangle ∧ Current rootOf rightTriangle ∧ Flagged rightTriangle := by
  refine ⟨⟨by decide +kernel, by decide +kernel, ?_, ?_⟩, ?_, by intro h; exact absurd h (by decide)⟩
  · intro e he
    simp only [rightTriangle, List.mem_cons, List.not_mem_nil, or_false] at he
    rcases he with rfl | rfl | rfl <;> simp [rightTriangle]
  · intro v hv i hi
    simp only [rightTriangle, List.mem_cons, List.not_mem_nil, or_false] at hv
    rcases hv with rfl | rfl | rfl <;> simp at hi <;> rcases hi with rfl | rfl <;> simp [rightTriangle]
  · intro e he hp
    simp only [rightTriangle, List.mem_cons, List.not_mem_nil, or_false] at he
    rcases he with rfl | rfl | rfl <;> norm_num at hp

example : ∃ m', [Op.prepare, .copy 0 0, .move [(1, ![0, 0, 3]), (0, ![0, 0, 6])]].foldlM (m := Except Fault) (step rootOf)
    rightTriangle = .ok m' ∧ m'.edges.map LEdge.length = [3, 5, 0] := ⟨_, rfl, by decide +kernel⟩

example : ∃ m', [Op.prepare, .copy 2 1, .setLengths, .move [(1, ![0, 0, 3])]].foldlM (m := Except Fault) (step rootOf)
    rightTriangle = .ok m' ∧ LinkedMesh m' := by
  obtain ⟨m', h1, h2, -⟩ := C94_lengths_partial rootOf [Op.prepare, .copy 2 1, .setLengths, .move [(1, ![0, 0, 3])]] rightTriangle
    rootOf_nonneg rightTriangle_ok.1 rightTriangle_ok.2.1
    (by intro op hop; simp only [List.mem_cons, List.not_mem_nil, or_false] at hop
        rcases hop with rfl | rfl | rfl | rfl <;> simp [OpFits, OpKeeps, rightTriangle])
  exact ⟨m', h1, h2⟩

/-- C94 violated: a change of scale leaves the stored lengths, so that `edge::Length` is not the distance of the ends any more;
a copy has no lengths (nor marks of the border) though it says that they are set, and `PrepareForUse` does not set them. -/
theorem C94_violated : ¬ C94_statement ∧
    (∃ (t : Fin 3 → Trans ℚ) (m' : LMesh ℚ), [Op.prepare, .transform t, .prepare].foldlM (m := Except Fault) (step rootOf) rightTriangle = .ok m' ∧
      ∃ e ∈ m'.edges, Lengths.length rootOf m' e = .ok 3 ∧ LengthOf rootOf m' e.v0 e.v1 6) ∧
    ∃ m' : LMesh ℚ, [Op.prepare, .copy 0 0, .prepare].foldlM (m := Except Fault) (step rootOf) rightTriangle = .ok m' ∧
      m'.lengthsSet = true ∧ (∀ e ∈ m'.edges, e.length = -1 ∧ e.isBorder = false) ∧ ∃ e ∈ rightTriangle.edges, e.isBorder = true := by
  have hcopy : ∃ m' : LMesh ℚ, [Op.prepare, .copy 0 0, .prepare].foldlM (m := Except Fault) (step rootOf) rightTriangle = .ok m' ∧
      m'.lengthsSet = true ∧ m'.edges.map LEdge.length = [-1, -1, -1] ∧ m'.edges.map LEdge.isBorder = [false, false, false] :=
    ⟨_, rfl, by decide +kernel, by decide +kernel, by decide +kernel⟩
  obtain ⟨mc, c1, c2, c3, c4⟩ := hcopy
  have hall : ∀ e ∈ mc.edges, e.length = -1 ∧ e.isBorder = false := by
    intro e he
    have h1 : e.length ∈ mc.edges.map LEdge.length := List.mem_map.mpr ⟨e, he, rfl⟩
    have h2 : e.isBorder ∈ mc.edges.map LEdge.isBorder := List.mem_map.mpr ⟨e, he, rfl⟩
    rw [c3] at h1; rw [c4] at h2
    simp at h1 h2
    exact ⟨h1, h2⟩
  refine ⟨?_, ⟨fun _ => ⟨0, 0, 2⟩, _, rfl, ⟨1, 1, 2, 3, true⟩, ?_, ?_, ?_⟩, mc, c1, c2, hall, _, List.mem_cons_self, rfl⟩
  · intro H
    obtain ⟨m', h1, h2, -⟩ := H rootOf [Op.prepare, .copy 0 0, .prepare] rightTriangle rootOf_nonneg rightTriangle_ok.1
      rightTriangle_ok.2.1 rightTriangle_ok.2.2 (by intro op hop; simp only [List.mem_cons, List.not_mem_nil, or_false] at hop
                                                    rcases hop with rfl | rfl | rfl <;> trivial)
    rw [c1] at h1
    cases h1
    match hm : mc.edges, c3 with
    | e :: _, _ =>
      have h3 := h2 c2 e (by rw [hm]; simp)
      rw [(hall e (by rw [hm]; simp)).1] at h3
      norm_num at h3
  · decide +kernel
  · rfl
  · exact ⟨_, List.mem_cons_self, _, List.mem_cons_of_mem _ List.mem_cons_self, rfl, rfl, by decide +kernel⟩

end RSVS.Props
