import Verif.Lemmas.CutEdges

/-!
# C141: the edges cut by a box
-/

namespace RSVS.CutEdges

open RSVS.Spec

/-- C141: on a sound mesh with two vertices on each edge, no surface 0 listed by an edge, and a
placement which does not fault from a point in the box to one beyond it, the first part of
`mesh::AddBoundary` splits exactly the edges which go out of the box, each by a vertex of its
own; the mesh stays sound, no edge goes from an inner vertex to an outer one any more, and
nothing else changes.  The marks kept along tell the vertices which were outside.  The surfaces
and volumes which the rest of the function adds are not in it. -/
theorem C141_cut_partial {place : List ℚ → List ℚ → Res (List ℚ)} {lb ub : Fin 3 → ℚ} {m : Mesh}
    (hs : Sound m) (ht : TwoVerts m) (h0 : ∀ f, ¬ EdgeSurf m f 0)
    (hpl : ∀ x y, ¬ Beyond lb ub x → Beyond lb ub y → ∃ z, place x y = .ok z) :
    ∃ m' vo, cutByBox place lb ub m = .ok (m', vo) ∧ CutByBox place lb ub m m' ∧
      MarksOutside lb ub m m' vo := by
  obtain ⟨es, h1, hnd, hcr⟩ := cutEdges_ok (lb := lb) (ub := ub) hs ht
  have hinit : Inv place lb ub m es 0 m (marks lb ub m) :=
    ⟨hs, ht, by simp, by simp, by simp, rfl, rfl, fun _ _ => Iff.rfl, h0, fun _ _ _ => Iff.rfl,
      fun f a b h1 h2 h3 h4 => (hcr f).mpr ⟨a, b, h1, h2, h3, h4⟩, fun _ _ _ _ => Iff.rfl,
      fun _ _ _ _ => Iff.rfl, fun e he hn => absurd ((hcr e).mpr he) hn, fun _ _ _ => Iff.rfl,
      fun x hx => ⟨x, hx, rfl, rfl⟩,
      fun y hy => Or.inl ⟨y, hy, rfl⟩⟩
  obtain ⟨m', vo, h2, h3⟩ := inv_all hs hpl es 0 m (marks lb ub m) hnd
    (fun f hf => (hcr f).mp hf) hinit
  refine ⟨m', vo, ?_, ?_, inv_marks hs h3⟩
  · simp only [cutByBox, h1, bind, Except.bind]
    simpa using h2
  · refine ⟨h3.sound, h3.two, ⟨_, h3.vIdx⟩, ⟨_, h3.eIdx⟩, ⟨es, hnd, hcr, ?_, ?_⟩, h3.surfs, h3.volus,
      h3.surfVolu, ?_, h3.inner, h3.kept, fun e he => h3.halves e he (by simp), h3.surfEdge,
      h3.coord, h3.placed⟩
    · simpa using congrArg List.length h3.vIdx
    · simpa using congrArg List.length h3.eIdx
    · intro f a b ha hb hi ho
      simpa using h3.cross f a b ha hb hi ho

/-- C141: an edge whose ends are one in and one out is split: it ends at the new vertex instead
of the outer one, and the new edge, listed by the same surfaces, goes on from there. -/
theorem C141_split {place : List ℚ → List ℚ → Res (List ℚ)} {nv ne e a b : Int} {m : Mesh}
    {vo : List Bool} {ed : Edge} {oa : Bool} (hs : Sound m) (hed : ed ∈ m.edges)
    (hi : ed.index = e) (hv : ed.vertind = [a, b]) (ha : isOut m vo a = .ok oa)
    (hb : isOut m vo b = .ok (!oa)) (hab : a ≠ b) (h0 : ∀ f, ¬ EdgeSurf m f 0)
    (hnv : ¬ HasVert m nv) (hne : ¬ HasEdge m ne) (hnv0 : 0 < nv) (hne0 : 0 < ne)
    (hpl : ∀ x ∈ m.verts, ∀ y ∈ m.verts, x.index = (if oa then b else a) →
      y.index = (if oa then a else b) → ∃ z, place x.coord y.coord = .ok z) :
    ∃ m', splitEdge place nv ne e (m, vo) = .ok (m', vo ++ [false]) ∧
      EdgeSplit m m' e (if oa then a else b) nv ne ∧ Sound m' := by
  obtain ⟨m', h1, h2, _⟩ := splitEdge_ok (place := place) (nv := nv) (ne := ne) hs hed hi hv ha hb
    hab h0 hpl
  refine ⟨m', h1, h2, sound_split hs h2 ⟨ed, hed, hi, ?_⟩ hnv hne hnv0 hne0⟩
  cases oa <;> simp [hv]

/-- C141: an edge with both ends on the same side of the box is refused. -/
theorem C141_same_side_throws {place : List ℚ → List ℚ → Res (List ℚ)} {nv ne e a b : Int}
    {m : Mesh} {vo : List Bool} {ed : Edge} {oa : Bool} (hs : Sound m) (hed : ed ∈ m.edges)
    (hi : ed.index = e) (hv : ed.vertind = [a, b]) (ha : isOut m vo a = .ok oa)
    (hb : isOut m vo b = .ok oa) (h0 : ∀ f, ¬ EdgeSurf m f 0) :
    splitEdge place nv ne e (m, vo) = .error .throws := by
  obtain ⟨ed', hed', hm', hi'⟩ := elemAt_posOf_ok (ix := Edge.index) (l := m.edges) (k := e)
    ⟨ed, hed, hi⟩
  have : ed' = ed := edge_unique hs.unique.edges hm' hed (hi'.trans hi.symm)
  subst this
  obtain ⟨g, _, hvis⟩ := visit_iterate (ix := Surf.index) (l0 := m.surfs)
    (f := fun s : Surf => { s with edgeind := s.edgeind ++ [ne] }) (fun _ => rfl) ed'.surfind
    m.surfs hs.unique.surfs rfl (fun k hk => by
      have hk' : EdgeSurf m e k := ⟨ed', hed, hi, hk⟩
      exact hs.noDangling.edgeSurf e k hk' (fun h => h0 e (h ▸ hk')))
  have hga : vecGet ed'.vertind 0 = .ok a := by simp [hv, vecGet]
  have hgb : vecGet ed'.vertind 1 = .ok b := by simp [hv, vecGet]
  simp [splitEdge, hed', hvis, hga, hgb, ha, hb, bind, Except.bind]

/-- C141: after the cut, an edge is marked as outside exactly when it has an end which was
outside, and then none of its ends was inside; so each edge lies on one side only. -/
theorem C141_edge_sides_partial {place : List ℚ → List ℚ → Res (List ℚ)} {lb ub : Fin 3 → ℚ}
    {m m' : Mesh} {vo : List Bool} (hc : CutByBox place lb ub m m')
    (hvo : MarksOutside lb ub m m' vo) :
    ∃ eo, edgeOuts m' vo = .ok eo ∧ eo.length = m'.edges.length ∧
      ∀ (i : Nat) (x : Edge), m'.edges[i]? = some x →
        (eo[i]? = some true ↔ ∃ v ∈ x.vertind, VertOutside lb ub m v) ∧
        (eo[i]? = some true → ∀ v ∈ x.vertind, ¬ VertInside lb ub m v) ∧
        (eo[i]? ≠ some true → ∀ v ∈ x.vertind, ¬ VertOutside lb ub m v) := by
  classical
  have hout : ∀ x ∈ m'.edges, ∀ v ∈ x.vertind,
      isOut m' vo v = .ok (decide (VertOutside lb ub m v)) := by
    intro x hx v hv
    obtain ⟨p, hp, hlt, hix⟩ := posOf_mem (ix := Vert.index)
      (ends_have hc.sound (f := x.index) (v := v) ⟨x, hx, rfl, hv⟩)
    have hlt' : p < vo.length := by rw [hvo.1]; exact hlt
    have hm := hvo.2 p m'.verts[p] (List.getElem?_eq_getElem hlt)
    rw [hix, List.getElem?_eq_getElem hlt', Option.some.injEq] at hm
    unfold isOut vecGet
    rw [hp, if_neg (by omega), Int.toNat_natCast, List.getElem?_eq_getElem hlt']
    have : vo[p] = decide (VertOutside lb ub m v) := by
      rw [Bool.eq_iff_iff, hm, decide_eq_true_iff]
    simp only [this]
  have key : ∀ l : List Edge, (∀ x ∈ l, x ∈ m'.edges) →
      l.mapM (m := Except Fault) (fun x => do
        let a ← vecGet x.vertind 0
        let oa ← isOut m' vo a
        if oa then .ok true
        else do
          let b ← vecGet x.vertind 1
          isOut m' vo b) =
      .ok (l.map fun x => decide (∃ v ∈ x.vertind, VertOutside lb ub m v)) := by
    intro l
    induction l with
    | nil => intro _; rfl
    | cons x l ih =>
      intro hl
      have hx := hl x (by simp)
      obtain ⟨a, b, hab⟩ := List.length_eq_two.mp (hc.two x hx)
      have hga : vecGet x.vertind 0 = .ok a := by simp [hab, vecGet]
      have hgb : vecGet x.vertind 1 = .ok b := by simp [hab, vecGet]
      have ha := hout x hx a (by simp [hab])
      have hb := hout x hx b (by simp [hab])
      have hih := ih fun y hy => hl y (by simp [hy])
      rw [List.mapM_cons, hih]
      simp only [hga, hgb, ha, hb, bind, Except.bind, pure, Except.pure, List.map_cons]
      by_cases h1 : VertOutside lb ub m a
      · simp [h1, hab]
      · simp [h1, hab]
  refine ⟨_, key m'.edges (fun _ h => h), by simp, ?_⟩
  intro i x hx
  have hmem := List.mem_of_getElem? hx
  rw [List.getElem?_map, hx]
  simp only [Option.map_some, ne_eq, Option.some.injEq, decide_eq_true_iff]
  refine ⟨trivial, ?_, ?_⟩
  · rintro ⟨w, hw, ho⟩ v hv hi
    exact hc.separated x.index v w ⟨x, hmem, rfl, hv⟩ ⟨x, hmem, rfl, hw⟩ hi ho
  · intro hno v hv ho
    exact hno ⟨v, hv, ho⟩

/-- A triangle with a tip beyond the box. -/
def tri : Mesh :=
  { verts := [⟨1, [1, 3], [0, 0, 0], false⟩, ⟨2, [1, 2], [1, 0, 0], false⟩,
      ⟨3, [2, 3], [0, 3, 0], false⟩]
    edges := [⟨1, [1, 2], [1], false⟩, ⟨2, [2, 3], [1], false⟩, ⟨3, [3, 1], [1], false⟩]
    surfs := [{ index := 1, edgeind := [1, 2, 3], voluind := [0, 0] }]
    volus := [] }

theorem tri_ok : Sound tri ∧ TwoVerts tri ∧ ∀ f, ¬ EdgeSurf tri f 0 := by
  refine ⟨⟨⟨by decide, by decide, by decide, by decide⟩, ⟨?_, ?_, ?_, ?_⟩,
    ⟨?_, ?_, ?_, ?_, ?_, ?_⟩, ⟨?_, ?_, ?_, ?_⟩, ⟨?_, ?_, ?_⟩⟩, by unfold TwoVerts; decide, ?_⟩
  all_goals
    simp [tri, HasVert, HasEdge, HasSurf, HasVolu, VertEdge, EdgeVert, EdgeSurf, SurfEdge,
      SurfVolu, VoluSurf]
  all_goals try grind

/-- The hypotheses can be met, and two edges of the triangle are split. -/
example : Sound tri ∧ TwoVerts tri ∧ (∀ f, ¬ EdgeSurf tri f 0) ∧
    (∀ x y, ¬ Beyond (fun _ => -2) (fun _ => 2) x → Beyond (fun _ => -2) (fun _ => 2) y →
      ∃ z, (fun a _ => .ok a : List ℚ → List ℚ → Res (List ℚ)) x y = .ok z) ∧
    (cutByBox (fun _ _ => .ok [0, 2, 0]) (fun _ => -2) (fun _ => 2) tri).map
      (fun r => r.1.edges.map fun x => (x.index, x.vertind)) =
      .ok [(1, [1, 2]), (2, [2, 4]), (3, [5, 1]), (4, [4, 3]), (5, [3, 5])] :=
  ⟨tri_ok.1, tri_ok.2.1, tri_ok.2.2, fun x _ _ _ => ⟨x, rfl⟩, by decide +kernel⟩

/-- The marks of the edges of the triangle after the cut: the tip is outside. -/
example : ((cutByBox (fun _ _ => .ok [0, 2, 0]) (fun _ => -2) (fun _ => 2) tri).bind
      fun r => edgeOuts r.1 r.2) = .ok [false, false, false, true, true] := by decide +kernel

/-- The hypotheses of `C141_split` and of `C141_same_side_throws` can be met. -/
example : isOut tri [false, false, true] 2 = .ok false ∧
    isOut tri [false, false, true] 3 = .ok true ∧ isOut tri [false, false, true] 1 = .ok false ∧
    ¬ HasVert tri 4 ∧ ¬ HasEdge tri 4 := by
  refine ⟨by decide +kernel, by decide +kernel, by decide +kernel, ?_, ?_⟩ <;>
  simp [HasVert, HasEdge, tri]

end RSVS.CutEdges
