import Verif.Lemmas.VertRemove

/-!
# C113: snaxels on the same edge of the parent mesh are joined in pairs
-/

namespace RSVS.Props

open RSVS RSVS.Spec RSVS.Mesh RSVS.VertPass

/-- **C113** `SnaxEdgeConnecDetection` and the pass of `CleanupSnakeConnec` behind it: snaxels joined by an edge
of the snake and on the same edge of the parent mesh are joined in pairs.  No two pairs have a snaxel in common
(so no kept snaxel is removed and edits do not undo each other) and no touching pair could be added.  After the
pass the ends of the edges have their new names, exactly the edges whose ends have the same name are gone, from
the mesh, from the table of parents (once) and from the surfaces they were on, and the edits name exactly these
pairs and these edges. -/
theorem C113_pass (m : Mesh) (snaxs : List (Int × Int)) (snaxedges live : List Int) (hr : SnakeReady m snaxs snaxedges live) :
    ∃ r M name, vertexPass m snaxs snaxedges live = .ok r ∧ PairsChosen m snaxs M ∧ NamesPairs M name ∧ SnakeJoined m r.mesh name ∧ EditsRight m M name live r := by
  obtain ⟨r, M, h1, h2, h3, h4, h5⟩ := pass_ok hr
  exact ⟨r, M, nameOf M, h1, h2, h3, h4, h5⟩

/-- After the pass no edge has the same vertex at both ends. -/
theorem C113_no_loop (m : Mesh) (snaxs : List (Int × Int)) (snaxedges live : List Int) (hr : SnakeReady m snaxs snaxedges live) (r : Passed)
    (h : vertexPass m snaxs snaxedges live = .ok r) (e : Edge) (he : e ∈ r.mesh.edges) (a b : Int) (hv : e.vertind = [a, b]) : a ≠ b := by
  obtain ⟨r', M, h1, _, _, h4, _⟩ := pass_ok hr
  rw [h] at h1
  cases h1
  rw [h4.edges] at he
  obtain ⟨x, _, rfl⟩ := List.mem_map.mp he
  split at hv
  · cases hv
  · rename_i hc
    replace hv : x.vertind.map (nameOf M) = [a, b] := hv
    rintro rfl
    match hx : x.vertind with
    | [] => rw [hx] at hv; simp at hv
    | [p] => rw [hx] at hv; simp at hv
    | [p, q] =>
      rw [hx] at hv
      simp only [List.map_cons, List.map_nil, List.cons.injEq, and_true] at hv
      exact hc ⟨p, q, hx, hv.1.trans hv.2.symm⟩
    | p :: q :: t :: w => rw [hx] at hv; simp at hv

/-- The pass makes progress: when some edge joins touching snaxels, an edge goes. -/
theorem C113_progress (m : Mesh) (snaxs : List (Int × Int)) (snaxedges live : List Int) (hr : SnakeReady m snaxs snaxedges live) (p : Int × Int)
    (ht : Touching m snaxs p) : ∃ r, vertexPass m snaxs snaxedges live = .ok r ∧ ∃ e ∈ m.edges, e.vertind ≠ [] ∧ ∃ e' ∈ r.mesh.edges, e'.index = e.index ∧ e'.vertind = [] := by
  obtain ⟨r, M, h1, h2, h3, h4, _⟩ := pass_ok hr
  refine ⟨r, h1, ?_⟩
  obtain ⟨q, hq, _⟩ := h2.maximal p ht
  obtain ⟨hne, _, e, he, hv⟩ := h2.touching q hq
  refine ⟨e, he, by rw [hv]; simp, ?_⟩
  have hc : CollapsedBy (nameOf M) e := by
    refine ⟨q.1, q.2, hv, ?_⟩
    rw [h3.1 q hq, h3.2]
    intro t ht' e1
    by_cases htq : t = q
    · rw [htq] at e1
      exact hne e1.symm
    · exact apart_all h2.apart ht' hq htq (Or.inr (Or.inr (Or.inl e1)))
  refine ⟨{ e with vertind := [], surfind := [] }, ?_, rfl, rfl⟩
  rw [h4.edges]
  refine List.mem_map.mpr ⟨e, he, ?_⟩
  rw [if_pos hc]

/-- **C113, violated**: later in `CleanupSnakeConnec` the ends of the kept edge of every edit of an edge are
compared (snakeengine.cpp:785-795).  The edges removed in this pass have no ends left, so as soon as the pass
edits an edge the comparison reads outside an empty vector, whatever edits follow, and whatever the steps between
do as long as they give these edges no ends back (none does). -/
theorem C113_collapsed_violated (m : Mesh) (snaxs : List (Int × Int)) (snaxedges live : List Int) (hr : SnakeReady m snaxs snaxedges live) (r : Passed)
    (h : vertexPass m snaxs snaxedges live = .ok r) (hne : r.found ≠ []) (m2 : Mesh) (hu : (m2.edges.map Edge.index).Nodup)
    (hm2 : ∀ e ∈ r.mesh.edges, e.vertind = [] → ∃ e2 ∈ m2.edges, e2.index = e.index ∧ e2.vertind = []) (more : List Int) :
    collapsedEdges m2 (r.found.map Found.edgeKeep ++ r.extra ++ more) = .error .ub := by
  obtain ⟨r', M, h1, _, _, h4, h5⟩ := pass_ok hr
  rw [h] at h1
  cases h1
  match hf : r.found, hne with
  | f :: fs, _ =>
    have hfm : f ∈ r.found := by rw [hf]; simp
    obtain ⟨e, he, hei, hc⟩ := (h5.edges f.edgeKeep).mp (Or.inl ⟨f, hfm, (h5.same f hfm).symm⟩)
    have hmem : ({ e with vertind := [], surfind := [] } : Edge) ∈ r.mesh.edges := by
      rw [h4.edges]
      refine List.mem_map.mpr ⟨e, he, ?_⟩
      rw [if_pos hc]
    obtain ⟨e2, he2, hi2, hv2⟩ := hm2 _ hmem rfl
    have hi2' : e2.index = f.edgeKeep := hi2.trans hei
    obtain ⟨x, hx, hxm, hxi⟩ := elemAt_posOf_ok (ix := Edge.index) ⟨e2, he2, hi2'⟩
    obtain rfl := inj_of_nodup hu hxm he2 (hxi.trans hi2'.symm)
    unfold collapsedEdges isearch
    simp only [List.map_cons, List.cons_append, List.mapM_cons, hx]
    show (((vecGet x.vertind 0).bind _ >>= _ : Except Fault _).map _) = _
    rw [hv2]
    rfl

/-- Snaxels 1, 2, 3 on one edge of the parent mesh, joined by edges 11 and 12 in a row, and snaxel 4 elsewhere. -/
def inARow : Mesh :=
  { verts := [{ index := 1, edgeind := [11, 14] }, { index := 2, edgeind := [11, 12] }, { index := 3, edgeind := [12, 13] }, { index := 4, edgeind := [13, 14] }],
    edges := [{ index := 11, vertind := [1, 2], surfind := [5] }, { index := 12, vertind := [2, 3], surfind := [5] },
      { index := 13, vertind := [3, 4], surfind := [5] }, { index := 14, vertind := [4, 1], surfind := [5] }],
    surfs := [{ index := 5, edgeind := [11, 12, 13, 14], voluind := [0, 1] }],
    volus := [{ index := 1, surfind := [5] }] }

theorem inARow_ready : SnakeReady inARow [(1, 7), (2, 7), (3, 7), (4, 8)] [11, 12, 13, 14] [11, 12, 13, 14] := by
  refine ⟨⟨by decide, by decide, by decide, by decide⟩, by decide, by decide, by decide, by decide, ?_, ?_, by decide, by decide⟩
  · simp only [EdgeVert, HasVert, inARow, List.mem_cons, List.not_mem_nil, or_false, exists_eq_or_imp, exists_eq_left]
    intros
    omega
  · simp only [EdgeVert, VertEdge, inARow, List.mem_cons, List.not_mem_nil, or_false, exists_eq_or_imp, exists_eq_left]
    intros
    omega

/-- Snaxel 2 is joined to 1; the edit which would join 3 to 2 becomes a copy, and edge 12 joins 1 and 3 now. -/
example : ∃ r, vertexPass inARow [(1, 7), (2, 7), (3, 7), (4, 8)] [11, 12, 13, 14] [11, 12, 13, 14] = .ok r ∧
    r.found = [⟨some (1, 2), 11, 11⟩, ⟨some (1, 2), 11, 11⟩] ∧ r.extra = [] ∧ r.live = [12, 13, 14] ∧
    r.mesh.edges.map Edge.vertind = [[], [1, 3], [3, 4], [4, 1]] :=
  ⟨_, by rfl, by decide +kernel, by decide +kernel, by decide +kernel, by decide +kernel⟩

example : ∃ r, vertexPass inARow [(1, 7), (2, 7), (3, 7), (4, 8)] [11, 12, 13, 14] [11, 12, 13, 14] = .ok r ∧
    collapsedEdges r.mesh (r.found.map Found.edgeKeep ++ r.extra ++ []) = .error .ub :=
  ⟨_, by rfl, C113_collapsed_violated _ _ _ _ inARow_ready _ (by rfl) (by decide +kernel) _ (by decide +kernel) (fun e he h => ⟨e, he, rfl, h⟩) _⟩

example : ∃ r, vertexPass inARow [(1, 7), (2, 7), (3, 7), (4, 8)] [11, 12, 13, 14] [11, 12, 13, 14] = .ok r ∧
    ∃ e ∈ inARow.edges, e.vertind ≠ [] ∧ ∃ e' ∈ r.mesh.edges, e'.index = e.index ∧ e'.vertind = [] :=
  C113_progress _ _ _ _ inARow_ready (1, 2) ⟨by decide, ⟨7, by decide, by decide⟩, _, List.mem_cons_self, rfl⟩

end RSVS.Props
