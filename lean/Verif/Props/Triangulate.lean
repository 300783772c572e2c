import Verif.Lemmas.Triangulate

/-! # Properties of the triangulation of surfaces -/

namespace RSVS.Props

open RSVS.Spec RSVS.Mesh RSVS.Triang

/-- **C81.** `TriangulateContainer` returns exactly if every polygon is known and has three points.
The old triangles and points stay as they are.  Every polygon gets its fan of triangles in turn, with
its index and its cells, and its own centre, which is new, if it has more than three points.  All
indices stay distinct. -/
theorem C81_fan (ty : Int) (qs : List (Res Poly)) (T : List Triangle) (P : List TriPoint) :
    ((∃ r, triangulateContainer ty qs (T, P) = .ok r) ↔
      ∃ ps : List Poly, qs = ps.map .ok ∧ ∀ p ∈ ps, 3 ≤ p.pts.length) ∧
    ∀ T' P', triangulateContainer ty qs (T, P) = .ok (T', P') →
      ∃ (ps : List Poly) (fans : List (List Triangle)) (new : List TriPoint),
        qs = ps.map .ok ∧ T' = T ++ fans.flatten ∧ P' = P ++ new ∧
        List.Forall₂ (fun p fan => (∀ t ∈ fan, t.parentsurf = p.parent ∧ t.celltarg = p.celltarg ∧
            t.influence = p.influence) ∧
          ∃ c, FanOf p.pts (fan.map fun t => t.pointtype.zip t.pointind) (3, c) ∧
            (3 < p.pts.length → (⟨c, p.parent, ty⟩ : TriPoint) ∈ new)) ps fans ∧
        (∀ q ∈ new, (∀ q' ∈ P, q'.index < q.index) ∧ q.parentType = ty ∧
          ∃ p ∈ ps, 3 < p.pts.length ∧ q.parentsurf = p.parent) ∧
        (∀ t ∈ fans.flatten, ∀ t' ∈ T, t'.index < t.index) ∧
        ((T.map Triangle.index).Nodup → (T'.map Triangle.index).Nodup) ∧
        ((P.map TriPoint.index).Nodup → (P'.map TriPoint.index).Nodup) := by
  refine ⟨⟨fun ⟨r, h⟩ => ?_, fun ⟨ps, e, h⟩ => ?_⟩, fun T' P' h => ?_⟩
  · obtain ⟨ps, e, h, -⟩ := container_ok h
    exact ⟨ps, e, h⟩
  · exact ⟨_, e ▸ container_eq ty h (T, P)⟩
  · obtain ⟨ps, e, h3, hr⟩ := container_ok h
    simp only [Prod.mk.injEq] at hr
    obtain ⟨rfl, rfl⟩ := hr
    obtain ⟨-, hP⟩ := maxIdx_spec TriPoint.index P
    obtain ⟨-, hT⟩ := maxIdx_spec Triangle.index T
    obtain ⟨hn, hm⟩ := made_points ty (maxIdx TriPoint.index P) ps 0
    have hix := made_index (maxIdx TriPoint.index P) ps (maxIdx Triangle.index T) 0
    have hnew : ∀ t ∈ (madeTris (maxIdx TriPoint.index P) (maxIdx Triangle.index T) 0 ps).flatten,
        ∀ t' ∈ T, t'.index < t.index := by
      intro t ht t' ht'
      have : t.index ∈ (madeTris (maxIdx TriPoint.index P) (maxIdx Triangle.index T) 0 ps).flatten.map
        Triangle.index := List.mem_map_of_mem ht
      rw [hix] at this
      obtain ⟨k, -, e⟩ := List.mem_map.mp this
      have := hT t' ht'
      omega
    have hpt : ∀ q ∈ madePoints ty (maxIdx TriPoint.index P) 0 ps, ∀ q' ∈ P, q'.index < q.index := by
      intro q hq q' hq'
      have := (hm q hq).1
      have := hP q' hq'
      push_cast at *
      omega
    refine ⟨ps, _, _, e, rfl, rfl, made_fans ty _ ps _ 0 h3, fun q hq => ⟨hpt q hq, (hm q hq).2⟩,
      hnew, ?_, ?_⟩
    · intro h
      rw [List.map_append, List.nodup_append]
      refine ⟨h, ?_, ?_⟩
      · rw [hix]
        exact List.nodup_range.map fun a b hab => by simpa using hab
      · intro a ha b hb
        obtain ⟨t', ht', rfl⟩ := List.mem_map.mp ha
        obtain ⟨t, ht, rfl⟩ := List.mem_map.mp hb
        have := hnew t ht t' ht'
        omega
    · intro h
      rw [List.map_append, List.nodup_append]
      refine ⟨h, hn, ?_⟩
      intro a ha b hb
      obtain ⟨q', hq', rfl⟩ := List.mem_map.mp ha
      obtain ⟨q, hq, rfl⟩ := List.mem_map.mp hb
      have := hpt q hq q' hq'
      omega

/-- **C81, boundary and volume.** The new triangles have the boundary of the polygons: whatever is
summed along their directed edges, what belongs to inner edges cancels.  If the polygons with some
weights close, the sum of the signed volumes of their triangles does not depend on the place of the
origin. -/
theorem C81_volume {ty : Int} {ps : List Poly} {T T' : List Triangle} {P P' : List TriPoint}
    (h : triangulateContainer ty (ps.map .ok) (T, P) = .ok (T', P')) (w : Int → ℝ) :
    (∀ φ : Int × Int → Int × Int → ℝ, Alternating φ →
      ((T'.drop T.length).map fun t => w t.parentsurf *
        circulation φ (t.pointtype.zip t.pointind)).sum =
      (ps.map fun p => w p.parent * circulation φ p.pts).sum) ∧
    (Closed (ps.map fun p => (w p.parent, p.pts)) → ∀ (pos : Int × Int → Fin 3 → ℝ) (x : Fin 3 → ℝ),
      ((T'.drop T.length).map fun t => w t.parentsurf *
        listVolume ((t.pointtype.zip t.pointind).map fun a => pos a + x)).sum =
      ((T'.drop T.length).map fun t => w t.parentsurf *
        listVolume ((t.pointtype.zip t.pointind).map pos)).sum) := by
  obtain ⟨ps', fans, new, e, rfl, -, hf, -⟩ := (C81_fan ty (ps.map .ok) T P).2 T' P' h
  have : ps' = ps := by
    have := congrArg (List.filterMap Except.toOption) e
    simpa [List.filterMap_map, Function.comp_def, Except.toOption] using this.symm
  subst this
  rw [List.drop_left]
  clear h e
  have pull : ∀ (g : List (Int × Int) → ℝ) (fan : List Triangle) (p : Poly),
      (∀ t ∈ fan, t.parentsurf = p.parent) →
      (fan.map fun t => w t.parentsurf * g (t.pointtype.zip t.pointind)).sum =
        w p.parent * ((fan.map fun t => t.pointtype.zip t.pointind).map g).sum := by
    intro g fan p hp
    induction fan with
    | nil => simp
    | cons t l ih =>
      simp only [List.map_cons, List.sum_cons]
      rw [ih fun u hu => hp u (List.mem_cons_of_mem _ hu), hp t List.mem_cons_self]
      ring
  have total : ∀ (g : List (Int × Int) → ℝ) (G : Poly → ℝ),
      (∀ (p : Poly) (c : Int) (tris : List (List (Int × Int))), FanOf p.pts tris (3, c) →
        (tris.map g).sum = G p) →
      (fans.flatten.map fun t => w t.parentsurf * g (t.pointtype.zip t.pointind)).sum =
        (ps'.map fun p => w p.parent * G p).sum := by
    intro g G hG
    induction hf with
    | nil => simp
    | cons hp _ ih =>
      obtain ⟨h1, c, h2, -⟩ := hp
      rw [List.flatten_cons, List.map_append, List.sum_append, ih, List.map_cons, List.sum_cons,
        pull g _ _ fun t ht => (h1 t ht).1, hG _ c _ h2]
  refine ⟨fun φ hφ => total _ _ fun p c tris hp => fan_boundary hφ hp, fun hc pos x => ?_⟩
  have hz := closed_circulation hc (triple_alternating x pos)
  rw [List.map_map] at hz
  have hmove : ∀ fan : List Triangle, (∀ t ∈ fan, (t.pointtype.zip t.pointind).length = 3) →
      (fan.map fun t => w t.parentsurf *
        listVolume ((t.pointtype.zip t.pointind).map fun a => pos a + x)).sum =
      (fan.map fun t => w t.parentsurf * listVolume ((t.pointtype.zip t.pointind).map pos)).sum +
      (fan.map fun t => w t.parentsurf *
        (circulation (fun a b => triple x (pos a) (pos b)) (t.pointtype.zip t.pointind) / 6)).sum := by
    intro fan h3
    induction fan with
    | nil => simp
    | cons t l ih =>
      simp only [List.map_cons, List.sum_cons]
      rw [ih fun u hu => h3 u (List.mem_cons_of_mem _ hu), listVolume_move x pos
        (h3 t List.mem_cons_self)]
      ring
  have three : ∀ t ∈ fans.flatten, (t.pointtype.zip t.pointind).length = 3 := by
    clear total hz hc
    induction hf with
    | nil => simp
    | cons hp _ ih =>
      obtain ⟨-, c, h2, -⟩ := hp
      intro t ht
      rw [List.flatten_cons] at ht
      rcases List.mem_append.mp ht with ht | ht
      · exact fan_three h2 _ (List.mem_map_of_mem ht)
      · exact ih t ht
  rw [hmove _ three, total (fun l => circulation (fun a b => triple x (pos a) (pos b)) l / 6)
    (fun p => circulation (fun a b => triple x (pos a) (pos b)) p.pts / 6)]
  · have : (ps'.map fun p => w p.parent *
        (circulation (fun a b => triple x (pos a) (pos b)) p.pts / 6)).sum =
      (ps'.map ((fun p : ℝ × List (Int × Int) =>
        p.1 * circulation (fun a b => triple x (pos a) (pos b)) p.2) ∘
        fun p => (w p.parent, p.pts))).sum / 6 := by
      clear hz hc total hf
      induction ps' with
      | nil => simp
      | cons p l ih => simp only [List.map_cons, List.sum_cons, Function.comp] at ih ⊢; rw [ih]; ring
    rw [this, hz]
    simp
  · intro p c tris hp
    have := fan_boundary (triple_alternating x pos) hp
    rw [← this]
    clear this hp
    induction tris with
    | nil => simp
    | cons t l ih => simp only [List.map_cons, List.sum_cons]; rw [ih]; ring

/-- Loops that use each edge as often as its reverse close. -/
theorem closed_of_perm {α : Type} [DecidableEq α] (loops : List (List α))
    (h : (loops.flatMap loopEdges).Perm ((loops.flatMap loopEdges).map Prod.swap)) :
    Closed (loops.map fun l => ((1 : ℝ), l)) := by
  have key : ∀ a b, flow (loops.map fun l => ((1 : ℝ), l)) a b =
      ((loops.flatMap loopEdges).count (a, b) : ℝ) := by
    intro a b
    clear h
    induction loops with
    | nil => simp [flow]
    | cons l ls ih =>
      simp only [flow, List.map_cons, List.sum_cons, List.flatMap_cons, List.count_append] at ih ⊢
      rw [ih]
      push_cast
      ring
  intro a b
  rw [key, key, h.count_eq]
  congr 1
  exact List.count_map_of_injective _ _ Prod.swap_injective (b, a)

/-- The five faces of a pyramid. -/
def pyramid : List Poly :=
  [[1, 2, 3, 4], [2, 1, 5], [3, 2, 5], [4, 3, 5], [1, 4, 5]].zipIdx.map fun l =>
    { pts := l.1.map fun v => (1, v), parent := (l.2 : Int) + 1, celltarg := [0, 7], influence := [-1, 1] }

/-- The pyramid meets the hypotheses: its triangles are those of four sides and four of the base, and
its volume does not depend on the origin. -/
example : ∃ T', triangulateContainer 1 (pyramid.map .ok) ([], []) = .ok (T', [⟨2, 1, 1⟩]) ∧
    T'.length = 8 ∧ ∀ (pos : Int × Int → Fin 3 → ℝ) (x : Fin 3 → ℝ),
      (T'.map fun t => listVolume ((t.pointtype.zip t.pointind).map fun a => pos a + x)).sum =
        (T'.map fun t => listVolume ((t.pointtype.zip t.pointind).map pos)).sum := by
  obtain ⟨T', h, hl⟩ : ∃ T', triangulateContainer 1 (pyramid.map .ok) ([], []) = .ok (T', [⟨2, 1, 1⟩]) ∧
      T'.length = 8 :=
    ⟨((triangulateContainer 1 (pyramid.map .ok) ([], [])).toOption.getD default).1,
      by decide +kernel, by decide +kernel⟩
  refine ⟨T', h, hl, fun pos x => ?_⟩
  have := (C81_volume h fun _ => 1).2 (closed_of_perm (pyramid.map Poly.pts) (by decide +kernel)) pos x
  simpa using this

end RSVS.Props
