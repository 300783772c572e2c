import Verif.Lemmas.SmoothPlane
import Verif.Props.StepLimit
import Verif.Props.SnakeMotion

/-!
# C120, C121, C122: the smoothing of the spawn step
-/

namespace RSVS.Props

open RSVS RSVS.Mesh RSVS.Spec RSVS.Smooth RSVS.Geo

/-! ### C120 -/

/-- The snaxels which are smoothed at a vertex are those on its edges which are nearer to it than to the other end, by less
than 1.1 times the spawn distance; each once. -/
theorem C120_near {K : Type} [Field K] [LinearOrder K] [IsStrictOrderedRing K] {m : Mesh} (hv : (m.verts.map Vert.index).Nodup)
    {snaxs : List (Snax K)} {subs : Int → List Nat} (hs : ∀ e, AllPos Snax.edgeind snaxs e (subs e)) {x : Vert}
    (hx : x ∈ m.verts) (spawn : K) :
    ∃ l, findSnaxInds m snaxs subs x.index spawn = .ok l ∧ Exactly l (fun i => ∃ s ∈ snaxs, s.index = i ∧
      s.edgeind ∈ x.edgeind ∧ NearVertex s x.index ∧ partAway s < spawn * (11 / 10)) := by
  obtain ⟨l, h1, h2, h3⟩ := findSnaxInds_ok hv hs hx spawn
  refine ⟨l, h1, h2, fun i => ?_⟩
  rw [h3]
  simp only [closeTo_iff, near_iff]

/-- The vertices at which there is smoothing are those the new snaxels are near to, each once. -/
theorem C120_vertices {K : Type} [Field K] [LinearOrder K] (snaxs : List (Snax K)) (minIndex : Int) :
    Exactly (spawnVerts snaxs minIndex) (fun v => ∃ s ∈ snaxs, minIndex < s.index ∧ NearVertex s v) := by
  refine ⟨Order.nodup_sortUnique _, fun v => ?_⟩
  unfold spawnVerts
  rw [mem_sortUnique, List.mem_map]
  constructor
  · rintro ⟨s, hs, rfl⟩
    obtain ⟨h1, h2⟩ := List.mem_filter.1 hs
    exact ⟨s, h1, of_decide_eq_true h2, (closeTo_iff s _).1 rfl⟩
  · rintro ⟨s, h1, h2, h3⟩
    exact ⟨s, List.mem_filter.2 ⟨h1, decide_eq_true h2⟩, (closeTo_iff s v).2 h3⟩

/-- All new snaxels are smoothed: a snaxel which has made its spawn step is found at a vertex where there is smoothing. -/
theorem C120_new {K : Type} [Field K] [LinearOrder K] [IsStrictOrderedRing K] {m : Mesh} (hv : (m.verts.map Vert.index).Nodup)
    {snaxs : List (Snax K)} {subs : Int → List Nat} (hs : ∀ e, AllPos Snax.edgeind snaxs e (subs e)) {minIndex : Int}
    {spawn : K} (h0 : 0 < spawn) {s : Snax K} (hsm : s ∈ snaxs) (hnew : minIndex < s.index) (hstep : partAway s ≤ spawn)
    (hon : ∀ v, NearVertex s v → ∃ x ∈ m.verts, x.index = v ∧ s.edgeind ∈ x.edgeind) :
    ∃ v ∈ spawnVerts snaxs minIndex, ∃ l, findSnaxInds m snaxs subs v spawn = .ok l ∧ s.index ∈ l := by
  have hnear : NearVertex s (closeTo s) := (closeTo_iff s _).1 rfl
  obtain ⟨x, hx, hxv, hxe⟩ := hon _ hnear
  obtain ⟨l, h1, h2⟩ := C120_near hv hs hx spawn
  refine ⟨x.index, ((C120_vertices snaxs minIndex).2 _).2 ⟨s, hsm, hnew, hxv ▸ hnear⟩, l, h1, ?_⟩
  exact (h2.2 _).2 ⟨s, hsm, rfl, hxe, hxv ▸ hnear, by linarith⟩

/-- Without a spawn distance, with the names "none" or "", and with an unknown name, nothing changes. -/
theorem C120_none {K : Type} [Field K] [LinearOrder K] (eps : K) (w : Ways K) (minIndex : Int) (spawn : K) (str : String)
    (snaxs : List (Snax K)) (h : |spawn| < eps ∨ str ∉ ["laplacian", "planar", "sphere"]) :
    takeSmoothSpawnStep eps w minIndex spawn str snaxs = .ok snaxs := by
  have h1 : ∀ v l, smoothStep eps w str spawn v l = .ok l := by
    intro v l
    unfold smoothStep approxEq
    rw [sub_zero]
    rcases h with h | h
    · rw [if_pos (decide_eq_true h)]
    · simp only [List.mem_cons, List.not_mem_nil, or_false, not_or] at h
      rw [if_neg h.1, if_neg h.2.1, if_neg h.2.2]
      split
      · rfl
      · split <;> rfl
  unfold takeSmoothSpawnStep
  generalize spawnVerts snaxs minIndex = V
  induction V with
  | nil => rfl
  | cons v V ih =>
    rw [List.foldlM_cons, h1]
    exact ih

/-- With a spawn distance and a name, the way with that name is used once at each of the vertices. -/
theorem C120_ways {K : Type} [Field K] [LinearOrder K] (eps : K) (w : Ways K) (minIndex : Int) (spawn : K)
    (snaxs : List (Snax K)) (h : eps ≤ |spawn|) :
    takeSmoothSpawnStep eps w minIndex spawn "laplacian" snaxs =
      (spawnVerts snaxs minIndex).foldlM (m := Except Fault) (fun l v => w.laplacian v l) snaxs ∧
    takeSmoothSpawnStep eps w minIndex spawn "planar" snaxs =
      (spawnVerts snaxs minIndex).foldlM (m := Except Fault) (fun l v => w.planar v l) snaxs ∧
    takeSmoothSpawnStep eps w minIndex spawn "sphere" snaxs =
      (spawnVerts snaxs minIndex).foldlM (m := Except Fault) (fun l v => w.sphere v l) snaxs := by
  have h1 : ¬ approxEq eps spawn 0 = true := by
    unfold approxEq
    rw [sub_zero, decide_eq_true_iff]
    exact not_lt.2 h
  unfold takeSmoothSpawnStep smoothStep
  refine ⟨?_, ?_, ?_⟩ <;> simp [h1]

/-- Snaxels on the edges of a tetrahedron: two near vertex 1, one near vertex 2 and one too far. -/
def smoothSnaxs : List (Snax ℚ) :=
  [⟨1, 1 / 10, 0, 1, 2, 1, 1⟩, ⟨2, 9 / 10, 0, 1, 2, 1, 2⟩, ⟨3, 19 / 20, 0, 3, 1, 2, 1⟩, ⟨4, 1 / 4, 0, 1, 4, 3, 1⟩]

/-- The positions of the snaxels of an edge. -/
def onEdgeOf (snaxs : List (Snax ℚ)) (e : Int) : List Nat :=
  (List.range snaxs.length).filter fun i => decide ((snaxs[i]?).map Snax.edgeind = some e)

theorem onEdgeOf_allPos (snaxs : List (Snax ℚ)) (e : Int) : AllPos Snax.edgeind snaxs e (onEdgeOf snaxs e) := by
  refine ⟨List.Nodup.filter _ List.nodup_range, fun p => ?_⟩
  unfold onEdgeOf
  rw [List.mem_filter, decide_eq_true_iff, Option.map_eq_some_iff]
  refine ⟨fun h => h.2, fun h => ⟨?_, h⟩⟩
  obtain ⟨s, hs, _⟩ := h
  simpa using (List.getElem?_eq_some_iff.1 hs).1

example : findSnaxInds tetra smoothSnaxs (onEdgeOf smoothSnaxs) 1 (1 / 10) = .ok [1, 3] := by decide +kernel

example : ∃ l, findSnaxInds tetra smoothSnaxs (onEdgeOf smoothSnaxs) 1 (1 / 10) = .ok l ∧ Exactly l (fun i =>
    ∃ s ∈ smoothSnaxs, s.index = i ∧ s.edgeind ∈ [1, 2, 3] ∧ NearVertex s 1 ∧ partAway s < 1 / 10 * (11 / 10)) :=
  C120_near (x := ⟨1, [1, 2, 3], [0, 0, 0], false⟩) tetra_sound.unique.verts (onEdgeOf_allPos _) (by decide +kernel) _

example : spawnVerts smoothSnaxs 1 = [1, 2] := by decide +kernel

example : ∃ v ∈ spawnVerts smoothSnaxs 2, ∃ l, findSnaxInds tetra smoothSnaxs (onEdgeOf smoothSnaxs) v (1 / 10) = .ok l ∧
    3 ∈ l :=
  C120_new (s := ⟨3, 19 / 20, 0, 3, 1, 2, 1⟩) tetra_sound.unique.verts (onEdgeOf_allPos _) (by norm_num) (by decide +kernel)
    (by decide) (by unfold partAway; norm_num) (fun v hv => by
      rcases hv with ⟨h, _⟩ | ⟨_, rfl⟩
      · norm_num at h
      · exact ⟨⟨1, [1, 2, 3], [0, 0, 0], false⟩, by decide +kernel, rfl, by decide⟩)

/-! ### C121 -/

/-- The two values put both snaxels in the plane of the two vertices and the middle of the snaxels, if their edges are not
parallel to that plane. -/
theorem C121_plane {K : Type} [Field K] [LinearOrder K] (a b va vb fromA toA fromB toB : P3 K) :
    (det3 (fun i => va i - vb i) (fun i => middle a b i - vb i) (fun i => toA i - fromA i) ≠ 0 →
      InOnePlane (pointAt fromA toA (equilibrate a b va vb fromA toA fromB toB).1) va vb (middle a b)) ∧
    (det3 (fun i => va i - vb i) (fun i => middle a b i - vb i) (fun i => toB i - fromB i) ≠ 0 →
      InOnePlane (pointAt fromB toB (equilibrate a b va vb fromA toA fromB toB).2) va vb (middle a b)) := by
  have main : ∀ f t : P3 K, det3 (fun i => va i - vb i) (fun i => middle a b i - vb i) (fun i => t i - f i) ≠ 0 →
      ∀ r, r = (dot (cross (fun i => va i - vb i) (fun i => (a i + b i) / 2 - vb i)) va -
        dot (cross (fun i => va i - vb i) (fun i => (a i + b i) / 2 - vb i)) f) /
        dot (cross (fun i => va i - vb i) (fun i => (a i + b i) / 2 - vb i)) (fun i => t i - f i) →
      InOnePlane (pointAt f t r) va vb (middle a b) := by
    intro f t hne r hr
    have h1 : dot (cross (fun i => va i - vb i) (fun i => (a i + b i) / 2 - vb i)) (fun i => t i - f i) =
        det3 (fun i => va i - vb i) (fun i => middle a b i - vb i) (fun i => t i - f i) := by
      simp only [dot, cross, det3, middle, Fin.isValue, Fin.reduceAdd]
      ring
    rw [← h1] at hne
    have h2 := (eq_div_iff hne).1 hr
    unfold InOnePlane
    have h3 : det3 (fun i => va i - pointAt f t r i) (fun i => vb i - pointAt f t r i) (fun i => middle a b i - pointAt f t r i) =
        -(dot (cross (fun i => va i - vb i) (fun i => (a i + b i) / 2 - vb i)) va -
        dot (cross (fun i => va i - vb i) (fun i => (a i + b i) / 2 - vb i)) f -
        r * dot (cross (fun i => va i - vb i) (fun i => (a i + b i) / 2 - vb i)) (fun i => t i - f i)) := by
      simp only [dot, cross, det3, middle, pointAt, Fin.isValue, Fin.reduceAdd]
      ring
    rw [h3, ← h2]
    ring
  exact ⟨fun h => main _ _ h _ rfl, fun h => main _ _ h _ rfl⟩

section
open Classical

/-- If no snaxel has two links, each snaxel with a link gets the sum of the values from the edges to other snaxels with links,
and the others stay.  Missing: the sum should be a mean, and a snaxel may have several links. -/
theorem C121_sum_partial {K : Type} [Field K] [LinearOrder K] [IsStrictOrderedRing K] {conn : Mesh} {inds : List Int}
    {snaxs : List (Snax K)} (h : PlaneReady conn inds snaxs) {eq : Int → Int → Int → Int → Res (K × K)}
    {find : List Int → Int → Int} (hf : ∀ l k, GoodPos id l k (find l k))
    (hone : ∀ l l', IsLink conn inds l → IsLink conn inds l' → l.snax = l'.snax → l = l') {val : Edge → K × K}
    (hval : ∀ y ∈ conn.edges, ∀ a b, y.vertind = [a, b] → ∀ la lb, IsLink conn inds la → IsLink conn inds lb → la.snax = a →
      lb.snax = b → eq a b la.vert lb.vert = .ok (val y)) :
    planeMatching conn eq find inds snaxs = .ok (snaxs.map fun s => if HasLink conn inds s.index then
      { s with d := ((conn.edges.filter fun y => decide (BorderEdge conn inds y)).map fun y => shareOf val y s.index).sum }
      else s) := by
  have hn : ((linkList conn inds).map Link.snax).Nodup :=
    (nodup_linkList h).map_on fun l hl l' hl' he => hone l l' ((mem_linkList h l).1 hl) ((mem_linkList h l').1 hl') he
  unfold planeMatching
  rw [if_neg (by have := h.two; omega), links_ok h]
  change Except.bind (edgeProcess conn inds ((linkList conn inds).map Link.snax)) _ = _
  rw [edgeProcess_ok h]
  change Except.bind (List.foldlM (m := Except Fault) (planeEdge conn eq (linkList conn inds)
    (find ((linkList conn inds).map Link.snax))) _ (processList conn inds)) _ = _
  have h0 : List.replicate (linkList conn inds).length (0 : K) = (linkList conn inds).map fun l => (fun _ => (0 : K)) l.snax := by
    simp
  rw [h0, planeEdges_ok h hn (hf _) (val := val) (fun _ => 0)]
  · change List.foldlM (m := Except Fault) _ snaxs (List.zip _ _) = _
    have hz : List.zip ((linkList conn inds).map Link.snax) ((linkList conn inds).map fun l => (0 : K) +
        shares conn val (processList conn inds) l.snax) =
        (linkList conn inds).map fun l => (l.snax, shares conn val (processList conn inds) l.snax) := by
      rw [List.zip_map']
      simp
    rw [hz, setDs_ok (shares conn val (processList conn inds)) h.oneEach]
    · refine congrArg _ (List.map_congr_left fun s _ => ?_)
      have hmem : s.index ∈ ((linkList conn inds).map fun l => (l.snax, shares conn val (processList conn inds) l.snax)).map
          Prod.fst ↔ HasLink conn inds s.index := by
        rw [← mem_ext h, List.map_map]
        rfl
      by_cases hl : HasLink conn inds s.index
      · rw [if_pos (hmem.2 hl), if_pos hl]
        have hs : shares conn val (processList conn inds) s.index =
            2 * ((conn.edges.filter fun y => decide (BorderEdge conn inds y)).map fun y => shareOf val y s.index).sum := by
          unfold shares
          rw [((process_perm h).map _).sum_eq, List.map_append, List.sum_append, List.map_map, ← two_mul]
          refine congrArg _ (congrArg _ (List.map_congr_left fun y hy => ?_))
          simp only [Function.comp, (endsAt_spec h (List.mem_filter.1 hy).1).1]
        rw [hs, mul_div_cancel_left₀ _ (two_ne_zero)]
      · rw [if_neg (fun h' => hl (hmem.1 h')), if_neg hl]
    · intro p hp
      obtain ⟨l, hl, rfl⟩ := List.mem_map.1 hp
      exact ⟨h.hasSnax _ ((mem_linkList h l).1 hl).1, rfl⟩
  · intro e he
    have := ((process_perm h).mem_iff).1 he
    rw [List.mem_append, or_self] at this
    obtain ⟨y, hy, rfl⟩ := List.mem_map.1 this
    obtain ⟨hy1, hy2⟩ := List.mem_filter.1 hy
    exact ⟨y, hy1, rfl, fun v hv => (mem_ext h v).2 (of_decide_eq_true hy2 v hv), fun a b hab la hla lb hlb =>
      hval y hy1 a b hab la lb ((mem_linkList h la).1 hla) ((mem_linkList h lb).1 hlb)⟩

/-- A snaxel with one edge to another snaxel with a link is put in the plane of the two vertices they are linked to and the
middle of that edge. -/
theorem C121_in_plane_partial {K : Type} [Field K] [LinearOrder K] [IsStrictOrderedRing K] {conn : Mesh} {inds : List Int}
    {snaxs : List (Snax K)} (h : PlaneReady conn inds snaxs) {coord base : Int → P3 K}
    {find : List Int → Int → Int} (hf : ∀ l k, GoodPos id l k (find l k))
    (hone : ∀ l l', IsLink conn inds l → IsLink conn inds l' → l.snax = l'.snax → l = l') {y : Edge} (hy : y ∈ conn.edges)
    (hb : BorderEdge conn inds y) {s : Snax K} (hs : s ∈ snaxs)
    (hvy : s.index ∈ y.vertind) (hyone : ∀ z ∈ conn.edges, BorderEdge conn inds z → s.index ∈ z.vertind → z = y) {la lb : Link}
    (hla : IsLink conn inds la) (hlb : IsLink conn inds lb) (hab : y.vertind = [la.snax, lb.snax])
    (hdet : det3 (fun i => coord la.vert i - coord lb.vert i)
      (fun i => middle (coord la.snax) (coord lb.snax) i - coord lb.vert i)
      (fun i => base s.tovert i - base s.fromvert i) ≠ 0) :
    ∃ l d, planeMatching conn (equilibrateEdge coord base snaxs) find inds snaxs = .ok l ∧ { s with d := d } ∈ l ∧
      InOnePlane (pointAt (base s.fromvert) (base s.tovert) d) (coord la.vert) (coord lb.vert)
        (middle (coord la.snax) (coord lb.snax)) := by
  have hget : ∀ v : Int, HasLink conn inds v → ∃ t ∈ snaxs, t.index = v ∧ isearch Snax.index snaxs v = .ok t := by
    intro v hv
    obtain ⟨t, ht, rfl⟩ := h.hasSnax v (hasLink_inds hv)
    exact ⟨t, ht, rfl, isearch_self h.oneEach ht⟩
  -- the values of the edges
  have hvals : ∀ z : Edge, ∃ r : K × K, ∀ a b, z.vertind = [a, b] → ∀ la lb, IsLink conn inds la → IsLink conn inds lb →
      la.snax = a → lb.snax = b → equilibrateEdge coord base snaxs a b la.vert lb.vert = .ok r := by
    intro z
    by_cases hz : ∃ a b la lb, z.vertind = [a, b] ∧ IsLink conn inds la ∧ IsLink conn inds lb ∧ la.snax = a ∧ lb.snax = b
    · obtain ⟨a, b, la, lb, h1, h2, h3, rfl, rfl⟩ := hz
      obtain ⟨ta, _, _, hta⟩ := hget la.snax ⟨la, h2, rfl⟩
      obtain ⟨tb, _, _, htb⟩ := hget lb.snax ⟨lb, h3, rfl⟩
      refine ⟨equilibrate (coord la.snax) (coord lb.snax) (coord la.vert) (coord lb.vert) (base ta.fromvert) (base ta.tovert)
        (base tb.fromvert) (base tb.tovert), fun a' b' h4 la' lb' h5 h6 h7 h8 => ?_⟩
      rw [h1] at h4
      obtain ⟨h9, h4⟩ := List.cons.inj h4
      obtain ⟨h10, _⟩ := List.cons.inj h4
      rw [← h9, ← h10, hone la' la h5 h2 (h7.trans h9.symm), hone lb' lb h6 h3 (h8.trans h10.symm)]
      unfold equilibrateEdge
      rw [hta, htb]
      rfl
    · exact ⟨(0, 0), fun a b h1 la lb h2 h3 h4 h5 => absurd ⟨a, b, la, lb, h1, h2, h3, h4, h5⟩ hz⟩
  choose val hval using hvals
  have hsum := C121_sum_partial h (eq := equilibrateEdge coord base snaxs) hf hone (val := val) fun z _ => hval z
  have hlink : HasLink conn inds s.index := hb _ hvy
  refine ⟨_, shareOf val y s.index, hsum, ?_, ?_⟩
  · refine List.mem_map.2 ⟨s, hs, ?_⟩
    rw [if_pos hlink]
    have : ((conn.edges.filter fun z => decide (BorderEdge conn inds z)).map fun z => shareOf val z s.index).sum =
        shareOf val y s.index := by
      have h1 : (conn.edges.filter fun z => decide (BorderEdge conn inds z)).map (fun z => shareOf val z s.index) =
          (conn.edges.filter fun z => decide (BorderEdge conn inds z)).map
            (fun z => if z = y then shareOf val y s.index else 0) := by
        refine List.map_congr_left fun z hz => ?_
        obtain ⟨hz1, hz2⟩ := List.mem_filter.1 hz
        by_cases hzy : z = y
        · rw [if_pos hzy, hzy]
        · rw [if_neg hzy]
          unfold shareOf
          have : ∀ k : Nat, z.vertind[k]? ≠ some s.index := fun k hk =>
            hzy (hyone z hz1 (of_decide_eq_true hz2) (List.mem_of_getElem? hk))
          rw [if_neg (this 0), if_neg (this 1), add_zero]
      rw [h1]
      have hnd : (conn.edges.filter fun z => decide (BorderEdge conn inds z)).Nodup :=
        (List.Nodup.of_map _ h.unique.edges).filter _
      have hym : y ∈ conn.edges.filter fun z => decide (BorderEdge conn inds z) :=
        List.mem_filter.2 ⟨hy, decide_eq_true hb⟩
      have hgen : ∀ L : List Edge, L.Nodup → y ∈ L →
          (L.map fun z => if z = y then shareOf val y s.index else 0).sum = shareOf val y s.index := by
        intro L
        induction L with
        | nil => intro _ h2; simp at h2
        | cons z L ih =>
          intro h2 h3
          obtain ⟨h4, h5⟩ := List.nodup_cons.1 h2
          rw [List.map_cons, List.sum_cons]
          by_cases hzy : z = y
          · subst hzy
            rw [if_pos rfl]
            have : L.map (fun w => if w = z then shareOf val z s.index else 0) = L.map fun _ => 0 :=
              List.map_congr_left fun w hw => if_neg fun (hwz : w = z) => h4 (hwz ▸ hw)
            rw [this]
            simp
          · rw [if_neg hzy, zero_add]
            exact ih h5 ((List.mem_cons.1 h3).resolve_left fun h6 => hzy h6.symm)
      exact hgen _ hnd hym
    rw [this]
  · have hv := hval y la.snax lb.snax hab la lb hla hlb rfl rfl
    obtain ⟨ta, hta, htai, htas⟩ := hget la.snax ⟨la, hla, rfl⟩
    obtain ⟨tb, htb, htbi, htbs⟩ := hget lb.snax ⟨lb, hlb, rfl⟩
    unfold equilibrateEdge at hv
    rw [htas, htbs] at hv
    have hv := (Except.ok.inj hv).symm
    obtain ⟨p1, p2⟩ := C121_plane (coord la.snax) (coord lb.snax) (coord la.vert) (coord lb.vert) (base ta.fromvert)
      (base ta.tovert) (base tb.fromvert) (base tb.tovert)
    have hne : la.snax ≠ lb.snax := by
      have := h.ends y hy
      rw [hab] at this
      simpa using this
    unfold shareOf
    rw [hab, hv]
    simp only [List.getElem?_cons_zero, List.getElem?_cons_succ, Option.some.injEq]
    rw [hab] at hvy
    simp only [List.mem_cons, List.not_mem_nil, or_false] at hvy
    rcases hvy with hsa | hsb
    · have : ta = s := inj_of_nodup h.oneEach hta hs (htai.trans hsa.symm)
      subst this
      rw [if_pos hsa.symm, if_neg (fun h' => hne (h'.trans hsa).symm), add_zero]
      exact p1 hdet
    · have : tb = s := inj_of_nodup h.oneEach htb hs (htbi.trans hsb.symm)
      subst this
      rw [if_neg (fun h' => hne (h'.trans hsb)), if_pos hsb.symm, zero_add]
      exact p2 hdet

end

/-- Three snaxels in a row, each linked to a vertex. -/
def snaxRow : Mesh where
  verts := [⟨1, [1, 3], [], false⟩, ⟨2, [1, 2, 4], [], false⟩, ⟨3, [2, 5], [], false⟩, ⟨4, [3], [], false⟩, ⟨5, [4], [], false⟩,
    ⟨6, [5], [], false⟩]
  edges := [⟨1, [1, 2], [], false⟩, ⟨2, [2, 3], [], false⟩, ⟨3, [1, 4], [], false⟩, ⟨4, [2, 5], [], false⟩, ⟨5, [3, 6], [], false⟩]
  surfs := []
  volus := []
  meshDim := 3

/-- The snaxels are in the middle of the edges from vertex 1 at the origin along the axes, of length 2. -/
def rowSnaxs : List (Snax ℚ) := [⟨1, 1 / 2, 0, 1, 2, 1, 1⟩, ⟨2, 1 / 2, 0, 1, 3, 2, 1⟩, ⟨3, 1 / 2, 0, 1, 4, 3, 1⟩]

def p3 (x y z : ℚ) : P3 ℚ := fun i => if i = 0 then x else if i = 1 then y else z

/-- All points are in the plane where the sum of the coordinates is 1. -/
def rowCoord (i : Int) : P3 ℚ :=
  if i = 1 then p3 1 0 0 else if i = 2 then p3 0 1 0 else if i = 3 then p3 0 0 1 else if i = 4 then p3 3 (-1) (-1)
  else if i = 5 then p3 (-1) 3 (-1) else p3 (-1) (-1) 3

def rowBase (i : Int) : P3 ℚ :=
  if i = 1 then p3 0 0 0 else if i = 2 then p3 2 0 0 else if i = 3 then p3 0 2 0 else p3 0 0 2

/-- The first position of an entry. -/
def firstPos (l : List Int) (k : Int) : Int := posOf id l k

theorem firstPos_good (l : List Int) (k : Int) : GoodPos id l k (firstPos l k) := by
  rcases posOf_cases (ix := (id : Int → Int)) l k with ⟨h1, h2⟩ | ⟨p, h1, h2, h3⟩
  · exact .inl ⟨h1, h2⟩
  · exact .inr ⟨p, h1, l[p], List.getElem?_eq_getElem h2, h3⟩

theorem row_ready : PlaneReady snaxRow [1, 2, 3] rowSnaxs where
  unique := ⟨by decide +kernel, by decide +kernel, by decide +kernel, by decide +kernel⟩
  twoVerts := by unfold TwoVerts; decide +kernel
  ends := by decide +kernel
  edgeinds := by decide +kernel
  hasEdge := by unfold HasEdge; decide +kernel
  bothWays := by decide +kernel
  once := by decide
  two := by decide
  hasVert := by unfold HasVert; decide +kernel
  oneEach := by decide +kernel
  hasSnax := by decide +kernel

/-- The links of the row. -/
def rowLinks : List Link := [⟨1, 3, 4⟩, ⟨2, 4, 5⟩, ⟨3, 5, 6⟩]

theorem row_isLink (l : Link) : IsLink snaxRow [1, 2, 3] l ↔ l ∈ rowLinks := by
  rw [← mem_linkList row_ready]
  have : linkList snaxRow [1, 2, 3] = rowLinks := by decide +kernel
  rw [this]

theorem row_one : ∀ l l', IsLink snaxRow [1, 2, 3] l → IsLink snaxRow [1, 2, 3] l' → l.snax = l'.snax → l = l' := by
  intro l l' h1 h2 h3
  rw [row_isLink] at h1 h2
  simp only [rowLinks, List.mem_cons, List.not_mem_nil, or_false] at h1 h2
  rcases h1 with rfl | rfl | rfl <;> rcases h2 with rfl | rfl | rfl <;> first | rfl | (simp at h3)

/-- The sum is not a mean: three snaxels in a row which are in one plane with the vertices they are linked to; the one in the
middle is moved to the end of its edge, out of the plane. -/
theorem C121_two_edges_violated : ∃ l, PlaneReady snaxRow [1, 2, 3] rowSnaxs ∧
    (∀ i, InOnePlane (rowCoord i) (rowCoord 1) (rowCoord 2) (rowCoord 3)) ∧
    (∀ s ∈ rowSnaxs, ∀ i, pointAt (rowBase s.fromvert) (rowBase s.tovert) s.d i = rowCoord s.index i) ∧
    planeMatching snaxRow (equilibrateEdge rowCoord rowBase rowSnaxs) firstPos [1, 2, 3] rowSnaxs = .ok l ∧
    (⟨2, 1, 0, 1, 3, 2, 1⟩ : Snax ℚ) ∈ l ∧
    ¬ InOnePlane (pointAt (rowBase 1) (rowBase 3) 1) (rowCoord 1) (rowCoord 2) (rowCoord 3) := by
  refine ⟨[⟨1, 1 / 2, 0, 1, 2, 1, 1⟩, ⟨2, 1, 0, 1, 3, 2, 1⟩, ⟨3, 1 / 2, 0, 1, 4, 3, 1⟩], row_ready, ?_, by decide +kernel,
    by decide +kernel, by decide +kernel, by unfold InOnePlane; decide +kernel⟩
  intro i
  by_cases h1 : i = 1
  · subst h1; unfold InOnePlane; decide +kernel
  by_cases h2 : i = 2
  · subst h2; unfold InOnePlane; decide +kernel
  by_cases h3 : i = 3
  · subst h3; unfold InOnePlane; decide +kernel
  by_cases h4 : i = 4
  · subst h4; unfold InOnePlane; decide +kernel
  by_cases h5 : i = 5
  · subst h5; unfold InOnePlane; decide +kernel
  · have : rowCoord i = rowCoord 6 := by simp [rowCoord, h1, h2, h3, h4, h5]
    rw [this]
    unfold InOnePlane
    decide +kernel

/-- Snaxel 1 of the row has one edge to a snaxel with a link. -/
example : ∃ l d, planeMatching snaxRow (equilibrateEdge rowCoord rowBase rowSnaxs) firstPos [1, 2, 3] rowSnaxs = .ok l ∧
    { (⟨1, 1 / 2, 0, 1, 2, 1, 1⟩ : Snax ℚ) with d := d } ∈ l ∧
      InOnePlane (pointAt (rowBase 1) (rowBase 2) d) (rowCoord 4) (rowCoord 5) (middle (rowCoord 1) (rowCoord 2)) := by
  have hlink : ∀ v ∈ [1, 2, 3], HasLink snaxRow [1, 2, 3] v := by
    intro v hv
    simp only [List.mem_cons, List.not_mem_nil, or_false] at hv
    rcases hv with rfl | rfl | rfl
    · exact ⟨⟨1, 3, 4⟩, (row_isLink _).2 (by decide), rfl⟩
    · exact ⟨⟨2, 4, 5⟩, (row_isLink _).2 (by decide), rfl⟩
    · exact ⟨⟨3, 5, 6⟩, (row_isLink _).2 (by decide), rfl⟩
  refine C121_in_plane_partial row_ready firstPos_good row_one (y := ⟨1, [1, 2], [], false⟩) (by decide +kernel)
    (fun v hv => hlink v (by simp only [List.mem_cons, List.not_mem_nil, or_false] at hv ⊢; omega))
    (s := ⟨1, 1 / 2, 0, 1, 2, 1, 1⟩) (by decide +kernel) (by decide) ?_ (la := ⟨1, 3, 4⟩) (lb := ⟨2, 4, 5⟩)
    ((row_isLink _).2 (by decide)) ((row_isLink _).2 (by decide)) rfl (by decide +kernel)
  intro z hz hzb hzs
  have hno : ¬ HasLink snaxRow [1, 2, 3] 4 := fun h4 => by have := hasLink_inds h4; simp at this
  simp only [snaxRow, List.mem_cons, List.not_mem_nil, or_false] at hz
  rcases hz with rfl | rfl | rfl | rfl | rfl
  · rfl
  · simp at hzs
  · exact absurd (hzb 4 (by simp)) hno
  · simp at hzs
  · simp at hzs

/-- Two snaxels, the first linked to two vertices. -/
def forkMesh : Mesh where
  verts := [⟨1, [1, 2, 3], [], false⟩, ⟨2, [1, 4], [], false⟩, ⟨3, [2], [], false⟩, ⟨4, [3], [], false⟩, ⟨5, [4], [], false⟩]
  edges := [⟨1, [1, 2], [], false⟩, ⟨2, [1, 3], [], false⟩, ⟨3, [1, 4], [], false⟩, ⟨4, [2, 5], [], false⟩]
  surfs := []
  volus := []
  meshDim := 3

/-- A snaxel with two links is in the list twice, and its values are kept at one of the two places: whatever the values of
the edges, it is put at the start of its edge when that is not the last place. -/
theorem C121_two_links_violated : ∃ find : List Int → Int → Int, (∀ l k, GoodPos id l k (find l k)) ∧
    PlaneReady forkMesh [1, 2] rowSnaxs ∧ ∀ val : ℚ × ℚ, ∃ l,
      planeMatching forkMesh (fun _ _ _ _ => .ok val) find [1, 2] rowSnaxs = .ok l ∧
      (⟨1, 0, 0, 1, 2, 1, 1⟩ : Snax ℚ) ∈ l ∧ (⟨2, val.2, 0, 1, 3, 2, 1⟩ : Snax ℚ) ∈ l := by
  refine ⟨firstPos, firstPos_good, ⟨⟨by decide +kernel, by decide +kernel, by decide +kernel, by decide +kernel⟩,
    by unfold TwoVerts; decide +kernel, by decide +kernel, by decide +kernel, by unfold HasEdge; decide +kernel,
    by decide +kernel, by decide, by decide, by unfold HasVert; decide +kernel, by decide +kernel, by decide +kernel⟩,
    fun val => ?_⟩
  have h1 : links forkMesh [1, 2] = .ok [⟨1, 2, 3⟩, ⟨1, 3, 4⟩, ⟨2, 4, 5⟩] := by decide +kernel
  have h2 : edgeProcess forkMesh [1, 2] [1, 1, 2] = .ok [1, 1] := by decide +kernel
  refine ⟨[⟨1, 0 / 2, 0, 1, 2, 1, 1⟩, ⟨2, (0 + val.2 + val.2) / 2, 0, 1, 3, 2, 1⟩, ⟨3, 1 / 2, 0, 1, 4, 3, 1⟩], ?_, ?_, ?_⟩
  · unfold planeMatching
    rw [if_neg (by decide), h1]
    have h3 : List.map Link.snax [⟨1, 2, 3⟩, ⟨1, 3, 4⟩, ⟨2, 4, 5⟩] = [1, 1, 2] := rfl
    simp only [Except.bind]
    rw [h3, h2]
    rfl
  · simp
  · have : (0 + val.2 + val.2) / 2 = val.2 := by ring
    rw [this]
    simp

end RSVS.Props
