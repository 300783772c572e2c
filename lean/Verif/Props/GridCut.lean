import Verif.Lemmas.GridCut
import Verif.Props.Mesh

/-!
# Properties of the pieces of surfaces that the snake cuts: C83, C84
-/

namespace RSVS.Props

open RSVS.Spec RSVS.Mesh RSVS.Triang

/-! ### C83 -/

/-- C83: the walk leaves a snaxel away from the direction it moves in, to the nearest snaxel on that side or, if there
is none, to the vertex it came from. -/
theorem C83_direction (E : CutEnv) (hn : (E.snaxs.map CutSnax.index).Nodup) {s : CutSnax} (hs : s ∈ E.snaxs) :
    ∃ r, followDirection E s.index = .ok r ∧ r.2.2 = s.edgeind ∧
      ((r.1 = s.fromvert ∧ r.2.1 = 1 ∧ ∀ t ∈ E.snaxs, ¬ Behind s t) ∨
        ∃ t ∈ E.snaxs, r.1 = t.index ∧ r.2.1 = 2 ∧ Behind s t ∧ ∀ u ∈ E.snaxs, Behind s u → NotFarther s t u) := by
  have hf : isearch CutSnax.index E.snaxs s.index = .ok s := by
    cases h : isearch CutSnax.index E.snaxs s.index with
    | error e =>
      exfalso
      obtain ⟨x, hx, -⟩ := elemAt_posOf_ok (ix := CutSnax.index) (l := E.snaxs) (k := s.index)
        ⟨s, hs, rfl⟩
      unfold isearch at h
      rw [hx] at h; cases h
    | ok x =>
      obtain ⟨h1, h2⟩ := elemAt_posOf h
      rw [inj_of_nodup hn h1 hs h2]
  unfold followDirection
  rw [hf]
  refine ⟨_, rfl, ?_, ?_⟩
  · simp only
    split
    · rfl
    · split <;> rfl
  simp only
  have hmem : ∀ t, t ∈ (E.snaxs.filter fun t => t.edgeind == s.edgeind) ↔ t ∈ E.snaxs ∧ t.edgeind = s.edgeind := by
    intro t; simp
  have hbeh : ∀ t, Behind s t ↔ t.edgeind = s.edgeind ∧
      (if decide (s.fromvert < s.tovert) = true then t.orderedge < s.orderedge else s.orderedge < t.orderedge) := by
    intro t
    unfold Behind
    by_cases h : s.fromvert < s.tovert <;> simp [h]
  obtain ⟨h1, h2⟩ := nextOrder_spec (s.fromvert < s.tovert) s.orderedge
    (E.snaxs.filter fun t => t.edgeind == s.edgeind) none (by simp)
  by_cases hlen : (E.snaxs.filter fun t => t.edgeind == s.edgeind).length = 1
  · rw [if_pos hlen]
    refine .inl ⟨rfl, rfl, fun t ht hb => ?_⟩
    obtain ⟨x, hx⟩ := List.length_eq_one_iff.mp hlen
    have a := (hmem s).mpr ⟨hs, rfl⟩
    have b := (hmem t).mpr ⟨ht, hb.1⟩
    rw [hx, List.mem_singleton] at a b
    rw [a, b] at hb
    rcases hb.2 with h | h
    · exact absurd h.2 (by omega)
    · exact absurd h.2 (by omega)
  · rw [if_neg hlen]
    cases hr : nextOrder (s.fromvert < s.tovert) s.orderedge none
        (E.snaxs.filter fun t => t.edgeind == s.edgeind) with
    | none =>
      refine .inl ⟨rfl, rfl, fun t ht hb => ?_⟩
      exact (h1 hr).2 t ((hmem t).mpr ⟨ht, hb.1⟩) ((hbeh t).mp hb).2
    | some t =>
      obtain ⟨h3, h4, h5⟩ := h2 t hr
      have ht := (hmem t).mp (by rcases h3 with h3 | h3 <;> [cases h3; exact h3])
      refine .inr ⟨t, ht.1, rfl, rfl, (hbeh t).mpr ⟨ht.2, h4⟩, fun u hu hub => ?_⟩
      have h6 := h5 u (.inr ((hmem u).mpr ⟨hu, hub.1⟩)) ((hbeh u).mp hub).2
      have h7 := ((hbeh u).mp hub).2
      unfold NotFarther
      by_cases hd : decide (s.fromvert < s.tovert) = true
      · rw [if_pos hd] at h4 h6 h7; omega
      · rw [if_neg hd] at h4 h6 h7; omega

/-- Two snaxels that move apart on edge 10, and one on edge 20. -/
def cutSnaxs : List CutSnax := [⟨1, 1, 2, 10, 1⟩, ⟨2, 2, 1, 10, 2⟩, ⟨3, 3, 1, 20, 1⟩]

example : ∃ r, followDirection ⟨cutSnaxs, [], ⟨[], [], [], [], 3⟩, ⟨[], [], [], [], 3⟩, fun _ => true⟩ 2 = .ok r ∧ r.1 = 2 :=
  ⟨(2, 1, 10), by decide, rfl⟩

/-- The three edges of a triangle. -/
def cutSides : List Side := [⟨10, 1, 2⟩, ⟨20, 3, 1⟩, ⟨30, 2, 3⟩]

theorem vertex_edge {E : CutEnv} {sides : List Side} {v : Int} {p q : Side} (hn : (sides.map Side.index).Nodup)
    (h : MeetAt sides v p q) : ∃ t : Nat, (sides.flatMap fun s => [s.a, s.b])[t]? = some v ∧
      sides[t / 2]? = some q ∧
      followVertex E (sides.map Side.index) (sides.flatMap fun s => [s.a, s.b]) v p.index =
        match E.snaxs.filter fun s => s.edgeind == q.index with
        | [] => (vecGet (sides.flatMap fun s => [s.a, s.b]) ((t : Int) + 1 - (t % 2 : Nat) * 2)).map
            fun v => (v, 1, q.index)
        | [s] => .ok (s.index, 2, q.index)
        | s :: l =>
          (isearch Edge.index E.mesh.edges q.index).bind fun ed =>
          (vecGet ed.vertind ((t % 2 : Nat) : Int)).map fun (x : Int) =>
            ((chooseSnax (x < v) s (s.orderedge, s.index) l).2, 2, q.index) := by
  obtain ⟨i, j, hi, hj, hij, hp⟩ := placesOf_between hn h
  have hmem : ∀ t, t ∈ placesOf (sideEnds sides) v → (sideEnds sides)[t]? = some v := fun t ht => mem_placesOf.mp ht
  have hv : ∀ (k : Nat) (s : Side), sides[k]? = some s → vecGet (sides.map Side.index) (k : Int) = .ok s.index := by
    intro k s hk
    obtain ⟨h1, h2⟩ := List.getElem?_eq_some_iff.mp hk
    unfold vecGet
    rw [if_neg (by omega)]
    simp [hk]
  refine ⟨placeIn j q v, hmem _ (by rw [hp]; split <;> simp), by rw [placeIn_half]; exact hj, ?_⟩
  have hp' : placesOf (sides.flatMap fun s => [s.a, s.b]) v = _ := hp
  unfold followVertex
  rw [hp']
  by_cases hlt : i < j
  · simp only [hlt, if_true, placeIn_half]
    rw [hv j q hj]
    simp only [Except.bind]
    have hne : q.index ≠ p.index := fun e => h.diff e.symm
    rw [if_pos hne, placeIn_half, hv j q hj]
    rfl
  · simp only [hlt, if_false, placeIn_half]
    rw [hv i p hi]
    simp only [Except.bind]
    rw [if_neg (by simp), placeIn_half, hv j q hj]
    rfl

/-- C83 (partial): a walk that comes to a vertex along one edge of a surface leaves it along the other.  It comes to the
only snaxel of that edge or, if there is none, to the other end.

Missing: an edge with several snaxels; there the code takes the first one of a list, see `C83_vertex_violated`. -/
theorem C83_vertex_partial (E : CutEnv) {sides : List Side} {v w : Int} {p q : Side}
    (hn : (sides.map Side.index).Nodup) (h : MeetAt sides v p q) (hw : q = ⟨q.index, v, w⟩ ∨ q = ⟨q.index, w, v⟩) :
    ((∀ s ∈ E.snaxs, s.edgeind ≠ q.index) →
      followVertex E (sides.map Side.index) (sides.flatMap fun s => [s.a, s.b]) v p.index = .ok (w, 1, q.index)) ∧
    ∀ s ∈ E.snaxs, s.edgeind = q.index → (E.snaxs.filter fun t => t.edgeind == q.index).length = 1 →
      FirstFrom E.snaxs q.index v w s ∧
      followVertex E (sides.map Side.index) (sides.flatMap fun s => [s.a, s.b]) v p.index = .ok (s.index, 2, q.index) := by
  obtain ⟨t, ht, htq, heq⟩ := vertex_edge (E := E) hn h
  rw [heq]
  constructor
  · intro hnone
    rw [List.filter_eq_nil_iff.mpr (by intro s hs; simpa using hnone s hs)]
    simp only
    obtain ⟨ha, hb⟩ := sideEnds_get sides _ _ htq
    have ha : (sides.flatMap fun s => [s.a, s.b])[2 * (t / 2)]? = some q.a := ha
    have hb : (sides.flatMap fun s => [s.a, s.b])[2 * (t / 2) + 1]? = some q.b := hb
    have hab := h.once.2
    have key : ∀ (k : Nat) (x : Int), (sides.flatMap fun s => [s.a, s.b])[k]? = some x → x = w →
        (k : Int) = (t : Int) + 1 - (t % 2 : Nat) * 2 →
        (vecGet (sides.flatMap fun s => [s.a, s.b]) ((t : Int) + 1 - (t % 2 : Nat) * 2)).map
          (fun v => (v, (1 : Int), q.index)) = .ok (w, 1, q.index) := by
      intro k x hk hx he
      rw [← he]
      unfold vecGet
      rw [if_neg (by omega), Int.toNat_natCast, hk, hx]
      rfl
    rcases Nat.mod_two_eq_zero_or_one t with h2 | h2
    · rw [show 2 * (t / 2) = t by omega] at ha hb
      have hv : q.a = v := by rw [ht] at ha; exact (Option.some.inj ha).symm
      apply key (t + 1) q.b hb ?_ (by rw [h2]; omega)
      rcases hw with e | e
      · rw [e]
      · have h3 : q.b = v := by rw [e]
        omega
    · rw [show 2 * (t / 2) + 1 = t by omega] at hb
      have hv : q.b = v := by rw [ht] at hb; exact (Option.some.inj hb).symm
      apply key (2 * (t / 2)) q.a ha ?_ (by rw [h2]; omega)
      rcases hw with e | e
      · have h3 : q.a = v := by rw [e]
        omega
      · rw [e]
  · intro s hs hse hlen
    obtain ⟨x, hx⟩ := List.length_eq_one_iff.mp hlen
    have hall : ∀ u ∈ E.snaxs, u.edgeind = q.index → u = x := by
      intro u hu hue
      have : u ∈ E.snaxs.filter fun t => t.edgeind == q.index := by simp [hu, hue]
      rw [hx, List.mem_singleton] at this
      exact this
    have hsx := hall s hs hse
    subst hsx
    rw [hx]
    refine ⟨⟨hs, hse, fun u hu hue => ?_⟩, rfl⟩
    rw [hall u hu hue]
    split <;> exact Int.le_refl _

example : MeetAt cutSides 1 ⟨10, 1, 2⟩ ⟨20, 3, 1⟩ :=
  ⟨by decide, by unfold Side.Has; decide, by decide, by unfold Side.Has; decide, by decide⟩

/-- C83 (violated): when an edge has several snaxels, the walk comes to the same one from both ends, so it is not the first
one from both. -/
theorem C83_vertex_violated (E : CutEnv) {sides : List Side} {v w : Int} {p p' q : Side}
    (hn : (sides.map Side.index).Nodup) (h : MeetAt sides v p q) (h' : MeetAt sides w p' q) (hvw : v ≠ w)
    (hm : (E.mesh.edges.map Edge.index).Nodup) {ed : Edge} (hed : ed ∈ E.mesh.edges) (hedi : ed.index = q.index)
    (hedv : ed.vertind.length = 2) {s t : CutSnax} (hs : s ∈ E.snaxs) (ht : t ∈ E.snaxs) (hse : s.edgeind = q.index)
    (hte : t.edgeind = q.index) (hst : s.orderedge ≠ t.orderedge) :
    ∃ x ∈ E.snaxs,
      followVertex E (sides.map Side.index) (sides.flatMap fun s => [s.a, s.b]) v p.index = .ok (x.index, 2, q.index) ∧
      followVertex E (sides.map Side.index) (sides.flatMap fun s => [s.a, s.b]) w p'.index = .ok (x.index, 2, q.index) ∧
      ¬ (FirstFrom E.snaxs q.index v w x ∧ FirstFrom E.snaxs q.index w v x) := by
  obtain ⟨k, -, -, hk⟩ := vertex_edge (E := E) hn h
  obtain ⟨k', -, -, hk'⟩ := vertex_edge (E := E) hn h'
  have hs' : s ∈ E.snaxs.filter fun t => t.edgeind == q.index := by simp [hs, hse]
  have ht' : t ∈ E.snaxs.filter fun t => t.edgeind == q.index := by simp [ht, hte]
  have hx : ∀ x ∈ E.snaxs.filter (fun t => t.edgeind == q.index), x ∈ E.snaxs := fun x hx => (List.mem_filter.mp hx).1
  have hed' : isearch Edge.index E.mesh.edges q.index = .ok ed := by
    obtain ⟨x, hx, -⟩ := elemAt_posOf_ok (ix := Edge.index) (l := E.mesh.edges) (k := q.index) ⟨ed, hed, hedi⟩
    obtain ⟨h1, h2⟩ := elemAt_posOf hx
    rw [inj_of_nodup hm h1 hed (h2.trans hedi.symm)] at hx
    exact hx
  have hvec : ∀ k : Nat, ∃ y, vecGet ed.vertind ((k % 2 : Nat) : Int) = .ok y := by
    intro k
    have : k % 2 < ed.vertind.length := by omega
    unfold vecGet
    rw [if_neg (by omega), Int.toNat_natCast, List.getElem?_eq_getElem this]
    exact ⟨_, rfl⟩
  obtain ⟨y, hy⟩ := hvec k
  obtain ⟨y', hy'⟩ := hvec k'
  rw [hk, hk']
  generalize (E.snaxs.filter fun t => t.edgeind == q.index) = l at hs' ht' hx
  match l, hs', ht', hx with
  | [a], hs', ht', hx =>
    rw [List.mem_singleton] at hs' ht'
    exact absurd (by rw [hs', ht']) hst
  | a :: b :: l, hs', ht', hx =>
    refine ⟨a, hx a (by simp), ?_, ?_, ?_⟩
    · simp only [hed', Except.bind, hy, Except.map]
      rw [chooseSnax_first _ _ _ _ rfl]
    · simp only [hed', Except.bind, hy', Except.map]
      rw [chooseSnax_first _ _ _ _ rfl]
    · rintro ⟨h1, h2⟩
      have a1 := h1.2.2 s hs hse
      have a2 := h1.2.2 t ht hte
      have b1 := h2.2.2 s hs hse
      have b2 := h2.2.2 t ht hte
      by_cases hlt : v < w
      · rw [if_pos hlt] at a1 a2; rw [if_neg (by omega)] at b1 b2; omega
      · rw [if_neg hlt] at a1 a2; rw [if_pos (by omega)] at b1 b2; omega

/-- Both snaxels of edge 10 lie between its ends; from vertex 2 the walk should come to snaxel 2, but comes to snaxel 1. -/
example : followVertex ⟨cutSnaxs, [], ⟨[], [], [], [], 3⟩, ⟨[], [⟨10, [1, 2], [], false⟩], [], [], 3⟩, fun _ => true⟩
    [10, 20, 30] [1, 2, 3, 1, 2, 3] 2 30 = .ok (1, 2, 10) := by decide

/-! ### C84 -/

/-- C84 (partial): each piece runs along edges of the mesh and snaxel edges of its surface, from point to point; the
snaxel edges of all pieces are those on surfaces of the parents, each of them once.  Pieces are numbered from 1.

Missing: that the last point of a piece is joined to the first, which needs the right snaxel where an edge has several
(`C83_vertex_violated`). -/
theorem C84_pieces_partial {E : CutEnv} (ho : OnMesh E) {l : List TriSurf} (h : gridCut E = .ok l) :
    ∃ es : List (List Int), List.Forall₂ (IsPiece E) l es ∧ es.flatten.Nodup ∧
      (∀ e, e ∈ es.flatten ↔ ∃ f, OnSurf E e f ∧ E.inParent f = true) ∧
      l.map TriSurf.index = (List.range l.length).map fun (k : Nat) => ((k : Int) + 1) := by
  obtain ⟨es, h1, h2, -, h4, h5⟩ := cutLoop_ok ho E.snaxedges 0 0 _ (0, 0) (by simp) rfl h
  refine ⟨es, h1, h2, fun e => ⟨fun he => ?_, ?_⟩, ?_⟩
  · obtain ⟨es', hes, he⟩ := List.mem_flatten.mp he
    obtain ⟨n, hn⟩ := List.mem_iff_getElem?.mp hes
    have hn1 := (List.getElem?_eq_some_iff.mp hn).1
    have hp : ∃ p ∈ l, IsPiece E p es' := by
      have hlen := h1.length_eq
      refine ⟨l[n], List.getElem_mem (by omega), ?_⟩
      have := (List.forall₂_iff_get.mp h1).2 n (by omega) hn1
      rw [(List.getElem?_eq_some_iff.mp hn).2.symm]
      simpa using this
    obtain ⟨p, -, hp⟩ := hp
    exact ⟨_, hp.on e he, hp.parent⟩
  · rintro ⟨f, ⟨x, hx, rfl, rfl⟩, hf⟩
    obtain ⟨n, hn⟩ := List.mem_iff_getElem?.mp hx
    exact h4 n x (Nat.zero_le _) hn
      (by rw [List.getElem?_replicate, if_pos (List.getElem?_eq_some_iff.mp hn).1]) hf
  · apply List.ext_getElem?
    intro k
    rw [List.getElem?_map, List.getElem?_map]
    by_cases hk : k < l.length
    · rw [List.getElem?_eq_getElem hk, List.getElem?_range hk]
      have := h5 k l[k] (List.getElem?_eq_getElem hk)
      simp only [Option.map_some]
      rw [this]
      congr 1
      omega
    · rw [List.getElem?_eq_none (by omega), List.getElem?_eq_none (by simp; omega)]
      rfl

/-- A snake around vertex 1 of a tetrahedron. -/
def corner : Mesh where
  verts := [⟨1, [1, 2], [1/2, 0, 0], false⟩, ⟨2, [1, 3], [0, 1/2, 0], false⟩, ⟨3, [2, 3], [0, 0, 1/2], false⟩]
  edges := [⟨1, [1, 2], [1, 0], false⟩, ⟨2, [1, 3], [1, 0], false⟩, ⟨3, [2, 3], [1, 0], false⟩]
  surfs := [{ index := 1, edgeind := [1, 3, 2], voluind := [1, 0] }]
  volus := [{ index := 1, surfind := [1] }]
  meshDim := 3

/-- Surfaces 1 and 3 of the tetrahedron are on surfaces of the parents. -/
def cornerCut : CutEnv where
  snaxs := [⟨1, 1, 2, 1, 1⟩, ⟨2, 1, 3, 2, 1⟩, ⟨3, 1, 4, 3, 1⟩]
  snaxedges := [⟨1, 1⟩, ⟨2, 2⟩, ⟨3, 3⟩]
  conn := corner
  mesh := tetra
  inParent := fun f => f == 1 || f == 3

theorem cornerCut_on : OnMesh cornerCut where
  conn := sound_of_checked (by decide +kernel)
  connTwo := by unfold TwoVerts; decide +kernel
  meshTwo := by unfold TwoVerts; decide +kernel
  layers := by decide +kernel
  snaxs := by unfold EdgeVert; decide +kernel

example : gridCut cornerCut = .ok [⟨1, [(2, 1), (2, 2), (1, 1)], [0, 1], 1⟩, ⟨2, [(2, 2), (2, 3), (1, 1)], [0, 1], 3⟩] := by
  decide +kernel

/-- C84: the walk ends whatever the snake and the mesh are. -/
theorem C84_ends (E : CutEnv) : gridCut E ≠ .error .diverges :=
  cutLoop_ends _ _ _ _ _ (by simp)

end RSVS.Props
