import Verif.Lemmas.Spawn
import Verif.Props.SnakeJoin

/-!
# Properties of the snake spawned around a vertex: C90
-/

namespace RSVS.Props

open RSVS.Spec RSVS.Mesh RSVS.Spawn

variable {K : Type}

/-- C90: in space, around a vertex off the border, a closed snake is made that is the dual of what meets at the vertex. -/
theorem C90_space [Field K] (m : Mesh) (v : Int) (base : Nat) (hs : Sound m) (h2 : TwoVerts m) (hv : HasVert m v)
    (hr : Ringed m v) (h3 : m.volus ≠ []) (h0 : ¬ VoluAt m v 0) :
    ∃ n : Snake K, spawnNew m base v = .ok n ∧ n.base = base ∧ n.flipped = false ∧ Sound n.conn ∧ TwoVerts n.conn ∧
      InStep n ∧ DualRing m v n ∧ DualCells m v n ∧ InsideOnly m v n := by
  obtain ⟨y, fs, cs, F, C, sv, se, h⟩ := front (K := K) hs h2 hv hr
  have hvol : ∀ c ∈ C, HasVolu m c := by
    intro c hc
    have hc := (h.memC c).mp hc
    have hz : c ≠ 0 := by rintro rfl; exact h0 hc
    obtain ⟨f, -, hf⟩ := hc
    exact hs.noDangling.surfVolu _ _ hf hz
  obtain ⟨sf, hsf, hsf'⟩ := zip_mapM (f := fun c i => spawnSurf m F c i)
    (P := fun c i r => SurfOf m F c (i + 1) r) (l := C) fun i c hc => spawnSurf_ok (hvol c (List.mem_of_getElem? hc)) i
  have hsf' : Each C sf (SurfOf m F) := hsf'
  refine ⟨_, spawnNew_space h base h3 hsf, rfl, rfl, ?_, two_verts h, in_step h ?_, dual_ring h hs hr, ?_,
    inside_only h hs⟩
  · have hvs : ∀ w z, VoluSurf (assembled (K := K) m base v sv se sf
        [{ index := 1, surfind := (List.range C.length).map fun k : Nat => (k : Int) + 1 }]).conn w z ↔
        w = 1 ∧ ∃ c, Nth C z c := by
      intro w z
      rw [← mem_numbers]
      constructor
      · rintro ⟨b, hb, rfl, hz⟩
        cases List.mem_singleton.mp hb
        exact ⟨rfl, hz⟩
      · rintro ⟨rfl, hz⟩; exact ⟨_, List.mem_singleton.mpr rfl, rfl, hz⟩
    have hsv : ∀ z w, SurfVolu (assembled (K := K) m base v sv se sf
        [{ index := 1, surfind := (List.range C.length).map fun k : Nat => (k : Int) + 1 }]).conn z w ↔
        (w = 1 ∨ w = 0) ∧ ∃ c, Nth C z c := by
      intro z w
      constructor
      · rintro ⟨b, hb, rfl, hw⟩
        obtain ⟨r, hr', rfl⟩ := List.mem_map.mp hb
        obtain ⟨c, x, hx, vo, -, -, -, -, h1, -, h2⟩ := hsf'.mem hr'
        rw [h2] at hw
        exact ⟨by simpa using hw, c, h1 ▸ hx⟩
      · rintro ⟨hw, c, hx⟩
        obtain ⟨r, hr', vo, -, -, -, -, h1, -, h2⟩ := hsf'.nth hx
        exact ⟨r.2, List.mem_map.mpr ⟨r, hr', rfl⟩, h1, by rw [h2]; simpa using hw⟩
    have hvo : ∀ w, HasVolu (assembled (K := K) m base v sv se sf
        [{ index := 1, surfind := (List.range C.length).map fun k : Nat => (k : Int) + 1 }]).conn w ↔ w = 1 := by
      intro w
      constructor
      · rintro ⟨b, hb, rfl⟩
        cases List.mem_singleton.mp hb
        rfl
      · rintro rfl; exact ⟨_, List.mem_singleton.mpr rfl, rfl⟩
    refine ⟨⟨?_, ?_, ?_, ?_⟩, ⟨?_, ?_, ?_, ?_⟩, ⟨?_, ?_, ?_, ?_, ?_, ?_⟩, ⟨?_, ?_, ?_, ?_⟩, ⟨?_, ?_, ?_⟩⟩
    · show ((sv.map Prod.snd).map Vert.index).Nodup
      rw [List.map_map, h.eachV.index (ix := Vert.index ∘ Prod.snd) (fun a x b hb => by
        obtain ⟨ed, -, -, -, -, -, -, -, -, h1, -⟩ := hb; exact h1)]
      exact nodup_numbers _
    · show ((se.map Prod.snd).map Edge.index).Nodup
      rw [List.map_map, h.eachE.index (ix := Edge.index ∘ Prod.snd) (fun a x b hb => by
        obtain ⟨ed, -, -, -, -, h1, -⟩ := hb; exact h1)]
      exact nodup_numbers _
    · show ((sf.map Prod.snd).map Surf.index).Nodup
      rw [List.map_map, hsf'.index (ix := Surf.index ∘ Prod.snd) (fun a x b hb => by
        obtain ⟨ed, -, -, -, -, h1, -⟩ := hb; exact h1)]
      exact nodup_numbers _
    · exact List.nodup_singleton _
    · intro i hi; rw [has_vert h] at hi; exact hi.choose_spec.pos
    · intro i hi; rw [has_edge h] at hi; exact hi.choose_spec.pos
    · intro i hi; rw [has_surf hsf'] at hi; exact hi.choose_spec.pos
    · intro i hi; rw [hvo] at hi; omega
    · intro x z hx _; rw [rel_vertEdge h hs] at hx; rw [has_edge h]
      obtain ⟨e, f, -, hf, -⟩ := hx; exact ⟨f, hf⟩
    · intro z x hx _; rw [rel_edgeVert h hs hr] at hx; rw [has_vert h]
      obtain ⟨e, f, he, -, -⟩ := hx; exact ⟨e, he⟩
    · intro z w hx _; rw [rel_edgeSurf h hs h3] at hx; rw [has_surf hsf']
      obtain ⟨f, c, -, hc, -⟩ := hx; exact ⟨c, hc⟩
    · intro w z hx; rw [rel_surfEdge h hs hr h0 hsf'] at hx; rw [has_edge h]
      obtain ⟨f, c, hf, -, -⟩ := hx; exact ⟨f, hf⟩
    · intro w z hx hz; rw [hsv] at hx; rw [hvo]
      omega
    · intro w z hx _; rw [hvs] at hx; rw [has_surf hsf']
      exact hx.2
    · intro x hx; rw [rel_vertEdge h hs] at hx
      obtain ⟨e, f, -, hf, -⟩ := hx; exact absurd hf.pos (by omega)
    · intro x hx; rw [rel_edgeVert h hs hr] at hx
      obtain ⟨e, f, hf, -, -⟩ := hx; exact absurd hf.pos (by omega)
    · intro x hx; rw [rel_surfEdge h hs hr h0 hsf'] at hx
      obtain ⟨e, f, hf, -, -⟩ := hx; exact absurd hf.pos (by omega)
    · intro x hx; rw [hvs] at hx
      obtain ⟨-, f, hf⟩ := hx; exact absurd hf.pos (by omega)
    · intro x z _ _; rw [rel_vertEdge h hs, rel_edgeVert h hs hr]
    · intro x z _ _; rw [rel_edgeSurf h hs h3, rel_surfEdge h hs hr h0 hsf']
    · intro z w _ hw; rw [hsv, hvs]; rw [hvo] at hw
      constructor
      · rintro ⟨-, hz⟩; exact ⟨hw, hz⟩
      · rintro ⟨rfl, hz⟩; exact ⟨.inl rfl, hz⟩
  · apply List.map_congr_left
    intro r hr'
    obtain ⟨c, x, hx, vo, -, -, h1, -, h2, -⟩ := hsf'.mem hr'
    exact h1.trans h2.symm
  · have hsvm : (sf.map Prod.fst).map SnaxSurf.voluind = C := by
      rw [List.map_map]
      exact hsf'.field fun a x b hb => by obtain ⟨ed, -, -, -, h1, -⟩ := hb; exact h1
    refine ⟨⟨by show ((sf.map Prod.fst).map SnaxSurf.voluind).Nodup; rw [hsvm]; exact h.nodupC, fun c => by
      show c ∈ (sf.map Prod.fst).map SnaxSurf.voluind ↔ _; rw [hsvm]; exact h.memC c⟩, ?_, 1, ?_, ?_⟩
    · intro b hb c hc
      obtain ⟨q, hq, rfl⟩ := List.mem_map.mp hb
      obtain ⟨r, hr', rfl⟩ := List.mem_map.mp hc
      obtain ⟨f, z, hz, sf, hsf, -, h3, h4, -⟩ := h.eachE.mem hq
      obtain ⟨c, w, hw, vo, -, -, h5, h6, -⟩ := hsf'.mem hr'
      rw [rel_surfEdge h hs hr h0 hsf', h3, h4, h5, h6]
      constructor
      · rintro ⟨f', c', hf, hc, hfc⟩; rw [hz.fun hf, hw.fun hc]; exact hfc
      · intro hfc; exact ⟨f, c, hz, hw, hfc⟩
    · intro w
      constructor
      · rintro ⟨b, hb, rfl⟩
        cases List.mem_singleton.mp hb
        rfl
      · rintro rfl; exact ⟨_, List.mem_singleton.mpr rfl, rfl⟩
    · intro c
      rw [has_surf hsf', ← mem_numbers]
      constructor
      · rintro ⟨b, hb, -, hz⟩
        cases List.mem_singleton.mp hb
        exact hz
      · intro hz; exact ⟨_, List.mem_singleton.mpr rfl, rfl, hz⟩

private def planeFace (F : List Int) : List (SnaxSurf × Surf) :=
  [({ index := 1, voluind := 0 },
    { index := 1, edgeind := (List.range F.length).map fun k : Nat => (k : Int) + 1, voluind := [0, 0] })]

/-- C90: in the plane, around a vertex off the border, a closed ring is made that is the dual of what meets at the
vertex. -/
theorem C90_plane [Field K] (m : Mesh) (v : Int) (base : Nat) (hs : Sound m) (h2 : TwoVerts m) (hv : HasVert m v)
    (hr : Ringed m v) (h3 : m.volus = []) (hc : ∃ c, VoluAt m v c) :
    ∃ n : Snake K, spawnNew m base v = .ok n ∧ n.base = base ∧ n.flipped = false ∧ Sound n.conn ∧ TwoVerts n.conn ∧
      InStep n ∧ DualRing m v n ∧ DualFace n ∧ InsideOnly m v n := by
  obtain ⟨y, fs, cs, F, C, sv, se, h⟩ := front (K := K) hs h2 hv hr
  have hzero : ∀ c, VoluAt m v c → c = 0 := by
    rintro c ⟨f, -, hf⟩
    by_contra hz
    obtain ⟨x, hx, -⟩ := hs.noDangling.surfVolu _ _ hf hz
    rw [h3] at hx; cases hx
  have hC : C = [0] := by
    obtain ⟨c, hc⟩ := hc
    have h0 := hzero c hc
    subst h0
    have hm : (0 : Int) ∈ C := (h.memC 0).mpr hc
    have hall : ∀ x ∈ C, x = 0 := fun x hx => hzero x ((h.memC x).mp hx)
    have hn := h.nodupC
    match C, hm, hall, hn with
    | [a], _, hall, _ => rw [hall a (by simp)]
    | a :: b :: l, _, hall, hn =>
      have : a = b := (hall a (by simp)).trans (hall b (by simp)).symm
      subst this
      simp at hn
  have hsf : C.zipIdx.map (fun x => spawnSurf2D F.length x.1 x.2) =
      (planeFace F) := by rw [hC]; rfl
  have hrun := spawnNew_plane h base h3 (by rw [hC]; simp)
  rw [hsf] at hrun
  have hhs : ∀ w, HasSurf (assembled (K := K) m base v sv se
      (planeFace F) []).conn w ↔ w = 1 := by
    intro w
    constructor
    · rintro ⟨b, hb, rfl⟩
      cases List.mem_singleton.mp hb
      rfl
    · rintro rfl; exact ⟨_, List.mem_singleton.mpr rfl, rfl⟩
  have hse : ∀ w z, SurfEdge (assembled (K := K) m base v sv se
      (planeFace F) []).conn w z ↔ w = 1 ∧ ∃ f, Nth F z f := by
    intro w z
    rw [← mem_numbers]
    constructor
    · rintro ⟨b, hb, rfl, hz⟩
      cases List.mem_singleton.mp hb
      exact ⟨rfl, hz⟩
    · rintro ⟨rfl, hz⟩; exact ⟨_, List.mem_singleton.mpr rfl, rfl, hz⟩
  have hsv : ∀ w z, SurfVolu (assembled (K := K) m base v sv se
      (planeFace F) []).conn w z → z = 0 := by
    rintro w z ⟨b, hb, rfl, hz⟩
    cases List.mem_singleton.mp hb
    simpa using hz
  have hes : ∀ z w, EdgeSurf (assembled (K := K) m base v sv se
      (planeFace F) []).conn z w ↔ (w = 1 ∨ w = 0) ∧ ∃ f, Nth F z f := by
    intro z w
    have hl : decide (m.volus.length > 0) = false := by simp [h3]
    constructor
    · rintro ⟨b, hb, rfl, hx⟩
      obtain ⟨r, hr', rfl⟩ := List.mem_map.mp hb
      obtain ⟨f, z, hz, sf, hsf, hi, -, -, h1, -, -, h2⟩ := h.eachE.mem hr'
      rw [h2, hl, if_neg (by simp)] at hx
      exact ⟨by simpa using hx, f, h1 ▸ hz⟩
    · rintro ⟨hw, f, hz⟩
      obtain ⟨r, hr', sf, hsf, hi, -, -, h1, -, -, h2⟩ := h.eachE.nth hz
      refine ⟨r.2, List.mem_map.mpr ⟨r, hr', rfl⟩, h1, ?_⟩
      rw [h2, hl, if_neg (by simp)]
      simpa using hw
  refine ⟨_, hrun, rfl, rfl, ?_, two_verts h, in_step h rfl, dual_ring h hs hr, ⟨⟨1, hhs, fun b => ?_⟩, ?_⟩,
    inside_only h hs⟩
  · refine ⟨⟨?_, ?_, ?_, ?_⟩, ⟨?_, ?_, ?_, ?_⟩, ⟨?_, ?_, ?_, ?_, ?_, ?_⟩, ⟨?_, ?_, ?_, ?_⟩, ⟨?_, ?_, ?_⟩⟩
    · show ((sv.map Prod.snd).map Vert.index).Nodup
      rw [List.map_map, h.eachV.index (ix := Vert.index ∘ Prod.snd) (fun a x b hb => by
        obtain ⟨ed, -, -, -, -, -, -, -, -, h1, -⟩ := hb; exact h1)]
      exact nodup_numbers _
    · show ((se.map Prod.snd).map Edge.index).Nodup
      rw [List.map_map, h.eachE.index (ix := Edge.index ∘ Prod.snd) (fun a x b hb => by
        obtain ⟨ed, -, -, -, -, h1, -⟩ := hb; exact h1)]
      exact nodup_numbers _
    · exact List.nodup_singleton _
    · exact List.nodup_nil
    · intro i hi; rw [has_vert h] at hi; exact hi.choose_spec.pos
    · intro i hi; rw [has_edge h] at hi; exact hi.choose_spec.pos
    · intro i hi; rw [hhs] at hi; omega
    · rintro i ⟨x, hx, -⟩; cases hx
    · intro x z hx _; rw [rel_vertEdge h hs] at hx; rw [has_edge h]
      obtain ⟨e, f, -, hf, -⟩ := hx; exact ⟨f, hf⟩
    · intro z x hx _; rw [rel_edgeVert h hs hr] at hx; rw [has_vert h]
      obtain ⟨e, f, he, -, -⟩ := hx; exact ⟨e, he⟩
    · intro z w hx hw; rw [hes] at hx; rw [hhs]
      omega
    · intro w z hx; rw [hse] at hx; rw [has_edge h]
      exact hx.2
    · intro w z hx hz; exact absurd (hsv w z hx) hz
    · rintro w z ⟨x, hx, -⟩; cases hx
    · intro x hx; rw [rel_vertEdge h hs] at hx
      obtain ⟨e, f, -, hf, -⟩ := hx; exact absurd hf.pos (by omega)
    · intro x hx; rw [rel_edgeVert h hs hr] at hx
      obtain ⟨e, f, hf, -, -⟩ := hx; exact absurd hf.pos (by omega)
    · intro x hx; rw [hse] at hx
      obtain ⟨-, f, hf⟩ := hx; exact absurd hf.pos (by omega)
    · rintro x ⟨b, hb, -⟩; cases hb
    · intro x z _ _; rw [rel_vertEdge h hs, rel_edgeVert h hs hr]
    · intro x z _ hz; rw [hes, hse]; rw [hhs] at hz
      constructor
      · rintro ⟨-, hx⟩; exact ⟨hz, hx⟩
      · rintro ⟨rfl, hx⟩; exact ⟨.inl rfl, hx⟩
    · rintro x z _ ⟨b, hb, -⟩; cases hb
  · rw [hse, has_edge h]
    exact ⟨fun hx => hx.2, fun hx => ⟨rfl, hx⟩⟩
  · rintro i ⟨x, hx, -⟩; cases hx

/-- What joining does, in one statement. -/
theorem join_all (s n : Snake K) (hb : s.base = n.base) (hlen : s.vertIn.length = n.vertIn.length) (hs : InStep s)
    (hc : Sound s.conn) (hs' : InStep n) (hc' : Sound n.conn) :
    ∃ r, s.concatenate (s.makeCompatible n) 0 = .ok r ∧ InStep r ∧ Sound r.conn ∧ (r.snaxs.map Snax.index).Nodup ∧
      r.flipped = s.flipped ∧ r.base = s.base ∧ r.vertIn.length = s.vertIn.length ∧
      (TwoVerts s.conn → TwoVerts n.conn → TwoVerts r.conn) ∧
      (∃ new, r.snaxs = s.snaxs ++ new ∧ new.map (fun x => (x.d, x.v, x.fromvert, x.tovert, x.edgeind)) =
        n.snaxs.map fun x => (x.d, x.v, x.fromvert, x.tovert, x.edgeind)) ∧
      (Independent s n → ∀ i, InsideAt r i ↔ InsideAt s i ∨ InsideAt n i) ∧
      (¬ Independent s n → ∀ i, InsideAt r i ↔ InsideAt s i ∧ InsideAt n i) := by
  obtain ⟨r, hr, h1, h2, h3, -, -, -⟩ := C87_join s n 0 hb hlen hs hs' hc hc'
  obtain ⟨r', hr', h4, h7, h5, h6⟩ := C40_join s (s.makeCompatible n) hb hlen
  rw [hr] at hr'
  cases hr'
  have hform : ∃ w, r = { s with
      snaxs := s.snaxs ++ (s.makeCompatible n).snaxs
      snaxedges := s.snaxedges ++ (s.makeCompatible n).snaxedges
      snaxsurfs := s.snaxsurfs ++ (s.makeCompatible n).snaxsurfs
      conn := s.conn.concatenate (s.makeCompatible n).conn
      vertIn := w } := by
    unfold Snake.concatenate at hr
    rw [if_pos (show s.base = (s.makeCompatible n).base from hb)] at hr
    obtain ⟨c, -, hr⟩ := (bind_ok_iff).mp hr
    cases hj : (if c = true then Snake.joinOr else Snake.joinAnd) s.flipped (s.makeCompatible n).flipped s.vertIn
      (s.makeCompatible n).vertIn with
    | error e => rw [hj] at hr; cases hr
    | ok w => rw [hj] at hr; cases hr; exact ⟨w, rfl⟩
  refine ⟨r, hr, h1, h2, h3, h4, ?_, h7, ?_, ?_, h5, h6⟩
  · obtain ⟨w, rfl⟩ := hform; rfl
  · obtain ⟨w, rfl⟩ := hform
    intro ha hb' e he
    rcases List.mem_append.mp he with he | he
    · exact ha e he
    · obtain ⟨e', he', rfl⟩ := List.mem_map.mp he
      simpa [Edge.shift] using hb' e' he'
  · refine ⟨(s.makeCompatible n).snaxs, ?_, ?_⟩
    · obtain ⟨w, rfl⟩ := hform; rfl
    · simp [Snake.makeCompatible, Snake.changeIndices, Function.comp_def]

/-- C90: the new snake is joined to the old one, whose layers and connectivity stay sound: the snaxels added are those of
the new snake, and the vertex is now inside as well; when it was inside already, it is then the only one. -/
theorem C90_joined [Field K] (s n : Snake K) (m : Mesh) (v : Int) (hn : spawnNew m s.base v = .ok n) (hb : n.base = s.base)
    (hl : s.vertIn.length = m.verts.length) (hs : InStep s) (hc : Sound s.conn) (hs' : InStep n) (hc' : Sound n.conn)
    (hi : InsideOnly m v n) :
    ∃ r, spawnAtVertex s m v = .ok r ∧ InStep r ∧ Sound r.conn ∧ (r.snaxs.map Snax.index).Nodup ∧
      r.flipped = s.flipped ∧ r.base = s.base ∧ r.vertIn.length = s.vertIn.length ∧
      (TwoVerts s.conn → TwoVerts n.conn → TwoVerts r.conn) ∧
      (∃ new, r.snaxs = s.snaxs ++ new ∧ new.map (fun x => (x.d, x.v, x.fromvert, x.tovert, x.edgeind)) =
        n.snaxs.map fun x => (x.d, x.v, x.fromvert, x.tovert, x.edgeind)) ∧
      ((∀ i y, m.verts[i]? = some y → y.index = v → ¬ InsideAt s i) →
        ∀ i, InsideAt r i ↔ InsideAt s i ∨ ∃ y, m.verts[i]? = some y ∧ y.index = v) ∧
      ((∃ i y, m.verts[i]? = some y ∧ y.index = v ∧ InsideAt s i) →
        ∀ i, InsideAt r i → ∃ y, m.verts[i]? = some y ∧ y.index = v) := by
  obtain ⟨r, hr, h1, h2, h3, h4, h5, h6, h7, h8, h9, h10⟩ := join_all s n hb.symm (hl.trans hi.1.symm) hs hc hs' hc'
  refine ⟨r, ?_, h1, h2, h3, h4, h5, h6, h7, h8, ?_, ?_⟩
  · unfold spawnAtVertex
    rw [hn]
    exact hr
  · intro hout i
    rw [h9 ?_ i, hi.2]
    rintro i ⟨ha, hb'⟩
    obtain ⟨y, hy, hyv⟩ := (hi.2 i).mp hb'
    exact hout i y hy hyv ha
  · rintro ⟨i, y, hy, hyv, hin'⟩ j hj
    have : ¬ Independent s n := fun h => h i ⟨hin', (hi.2 i).mpr ⟨y, hy, hyv⟩⟩
    exact (hi.2 j).mp ((h10 this j).mp hj).2

/-! ### Vertices on the border -/

private theorem concatField_throws {α : Type} {ix : α → Int} {field : α → List Int} {l : List α} : ∀ (ks : List Int)
    (acc : List Int), (∃ k ∈ ks, ¬ ∃ a ∈ l, ix a = k) →
    (posList ix l ks).foldlM (m := Except Fault) (fun acc p => do
        let a ← elemAt l p
        pure (acc ++ field a)) acc = .error .throws
  | [], _, h => by obtain ⟨k, hk, -⟩ := h; cases hk
  | k :: ks, acc, h => by
    simp only [posList, List.map_cons, List.foldlM_cons]
    rcases posOf_cases (ix := ix) l k with ⟨h1, -⟩ | ⟨p, h1, hp, h2⟩
    · rw [h1]; rfl
    · rw [h1, elemAt_nat l p hp]
      refine concatField_throws ks _ ?_
      obtain ⟨k', hk', hno⟩ := h
      rcases List.mem_cons.mp hk' with rfl | hk'
      · exact absurd ⟨_, List.getElem_mem hp, h2⟩ hno
      · exact ⟨k', hk', hno⟩

private theorem zip_mapM_throws {α β : Type} {f : α → Nat → Res β} : ∀ {l : List α} (k : Nat),
    (∀ a ∈ l, ∀ i, f a i = .error .throws ∨ ∃ b, f a i = .ok b) → (∃ a ∈ l, ∀ i, f a i = .error .throws) →
    (l.zipIdx k).mapM (m := Except Fault) (fun x => f x.1 x.2) = .error .throws
  | [], _, _, h => by obtain ⟨a, ha, -⟩ := h; cases ha
  | a :: l, k, h, hx => by
    rw [List.zipIdx_cons, List.mapM_cons]
    rcases h a (by simp) k with he | ⟨b, hb⟩
    · simp only [he]; rfl
    · have hl : ∃ a ∈ l, ∀ i, f a i = .error .throws := by
        obtain ⟨a', ha', hf⟩ := hx
        rcases List.mem_cons.mp ha' with rfl | ha'
        · rw [hf k] at hb; cases hb
        · exact ⟨a', ha', hf⟩
      simp only [hb, zip_mapM_throws (f := f) (k + 1) (fun a ha => h a (by simp [ha])) hl]
      rfl

/-- C90: nothing is made around a vertex on the border: an exception is thrown before the snake is changed. -/
theorem C90_border [Field K] (s : Snake K) (m : Mesh) (v : Int) (hs : Sound m) (h2 : TwoVerts m) (hv : HasVert m v)
    (hb : SurfAt m v 0 ∨ (Ringed m v ∧ m.volus ≠ [] ∧ VoluAt m v 0)) :
    spawnAtVertex s m v = .error .throws := by
  have no : ∀ {α : Type} {ix : α → Int} {l : List α} {k : Int}, (∀ i, (∃ a ∈ l, ix a = i) → 0 < i) → k = 0 →
      ¬ ∃ a ∈ l, ix a = k := by
    rintro α ix l k hp rfl h
    exact absurd (hp 0 h) (by omega)
  suffices h : spawnNew (K := K) m s.base v = .error .throws by
    unfold spawnAtVertex; rw [h]; rfl
  rcases hb with ⟨e, he, hf⟩ | ⟨hr, h3, h0⟩
  · obtain ⟨y, hy, hym, rfl⟩ := elemAt_posOf_ok (ix := Vert.index) hv
    have hE : ∀ e ∈ y.edgeind, HasEdge m e := by
      intro e he
      have h : VertEdge m y.index e := ⟨y, hym, rfl, he⟩
      exact hs.noDangling.vertEdge _ _ h (by rintro rfl; exact hs.zeroOutside.vertEdge _ h)
    obtain ⟨fs, hfs, hfs'⟩ := Refine.concatField_ok (ix := Edge.index) (field := Edge.surfind) hE hs.unique.edges
    have hm : (0 : Int) ∈ sortUnique fs := by
      rw [mem_sortUnique, hfs']
      obtain ⟨ed, hed, rfl, hf⟩ := hf
      obtain ⟨y', hy', h', he⟩ := he
      rw [inj_of_nodup hs.unique.verts hy' hym h'] at he
      exact ⟨ed, hed, he, hf⟩
    unfold spawnNew
    rw [hy]; simp only [Except.bind]
    rw [hfs]; simp only
    rw [show concatField m.surfs Surf.voluind (posList Surf.index m.surfs (sortUnique fs)) = .error .throws from
      concatField_throws (ix := Surf.index) (field := Surf.voluind) (l := m.surfs) _ [] ⟨0, hm, no hs.pos.surfs rfl⟩]
  · obtain ⟨y, fs, cs, F, C, sv, se, h⟩ := front (K := K) hs h2 hv hr
    have hl : decide (m.volus.length > 0) = true := by simpa [List.length_pos_iff] using h3
    have hv := h.verts; have he := h.edges
    rw [hl] at he
    have hF := h.eqF; have hC := h.eqC; have hc := h.readC
    unfold spawnNew
    rw [h.find]; simp only [Except.bind]
    rw [h.readF]; simp only
    rw [← hF, hc]; simp only
    rw [← hC, hv]; simp only
    rw [hl, he]; simp only [if_true]
    rw [zip_mapM_throws (f := fun c i => spawnSurf m F c i) 0 ?_ ?_]
    · rfl
    · intro c _ i
      unfold spawnSurf isearch
      rcases posOf_cases (ix := Volu.index) m.volus c with ⟨h1, -⟩ | ⟨p, h1, hp, -⟩
      · left; rw [h1]; rfl
      · right; rw [h1, elemAt_nat _ p hp]; exact ⟨_, rfl⟩
    · refine ⟨0, (h.memC 0).mpr h0, fun i => ?_⟩
      unfold spawnSurf isearch
      have : posOf Volu.index m.volus 0 = -1 :=
        (posOf_eq_neg_one_iff _ _).mpr fun a ha h => no hs.pos.volus rfl ⟨a, ha, h⟩
      rw [this]; rfl

/-! ### Examples -/

/-- Four tetrahedra around vertex 5. -/
def fan : Mesh where
  verts := [{ index := 1, edgeind := [1, 2, 3, 7], coord := [0, 0, 0] }, { index := 2, edgeind := [1, 4, 5, 8], coord := [4, 0, 0] },
    { index := 3, edgeind := [2, 4, 6, 9], coord := [0, 4, 0] }, { index := 4, edgeind := [3, 5, 6, 10], coord := [0, 0, 4] },
    { index := 5, edgeind := [7, 8, 9, 10], coord := [1, 1, 1] }]
  edges := [{ index := 1, vertind := [1, 2], surfind := [1, 2, 5] }, { index := 2, vertind := [1, 3], surfind := [1, 3, 6] },
    { index := 3, vertind := [1, 4], surfind := [2, 3, 7] }, { index := 4, vertind := [2, 3], surfind := [1, 4, 8] },
    { index := 5, vertind := [2, 4], surfind := [2, 4, 9] }, { index := 6, vertind := [3, 4], surfind := [3, 4, 10] },
    { index := 7, vertind := [1, 5], surfind := [5, 6, 7] }, { index := 8, vertind := [2, 5], surfind := [5, 8, 9] },
    { index := 9, vertind := [3, 5], surfind := [6, 8, 10] }, { index := 10, vertind := [4, 5], surfind := [7, 9, 10] }]
  surfs := [{ index := 1, edgeind := [1, 2, 4], voluind := [1, 0] }, { index := 2, edgeind := [1, 3, 5], voluind := [2, 0] },
    { index := 3, edgeind := [2, 3, 6], voluind := [3, 0] }, { index := 4, edgeind := [4, 5, 6], voluind := [4, 0] },
    { index := 5, edgeind := [1, 7, 8], voluind := [1, 2] }, { index := 6, edgeind := [2, 7, 9], voluind := [1, 3] },
    { index := 7, edgeind := [3, 7, 10], voluind := [2, 3] }, { index := 8, edgeind := [4, 8, 9], voluind := [1, 4] },
    { index := 9, edgeind := [5, 8, 10], voluind := [2, 4] }, { index := 10, edgeind := [6, 9, 10], voluind := [3, 4] }]
  volus := [{ index := 1, surfind := [1, 5, 6, 8] }, { index := 2, surfind := [2, 5, 7, 9] },
    { index := 3, surfind := [3, 6, 7, 10] }, { index := 4, surfind := [4, 8, 9, 10] }]

/-- Three triangles around vertex 4. -/
def plate : Mesh where
  verts := [{ index := 1, edgeind := [1, 3, 4], coord := [0, 0, 0] }, { index := 2, edgeind := [1, 2, 5], coord := [4, 0, 0] },
    { index := 3, edgeind := [2, 3, 6], coord := [0, 4, 0] }, { index := 4, edgeind := [4, 5, 6], coord := [1, 1, 0] }]
  edges := [{ index := 1, vertind := [1, 2], surfind := [1, 0] }, { index := 2, vertind := [2, 3], surfind := [2, 0] },
    { index := 3, vertind := [1, 3], surfind := [3, 0] }, { index := 4, vertind := [1, 4], surfind := [1, 3] },
    { index := 5, vertind := [2, 4], surfind := [1, 2] }, { index := 6, vertind := [3, 4], surfind := [2, 3] }]
  surfs := [{ index := 1, edgeind := [1, 4, 5], voluind := [0, 0] }, { index := 2, edgeind := [2, 5, 6], voluind := [0, 0] },
    { index := 3, edgeind := [3, 4, 6], voluind := [0, 0] }]
  volus := []

/-- Reading the surfaces at a vertex by lists. -/
private theorem surfAt_list {m : Mesh} {v f : Int} : SurfAt m v f ↔
    ∃ x ∈ m.verts, x.index = v ∧ ∃ ed ∈ m.edges, ed.index ∈ x.edgeind ∧ f ∈ ed.surfind := by
  constructor
  · rintro ⟨e, ⟨x, hx, rfl, he⟩, ed, hed, rfl, hf⟩; exact ⟨x, hx, rfl, ed, hed, he, hf⟩
  · rintro ⟨x, hx, rfl, ed, hed, he, hf⟩; exact ⟨_, ⟨x, hx, rfl, he⟩, ed, hed, rfl, hf⟩

theorem voluAt_list {m : Mesh} {v c : Int} : VoluAt m v c ↔
    ∃ sf ∈ m.surfs, c ∈ sf.voluind ∧ ∃ x ∈ m.verts, x.index = v ∧ ∃ ed ∈ m.edges, ed.index ∈ x.edgeind ∧ sf.index ∈ ed.surfind := by
  constructor
  · rintro ⟨f, hf, sf, hsf, rfl, hc⟩; exact ⟨sf, hsf, hc, surfAt_list.mp hf⟩
  · rintro ⟨sf, hsf, hc, h⟩; exact ⟨_, surfAt_list.mpr h, sf, hsf, rfl, hc⟩

theorem ringed_list {m : Mesh} {v : Int}
    (h : ∀ y ∈ m.verts, y.index = v → y.edgeind.Nodup ∧ (∀ ed ∈ m.edges, ed.index ∈ y.edgeind → 0 ∉ ed.surfind ∧
      ∀ x ∈ m.surfs, x.index ∈ ed.surfind → (x.edgeind.filter fun e => decide (e ∈ y.edgeind)).length = 2))
    (hu : (m.verts.map Vert.index).Nodup) : Ringed m v := by
  refine ⟨fun y hy hv => (h y hy hv).1, fun hs => ?_, fun y hy hv x hx hs => ?_⟩
  · obtain ⟨x, hx, hv, ed, hed, he, hf⟩ := surfAt_list.mp hs
    exact ((h x hx hv).2 ed hed he).1 hf
  · obtain ⟨y', hy', hv', ed, hed, he, hf⟩ := surfAt_list.mp hs
    have := inj_of_nodup hu hy' hy (hv'.trans hv.symm)
    subst this
    exact ((h y' hy hv).2 ed hed he).2 x hx hf

example : Sound fan ∧ TwoVerts fan ∧ HasVert fan 5 ∧ Ringed fan 5 ∧ fan.volus ≠ [] ∧ ¬ VoluAt fan 5 0 ∧
    (spawnNew (K := ℚ) fan 0 5).toOption.map (fun n => n.conn.edges.map Edge.vertind) =
      some [[1, 2], [1, 3], [1, 4], [2, 3], [2, 4], [3, 4]] :=
  ⟨sound_of_checked (by decide +kernel), by unfold TwoVerts; decide +kernel, by unfold HasVert; decide +kernel,
    ringed_list (by decide +kernel) (by decide +kernel), by decide +kernel, by rw [voluAt_list]; decide +kernel,
    by decide +kernel⟩

example : Sound plate ∧ TwoVerts plate ∧ HasVert plate 4 ∧ Ringed plate 4 ∧ plate.volus = [] ∧ (∃ c, VoluAt plate 4 c) ∧
    (spawnNew (K := ℚ) plate 0 4).toOption.map (fun n => (n.conn.edges.map Edge.vertind, n.snaxs.map Snax.tovert)) =
      some ([[1, 2], [2, 3], [1, 3]], [1, 2, 3]) :=
  ⟨sound_of_checked (by decide +kernel), by unfold TwoVerts; decide +kernel, by unfold HasVert; decide +kernel,
    ringed_list (by decide +kernel) (by decide +kernel), by decide +kernel, ⟨0, by rw [voluAt_list]; decide +kernel⟩,
    by decide +kernel⟩

/-- A snake made twice: around vertex 5, then again. -/
example : ∃ s n : Snake ℚ, spawnNew fan 0 5 = .ok s ∧ spawnNew fan s.base 5 = .ok n ∧ n.base = s.base ∧
    s.vertIn.length = fan.verts.length ∧ InStep s ∧ Sound s.conn ∧ InStep n ∧ Sound n.conn ∧ InsideOnly fan 5 n ∧
    (spawnAtVertex s fan 5).toOption.map (fun r => r.snaxs.map Snax.edgeind) = some [7, 8, 9, 10, 7, 8, 9, 10] := by
  obtain ⟨n, hn, hb, -, hs, -, hi, -, -, ho⟩ := C90_space (K := ℚ) fan 5 0 (sound_of_checked (by decide +kernel))
    (by unfold TwoVerts; decide +kernel) (by unfold HasVert; decide +kernel)
    (ringed_list (by decide +kernel) (by decide +kernel)) (by decide +kernel) (by rw [voluAt_list]; decide +kernel)
  refine ⟨n, n, hn, hb.symm ▸ hn, rfl, ho.1, hi, hs, hi, hs, ho, ?_⟩
  have h : (spawnNew (K := ℚ) fan 0 5).toOption.map (fun s => (spawnAtVertex s fan 5).toOption.map
      (fun r => r.snaxs.map Snax.edgeind)) = some (some [7, 8, 9, 10, 7, 8, 9, 10]) := by decide +kernel
  rw [hn] at h
  exact Option.some.inj h

/-- A vertex on the border. -/
example : SurfAt plate 1 0 ∧ VoluAt fan 1 0 ∧ Ringed fan 1 :=
  ⟨by rw [surfAt_list]; decide +kernel, by rw [voluAt_list]; decide +kernel,
    ringed_list (by decide +kernel) (by decide +kernel)⟩

end RSVS.Props
