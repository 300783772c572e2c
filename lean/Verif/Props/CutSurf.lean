import Verif.Lemmas.CutSurf

/-!
# C142: the new edge of a surface cut by a box
-/

namespace RSVS.CutEdges

open RSVS.Spec

/-- The marks read at a vertex. -/
theorem marks_read {lb ub : Fin 3 → ℚ} {m m' : Mesh} {vo : List Bool}
    (hvo : MarksOutside lb ub m m' vo) {v : Int} (hv : HasVert m' v) :
    ∃ b, isOut m' vo v = .ok b ∧ (b = true ↔ VertOutside lb ub m v) := by
  obtain ⟨p, hp, hlt, hix⟩ := posOf_mem (ix := Vert.index) hv
  have hlt' : p < vo.length := by rw [hvo.1]; exact hlt
  have hm := hvo.2 p m'.verts[p] (List.getElem?_eq_getElem hlt)
  rw [hix, List.getElem?_eq_getElem hlt', Option.some.injEq] at hm
  refine ⟨vo[p], ?_, hm⟩
  unfold isOut vecGet
  rw [hp, if_neg (by omega), Int.toNat_natCast, List.getElem?_eq_getElem hlt']

/-- C142: on a mesh whose edges have been cut by the box, the ends found for the edge which is to
close a surface are the points where the border of the surface goes through the box, each once;
there are as many as edges of the surface which crossed.  The mesh is the one right after the
edges were cut: that the surfaces treated before leave this as it is, is not in it. -/
theorem C142_closing_partial {place : List ℚ → List ℚ → Res (List ℚ)} {lb ub : Fin 3 → ℚ}
    {m m' : Mesh} {vo eo : List Bool} {s : Surf} (hs : Sound m)
    (hc : CutByBox place lb ub m m') (hvo : MarksOutside lb ub m m' vo)
    (heo : edgeOuts m' vo = .ok eo) (hsm : s ∈ m'.surfs) :
    ∃ r, closingVerts m' vo eo s = .ok r ∧ ClosingVerts lb ub m m' s.index r := by
  classical
  obtain ⟨eo', heo', hlen, hsides⟩ := C141_edge_sides_partial hc hvo
  rw [heo] at heo'
  cases heo'
  have hu := hs.unique.verts
  have hHcr : ∀ f, Crosses lb ub m f → HasEdge m f :=
    fun f ⟨_, _, ⟨x, hx, h1, _⟩, _⟩ => ⟨x, hx, h1⟩
  have hHin : ∀ v, VertInside lb ub m v → HasVert m v := fun v ⟨x, hx, h1, _⟩ => ⟨x, hx, h1⟩
  have hHout : ∀ v, VertOutside lb ub m v → HasVert m v := fun v ⟨x, hx, h1, _⟩ => ⟨x, hx, h1⟩
  -- the marks of the edges
  have hmark : ∀ f, HasEdge m' f → ∃ o, vecGet eo (posOf Edge.index m'.edges f) = .ok o ∧
      (o = true ↔ ∃ v, EdgeVert m' f v ∧ VertOutside lb ub m v) := by
    intro f hf
    obtain ⟨p, hp, hlt, hix⟩ := posOf_mem (ix := Edge.index) hf
    have hlt' : p < eo.length := by rw [hlen]; exact hlt
    have h1 := (hsides p m'.edges[p] (List.getElem?_eq_getElem hlt)).1
    rw [List.getElem?_eq_getElem hlt', Option.some.injEq] at h1
    refine ⟨eo[p], ?_, h1.trans ?_⟩
    · unfold vecGet
      rw [hp, if_neg (by omega), Int.toNat_natCast, List.getElem?_eq_getElem hlt']
    · constructor
      · rintro ⟨v, h2, h3⟩; exact ⟨v, ⟨_, List.getElem_mem hlt, hix, h2⟩, h3⟩
      · rintro ⟨v, ⟨y, hy, h2, h3⟩, h4⟩
        have := edge_unique hc.sound.unique.edges hy (List.getElem_mem hlt) (h2.trans hix.symm)
        exact ⟨v, this ▸ h3, h4⟩
  have hsE : ∀ f, f ∈ s.edgeind ↔ SurfEdge m' s.index f := by
    intro f
    constructor
    · exact fun h => ⟨s, hsm, rfl, h⟩
    · rintro ⟨y, hy, h1, h2⟩
      have := List.inj_on_of_nodup_map hc.sound.unique.surfs hy hsm h1
      exact this ▸ h2
  obtain ⟨i, o, h1, h2, h3⟩ := shareEdges_ok hmark s.edgeind
    fun f hf => hc.sound.noDangling.surfEdge s.index f ((hsE f).mp hf)
  -- a vertex not outside on an outer edge is where an edge of the surface was cut
  have hcut : ∀ f ∈ o, ∀ v, EdgeVert m' f v → ¬ VertOutside lb ub m v →
      ¬ HasVert m v ∧ ∃ e, Crosses lb ub m e ∧ SurfEdge m s.index e ∧ EdgeVert m' e v := by
    intro f hf v hfv hno
    obtain ⟨hfs, w, hw, hwo⟩ := (h3 f).mp hf
    have hnew : ¬ HasVert m v := by
      intro hv
      exact hc.separated f v w hfv hw ((in_or_out hv).resolve_right hno) hwo
    refine ⟨hnew, ?_⟩
    obtain ⟨y, hy, hyi⟩ := ends_have hc.sound hfv
    rcases hc.placed y hy with h4 | ⟨e, a, ha, b, hb, h5, h6, h7, h8, _, h10⟩
    · exact absurd (hyi ▸ h4) hnew
    · have hcr : Crosses lb ub m e := ⟨a.index, b.index, h5, h6, ⟨a, ha, rfl, h7⟩, b, hb, rfl, h8⟩
      obtain ⟨nv, ne, hh⟩ := hc.halves e hcr
      rw [hyi] at h10
      have hvn : v = nv := by
        rcases (hh.inner v).mp h10 with h11 | h11
        · exact h11
        · exact absurd (hHin v h11.2) hnew
      refine ⟨e, hcr, ?_, h10⟩
      rcases (hh.meet f).mp (hvn ▸ hfv) with h11 | h11
      · exfalso
        rcases (hh.inner w).mp (h11 ▸ hw) with h12 | h12
        · exact hh.newVert.1 (h12 ▸ hHout w hwo)
        · exact in_not_out hu h12.2 hwo
      · exact (hh.surf s.index).mp (h11 ▸ (hsE f).mp hfs)
  have hinner : ∀ e, Crosses lb ub m e → SurfEdge m s.index e → e ∈ i := by
    intro e hcr he
    obtain ⟨nv, ne, hh⟩ := hc.halves e hcr
    refine (h2 e).mpr ⟨(hsE e).mpr ((hc.surfEdge s.index e (hHcr e hcr)).mpr he), ?_⟩
    rintro ⟨w, hw, hwo⟩
    rcases (hh.inner w).mp hw with h12 | h12
    · exact hh.newVert.1 (h12 ▸ hHout w hwo)
    · exact in_not_out hu h12.2 hwo
  obtain ⟨r, h4, h5, h6⟩ := findVertIn_ok hc.sound hc.two (fun v hv => marks_read hvo hv)
    (o := o) (i := i)
    (fun f hf => hc.sound.noDangling.surfEdge s.index f ((hsE f).mp ((h3 f).mp hf).1))
    (fun f hf => hc.sound.noDangling.surfEdge s.index f ((hsE f).mp ((h2 f).mp hf).1))
    (fun f hf v hfv hno => by
      obtain ⟨_, e, hcr, he, hev⟩ := hcut f hf v hfv hno
      exact ⟨e, hinner e hcr he, hev⟩)
  have hmem : ∀ v, v ∈ r ↔ ¬ HasVert m v ∧
      ∃ e, Crosses lb ub m e ∧ SurfEdge m s.index e ∧ EdgeVert m' e v := by
    intro v
    rw [h6]
    constructor
    · rintro ⟨f, hf, hfv, hno⟩
      exact hcut f hf v hfv hno
    · rintro ⟨hnew, e, hcr, he, hev⟩
      obtain ⟨nv, ne, hh⟩ := hc.halves e hcr
      have hvn : v = nv := by
        rcases (hh.inner v).mp hev with h11 | h11
        · exact h11
        · exact absurd (hHin v h11.2) hnew
      obtain ⟨a, b, ha, hb, hia, hob⟩ := hcr
      refine ⟨ne, (h3 ne).mpr ⟨(hsE ne).mpr ((hh.surf s.index).mpr he), b,
        (hh.outer b).mpr (Or.inr ⟨hb, hob⟩), hob⟩, (hh.outer v).mpr (Or.inl hvn), ?_⟩
      exact fun h7 => hnew (hHout v h7)
  refine ⟨r, by simp [closingVerts, h1, h4, bind, Except.bind], h5, hmem, ?_⟩
  intro cut hnd hcutm
  let nv : Int → Int := fun e => if h : Crosses lb ub m e then (hc.halves e h).choose else 0
  have hnv : ∀ e, Crosses lb ub m e → ∃ ne, Halved lb ub m m' e (nv e) ne := by
    intro e he
    have : nv e = (hc.halves e he).choose := dif_pos he
    rw [this]
    exact (hc.halves e he).choose_spec
  have hperm : r.Perm (cut.map nv) := by
    refine (List.perm_ext_iff_of_nodup (h5.imp fun h => ne_of_lt h) ?_).2 fun v => ?_
    · refine (List.nodup_map_iff_inj_on hnd).2 ?_
      intro e he e' he' heq
      have hce := ((hcutm e).mp he).1
      have hce' := ((hcutm e').mp he').1
      obtain ⟨ne, hh⟩ := hnv e hce
      obtain ⟨ne', hh'⟩ := hnv e' hce'
      have h7 := (hh'.meet e').mpr (Or.inl rfl)
      rw [← heq] at h7
      rcases (hh.meet e').mp h7 with h8 | h8
      · exact h8.symm
      · exact absurd (h8 ▸ hHcr e' hce') hh.newEdge.1
    · rw [hmem, List.mem_map]
      constructor
      · rintro ⟨hnew, e, hcr, he, hev⟩
        obtain ⟨ne, hh⟩ := hnv e hcr
        refine ⟨e, (hcutm e).mpr ⟨hcr, he⟩, ?_⟩
        rcases (hh.inner v).mp hev with h11 | h11
        · exact h11.symm
        · exact absurd (hHin v h11.2) hnew
      · rintro ⟨e, he, rfl⟩
        obtain ⟨hcr, hes⟩ := (hcutm e).mp he
        obtain ⟨ne, hh⟩ := hnv e hcr
        exact ⟨hh.newVert.1, e, hcr, hes, (hh.meet e).mpr (Or.inl rfl)⟩
  rw [hperm.length_eq, List.length_map]

/-- On the triangle with a tip beyond the box, the new edge joins the two points where its
sides go out. -/
example : ((cutByBox (fun _ _ => .ok [0, 2, 0]) (fun _ => -2) (fun _ => 2) tri).bind
      fun r => (edgeOuts r.1 r.2).bind fun eo =>
        (elemAt r.1.surfs 0).bind fun s => closingVerts r.1 r.2 eo s) = .ok [4, 5] := by
  decide +kernel

/-- The hypotheses of `C142_closing_partial` can be met. -/
example : ∃ m' vo eo, ∃ s ∈ m'.surfs,
    CutByBox (fun _ _ => .ok [0, 2, 0]) (fun _ => -2) (fun _ => 2) tri m' ∧
    MarksOutside (fun _ => -2) (fun _ => 2) tri m' vo ∧ edgeOuts m' vo = .ok eo ∧ Sound tri := by
  obtain ⟨m', vo, _, h2, h3⟩ := C141_cut_partial (place := fun _ _ => .ok [0, 2, 0])
    (lb := fun _ => -2) (ub := fun _ => 2) tri_ok.1 tri_ok.2.1 tri_ok.2.2
    fun _ _ _ _ => ⟨_, rfl⟩
  obtain ⟨eo, h4, _⟩ := C141_edge_sides_partial h2 h3
  have : 0 < m'.surfs.length := by
    have := congrArg List.length h2.surfs
    simp [tri] at this
    omega
  exact ⟨m', vo, eo, m'.surfs[0], List.getElem_mem this, h2, h3, h4, tri_ok.1⟩

/-- C142: an edge which is not in the mesh is refused. -/
theorem C142_unknown_throws (m : Mesh) (eo : List Bool) (f : Int) (r : List Int)
    (hf : ¬ HasEdge m f) : shareEdges m eo (f :: r) = .error .throws := by
  have : posOf Edge.index m.edges f = -1 := by
    rw [posOf_eq_neg_one_iff]
    exact fun a ha h => hf ⟨a, ha, h⟩
  simp [shareEdges, this]

example : ¬ HasEdge tri 9 := by simp [HasEdge, tri]

end RSVS.CutEdges
