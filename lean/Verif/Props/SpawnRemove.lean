import Verif.Lemmas.SpawnRemove
import Verif.Lemmas.MeshCheck
import Verif.Props.Flood
import Verif.Props.Mesh

/-!
# C107: removing the parts of a snake in given cells
-/

namespace RSVS.Props

open RSVS.Mesh RSVS.Spec RSVS.SpawnRemove

private theorem map_fst_removeIdx {α : Type} {l : List (Int × Int)} {k : List α} {ix : α → Int} (h : l.map Prod.fst = k.map ix) (d : List Int) :
    (removeIdx Prod.fst l d).map Prod.fst = (removeIdx ix k d).map ix := by
  rw [map_removeIdx, map_removeIdx, h]

/-- C107: in three dimensions.  For a sound snake, no edge of which lists the outside,
`RemoveSnakeInVolu` ends without an error.  What goes are the connected parts with a vertex in the
given cells (border 1) or the others (border 0), whole: no edge or surface of them stays, what stays
keeps its incidence and places, the mesh is sound and the containers beside it follow. -/
theorem C107_volu_partial (s : Snake) (sibs : Int → List Nat) (cells : List Int) (border : Int) (hm : Sound s.conn)
    (h2 : TwoVerts s.conn) (hb : Beside s.conn s.snaxs s.snaxedges s.snaxsurfs)
    (hsib : ∀ c, AllPos Prod.snd s.snaxsurfs c (sibs c)) (hz : ∀ e, ¬ EdgeSurf s.conn e 0) :
    ∃ r, removeInVolu s sibs cells border = .ok r ∧
      PartsLeft s.conn r.conn (ToGo s.conn border (InVolus s.conn s.snaxsurfs cells)) ∧ Sound r.conn ∧ TwoVerts r.conn ∧
      Beside r.conn r.snaxs r.snaxedges r.snaxsurfs ∧
      (∀ p, p ∈ r.snaxedges ↔ p ∈ s.snaxedges ∧ HasEdge r.conn p.1) ∧
      (∀ p, p ∈ r.snaxsurfs ↔ p ∈ s.snaxsurfs ∧ HasSurf r.conn p.1) := by
  obtain ⟨touched, ht1, ht2⟩ := touchVolu_spec hm hb.surfs hsib cells
  have htv : ∀ t ∈ touched, HasVert s.conn t := by
    intro t h
    obtain ⟨p, _, _, e, _, hev⟩ := (ht2 t).mp h
    exact hm.noDangling.edgeVert e t hev (fun h0 => hm.zeroOutside.edgeVert e (h0 ▸ hev))
  obtain ⟨labels, n, hc, hlen, hr, hj, _⟩ := C20_vertex_blocks s.conn hm h2
  have hcol := collect_eq true hm hb.snaxs hc hlen hr border htv
  obtain ⟨hv, he, hk⟩ := lists_spec true hm hb.snaxs hlen hj border htv
  generalize listsOf true s labels (decide (border > 0)) touched (List.range s.conn.verts.length) = d at hcol hv he hk
  replace hk := hk rfl
  have hG := toGo_congr (m := s.conn) (border := border) ht2
  rw [hG] at hv he hk
  obtain ⟨m1, hf, ho⟩ := surfsOff d.surf s.conn hm (by
    intro k h
    obtain ⟨v, e, _, _, _, hes⟩ := (hk k).mp h
    exact hm.noDangling.edgeSurf e k hes (fun h0 => hz e (h0 ▸ hes)))
  have hl : ∀ x ∈ m1.edges, x.vertind.length = 2 := by
    intro x hx
    have : x.vertind ∈ m1.edges.map Edge.vertind := List.mem_map.mpr ⟨x, hx, rfl⟩
    rw [ho.pairs] at this
    obtain ⟨y, hy, e⟩ := List.mem_map.mp this
    rw [← e]
    exact h2 y hy
  have hpl := parts_left (dv := sortUnique d.snax) (de := sortUnique d.edge) (ds := sortUnique d.surf) hm
    (fun e v w => toGo_closed hm e v w) (fun v => by rw [mem_sortUnique]; exact hv v)
    (fun e => by rw [mem_sortUnique]; exact he e) hk hz (fun x => mem_sortUnique) ho
  refine ⟨{ conn := cutOut m1 (sortUnique d.snax) (sortUnique d.edge) (sortUnique d.surf)
            snaxs := removeIdx (fun i => i) s.snaxs (sortUnique d.snax)
            snaxedges := removeIdx Prod.fst s.snaxedges (sortUnique d.edge)
            snaxsurfs := removeIdx Prod.fst s.snaxsurfs (sortUnique d.surf) }, ?_, hpl.1, hpl.2, ?_, ⟨?_, ?_, ?_⟩, ?_, ?_⟩
  · unfold removeInVolu
    rw [ht1, ok_bind, hcol, ok_bind, hf, ok_bind, tighten_cut (fun x hx => (hl x hx).le)]
    rfl
  · intro x hx
    simp only [cutOut, List.mem_map, mem_removeIdx] at hx
    obtain ⟨y, ⟨hy, _⟩, rfl⟩ := hx
    exact hl y hy
  · show removeIdx _ _ _ = List.map _ (List.map _ _)
    rw [List.map_map, show Vert.index ∘ tightenVert = Vert.index from rfl, map_removeIdx, ho.verts, hb.snaxs]
  · show List.map _ (removeIdx _ _ _) = List.map _ (List.map _ _)
    rw [List.map_map]
    exact map_fst_removeIdx (hb.edges.trans ho.edges.symm) _
  · show List.map _ (removeIdx _ _ _) = List.map _ (List.map _ _)
    rw [List.map_map]
    exact map_fst_removeIdx (hb.surfs.trans ho.surfs.symm) _
  · intro p
    rw [mem_removeIdx, cut_hasEdge, ho.same.edges]
    refine and_congr_right fun hp => (and_iff_right ?_).symm
    have : p.1 ∈ s.snaxedges.map Prod.fst := List.mem_map.mpr ⟨p, hp, rfl⟩
    rw [hb.edges] at this
    obtain ⟨x, hx, e⟩ := List.mem_map.mp this
    exact ⟨x, hx, e⟩
  · intro p
    rw [mem_removeIdx, cut_hasSurf, ho.same.surfs]
    refine and_congr_right fun hp => (and_iff_right ?_).symm
    have : p.1 ∈ s.snaxsurfs.map Prod.fst := List.mem_map.mpr ⟨p, hp, rfl⟩
    rw [hb.surfs] at this
    obtain ⟨x, hx, e⟩ := List.mem_map.mp this
    exact ⟨x, hx, e⟩

/-- C107: in two dimensions, by the parents of the edges; the surfaces stay and lose their edges. -/
theorem C107_surf_partial (s : Snake) (sibs : Int → List Nat) (cells : List Int) (border : Int) (hm : Sound s.conn)
    (h2 : TwoVerts s.conn) (hb : Beside s.conn s.snaxs s.snaxedges s.snaxsurfs)
    (hsib : ∀ c, AllPos Prod.snd s.snaxedges c (sibs c)) :
    ∃ r, removeInSurf s sibs cells border = .ok r ∧
      PartsLeftFlat s.conn r.conn (ToGo s.conn border (InSurfs s.conn s.snaxedges cells)) ∧ Sound r.conn ∧ TwoVerts r.conn ∧
      Beside r.conn r.snaxs r.snaxedges r.snaxsurfs ∧
      (∀ p, p ∈ r.snaxedges ↔ p ∈ s.snaxedges ∧ HasEdge r.conn p.1) ∧ r.snaxsurfs = s.snaxsurfs := by
  obtain ⟨touched, ht1, ht2⟩ := touchSurf_spec hm hb.edges hsib cells
  have htv : ∀ t ∈ touched, HasVert s.conn t := by
    intro t h
    obtain ⟨p, _, _, hev⟩ := (ht2 t).mp h
    exact hm.noDangling.edgeVert _ t hev (fun h0 => hm.zeroOutside.edgeVert _ (h0 ▸ hev))
  obtain ⟨labels, n, hc, hlen, hr, hj, _⟩ := C20_vertex_blocks s.conn hm h2
  have hcol := collect_eq false hm hb.snaxs hc hlen hr border htv
  obtain ⟨hv, he, -⟩ := lists_spec false hm hb.snaxs hlen hj border htv
  generalize listsOf false s labels (decide (border > 0)) touched (List.range s.conn.verts.length) = d at hcol hv he
  have hG := toGo_congr (m := s.conn) (border := border) ht2
  rw [hG] at hv he
  obtain ⟨m1, hf, ho⟩ := edgesOff d.edge s.conn hm (fun x hx => (h2 x hx).le) (by
    intro k h
    obtain ⟨v, _, _, hve⟩ := (he k).mp h
    exact hm.noDangling.vertEdge v k hve (fun h0 => hm.zeroOutside.vertEdge v (h0 ▸ hve)))
  have hpl := parts_left_flat (dv := sortUnique d.snax) (de := sortUnique d.edge) hm
    (fun e v w => toGo_closed hm e v w) (fun v => by rw [mem_sortUnique]; exact hv v)
    he (fun e => mem_sortUnique) ho
  have hcut : cutOut m1 (sortUnique d.snax) (sortUnique d.edge) [] =
      { m1 with
        verts := (removeIdx Vert.index m1.verts (sortUnique d.snax)).map tightenVert
        edges := (removeIdx Edge.index m1.edges (sortUnique d.edge)).map fun e => { e with surfind := sortUnique e.surfind }
        surfs := m1.surfs.map tightenSurf
        volus := m1.volus.map tightenVolu } := by
    simp [cutOut, removeIdx]
  refine ⟨{ conn := cutOut m1 (sortUnique d.snax) (sortUnique d.edge) []
            snaxs := removeIdx (fun i => i) s.snaxs (sortUnique d.snax)
            snaxedges := removeIdx Prod.fst s.snaxedges (sortUnique d.edge)
            snaxsurfs := s.snaxsurfs }, ?_, hpl.1, hpl.2, ?_, ⟨?_, ?_, ?_⟩, ?_, ?_⟩
  · unfold removeInSurf
    rw [ht1, ok_bind, hcol, ok_bind, hf, ok_bind]
    have := tighten_cut ho.short (sortUnique d.snax) (sortUnique d.edge) []
    rw [show removeIdx Surf.index m1.surfs [] = m1.surfs by simp [removeIdx]] at this
    rw [this]
    rfl
  · intro x hx
    simp only [cutOut, List.mem_map, mem_removeIdx] at hx
    obtain ⟨y, ⟨hy, hyd⟩, rfl⟩ := hx
    rw [mem_sortUnique] at hyd
    obtain ⟨z, hz, _, e⟩ := ho.pairs y hy hyd
    show y.vertind.length = 2
    rw [← e]
    exact h2 z hz
  · show removeIdx _ _ _ = List.map _ (List.map _ _)
    rw [List.map_map, show Vert.index ∘ tightenVert = Vert.index from rfl, map_removeIdx, ho.verts, hb.snaxs]
  · show List.map _ (removeIdx _ _ _) = List.map _ (List.map _ _)
    rw [List.map_map]
    exact map_fst_removeIdx (hb.edges.trans ho.edges.symm) _
  · show List.map _ s.snaxsurfs = _
    rw [hcut]
    simp only [List.map_map]
    exact hb.surfs.trans ho.surfs.symm
  · intro p
    rw [mem_removeIdx, cut_hasEdge, ho.same.edges]
    refine and_congr_right fun hp => (and_iff_right ?_).symm
    have : p.1 ∈ s.snaxedges.map Prod.fst := List.mem_map.mpr ⟨p, hp, rfl⟩
    rw [hb.edges] at this
    obtain ⟨x, hx, e⟩ := List.mem_map.mp this
    exact ⟨x, hx, e⟩
  · rfl

/-! ### Example: two tetrahedra, one in cell 9 and one in cell 7 -/

/-- The positions with a given parent. -/
def siblingsIn (l : List (Int × Int)) (c : Int) : List Nat :=
  (List.range l.length).filter fun p => (l[p]?).map Prod.snd == some c

theorem siblingsIn_all (l : List (Int × Int)) (c : Int) : AllPos Prod.snd l c (siblingsIn l c) := by
  refine ⟨List.nodup_range.filter _, fun p => ?_⟩
  simp only [siblingsIn, List.mem_filter, List.mem_range, beq_iff_eq, Option.map_eq_some_iff]
  constructor
  · rintro ⟨_, e, he, h⟩; exact ⟨e, he, h⟩
  · rintro ⟨e, he, h⟩; exact ⟨(List.getElem?_eq_some_iff.mp he).1, e, he, h⟩

def twoParts : Snake where
  conn := tetra.concatenate (tetra.makeCompatible tetra)
  snaxs := [1, 2, 3, 4, 5, 6, 7, 8]
  snaxedges := [(1, 3), (2, 3), (3, 3), (4, 3), (5, 3), (6, 3), (7, 4), (8, 4), (9, 4), (10, 4), (11, 4), (12, 4)]
  snaxsurfs := [(1, 9), (2, 9), (3, 9), (4, 9), (5, 7), (6, 7), (7, 7), (8, 7)]

theorem twoParts_sound : Sound twoParts.conn := sound_of_checked (by decide +kernel)
theorem twoParts_two : TwoVerts twoParts.conn := by unfold TwoVerts; decide +kernel
theorem twoParts_beside : Beside twoParts.conn twoParts.snaxs twoParts.snaxedges twoParts.snaxsurfs :=
  ⟨by decide +kernel, by decide +kernel, by decide +kernel⟩
theorem twoParts_inside (e : Int) : ¬ EdgeSurf twoParts.conn e 0 := by
  rintro ⟨x, hx, _, h⟩
  exact (by decide +kernel : ∀ x ∈ twoParts.conn.edges, (0 : Int) ∉ x.surfind) x hx h

/-- The tetrahedron in cell 9 goes with border 1, and the other one with border 0. -/
example : ∃ r, removeInVolu twoParts (siblingsIn twoParts.snaxsurfs) [9] 1 = .ok r ∧ r.snaxs = [5, 6, 7, 8] ∧
    r.conn.edges.map Edge.index = [7, 8, 9, 10, 11, 12] ∧ r.snaxsurfs = [(5, 7), (6, 7), (7, 7), (8, 7)] := by
  refine ⟨_, rfl, ?_⟩
  decide +kernel

example : ∃ r, removeInVolu twoParts (siblingsIn twoParts.snaxsurfs) [9] 0 = .ok r ∧ r.snaxs = [1, 2, 3, 4] := by
  refine ⟨_, rfl, ?_⟩
  decide +kernel

example : ∃ r, removeInVolu twoParts (siblingsIn twoParts.snaxsurfs) [9] 1 = .ok r ∧ Sound r.conn :=
  let ⟨r, h1, _, h3, _⟩ := C107_volu_partial twoParts _ [9] 1 twoParts_sound twoParts_two twoParts_beside (siblingsIn_all _) twoParts_inside
  ⟨r, h1, h3⟩

example : ∃ r, removeInSurf twoParts (siblingsIn twoParts.snaxedges) [3] 1 = .ok r ∧ Sound r.conn :=
  let ⟨r, h1, _, h3, _⟩ := C107_surf_partial twoParts _ [3] 1 twoParts_sound twoParts_two twoParts_beside (siblingsIn_all _)
  ⟨r, h1, h3⟩

/-- The full claim fails: the volume of a part which is removed stays, with no surface. -/
theorem C107_empty_violated : NoneEmpty twoParts.conn ∧
    ∃ r, removeInVolu twoParts (siblingsIn twoParts.snaxsurfs) [9] 1 = .ok r ∧ ¬ NoneEmpty r.conn := by
  constructor
  · refine ⟨?_, ?_⟩
    · rintro s ⟨x, hx, rfl⟩
      have := (by decide +kernel : ∀ x ∈ twoParts.conn.surfs, x.edgeind ≠ []) x hx
      obtain ⟨e, he⟩ := List.exists_mem_of_ne_nil _ this
      exact ⟨e, x, hx, rfl, he⟩
    · rintro s ⟨x, hx, rfl⟩
      have := (by decide +kernel : ∀ x ∈ twoParts.conn.volus, x.surfind ≠ []) x hx
      obtain ⟨e, he⟩ := List.exists_mem_of_ne_nil _ this
      exact ⟨e, x, hx, rfl, he⟩
  · obtain ⟨r, h1, h2, h3, _⟩ := C107_volu_partial twoParts (siblingsIn twoParts.snaxsurfs) [9] 1 twoParts_sound twoParts_two twoParts_beside (siblingsIn_all _) twoParts_inside
    refine ⟨r, h1, ?_⟩
    rintro ⟨_, hc⟩
    have hr : ∀ q, removeInVolu twoParts (siblingsIn twoParts.snaxsurfs) [9] 1 = .ok q → ∃ c ∈ q.conn.volus, c.index = 1 ∧ c.surfind = [] := by
      intro q hq
      have : (match removeInVolu twoParts (siblingsIn twoParts.snaxsurfs) [9] 1 with
        | .ok q => q.conn.volus.any (fun c => c.index == 1 && c.surfind == [])
        | .error _ => false) = true := by decide +kernel
      rw [hq] at this
      simpa using this
    obtain ⟨c, hcm, hci, hcs⟩ := hr r h1
    obtain ⟨s, x, hx, hxi, hs⟩ := hc 1 ⟨c, hcm, hci⟩
    rw [inj_of_nodup h3.unique.volus hx hcm (hxi.trans hci.symm), hcs] at hs
    simp at hs

/-- An edge of a part to go which lists the outside (as all edges of a two-dimensional snake do)
makes the three-dimensional function throw. -/
theorem C107_outside_throws (s : Snake) (sibs : Int → List Nat) (cells : List Int) (border : Int) (hm : Sound s.conn)
    (h2 : TwoVerts s.conn) (hb : Beside s.conn s.snaxs s.snaxedges s.snaxsurfs)
    (hsib : ∀ c, AllPos Prod.snd s.snaxsurfs c (sibs c)) {v e : Int}
    (hg : ToGo s.conn border (InVolus s.conn s.snaxsurfs cells) v) (hve : VertEdge s.conn v e) (hz : EdgeSurf s.conn e 0) :
    removeInVolu s sibs cells border = .error .throws := by
  obtain ⟨touched, ht1, ht2⟩ := touchVolu_spec hm hb.surfs hsib cells
  have htv : ∀ t ∈ touched, HasVert s.conn t := by
    intro t h
    obtain ⟨p, _, _, e, _, hev⟩ := (ht2 t).mp h
    exact hm.noDangling.edgeVert e t hev (fun h0 => hm.zeroOutside.edgeVert e (h0 ▸ hev))
  obtain ⟨labels, n, hc, hlen, hr, hj, _⟩ := C20_vertex_blocks s.conn hm h2
  have hcol := collect_eq true hm hb.snaxs hc hlen hr border htv
  obtain ⟨hv, he, hk⟩ := lists_spec true hm hb.snaxs hlen hj border htv
  generalize listsOf true s labels (decide (border > 0)) touched (List.range s.conn.verts.length) = d at hcol hv he hk
  replace hk := hk rfl
  have hG := toGo_congr (m := s.conn) (border := border) ht2
  rw [hG] at hv he hk
  have h0 : (0 : Int) ∈ d.surf := (hk 0).mpr ⟨v, e, let ⟨x, hx, hi, _⟩ := hve; ⟨x, hx, hi⟩, hg, hve, hz⟩
  have key : ∀ (ks : List Int) (m : Mesh), Sound m → (0 : Int) ∈ ks →
      ks.foldlM (m := Except Fault) Mesh.removeSurf m = .error .throws := by
    intro ks
    induction ks with
    | nil => intro m _ h; simp at h
    | cons k ks ih =>
      intro m hm h
      rw [List.foldlM_cons]
      by_cases hk : HasSurf m k
      · rw [removeSurf_eq hm hk]
        refine ih _ (sound_of_surfDetached hm (surfOff_unique hm.unique k) (surfOff_detached m k)) ?_
        rcases List.mem_cons.mp h with h | h
        · exact absurd (hm.pos.surfs k hk) (by omega)
        · exact h
      · have : m.removeSurf k = .error .throws := by
          unfold removeSurf
          rcases posOf_cases (ix := Surf.index) m.surfs k with ⟨hp, _⟩ | ⟨p, _, hp, hi⟩
          · rw [hp]; rfl
          · exact absurd ⟨_, List.getElem_mem hp, hi⟩ hk
        rw [this]
        rfl
  unfold removeInVolu
  rw [ht1, ok_bind, hcol, ok_bind, key d.surf s.conn hm h0]
  rfl

/-- `twoParts` with the outside beside the surfaces of the first edge. -/
def openPart : Snake :=
  { twoParts with
    conn := { twoParts.conn with edges := twoParts.conn.edges.modify 0 fun e => { e with surfind := 0 :: e.surfind } } }

example : removeInVolu openPart (siblingsIn openPart.snaxsurfs) [9] 1 = .error .throws :=
  C107_outside_throws openPart _ [9] 1 (sound_of_checked (by decide +kernel)) (by unfold TwoVerts; decide +kernel)
    ⟨by decide +kernel, by decide +kernel, by decide +kernel⟩ (siblingsIn_all _) (v := 1) (e := 1)
    (Or.inl ⟨by decide, 1, ⟨(1, 9), by decide +kernel, by decide, 1, by unfold SurfEdge; decide +kernel, by unfold EdgeVert; decide +kernel⟩, Relation.ReflTransGen.refl⟩)
    (by unfold VertEdge; decide +kernel) (by unfold EdgeSurf; decide +kernel)

end RSVS.Props
