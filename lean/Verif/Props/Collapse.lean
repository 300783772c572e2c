import Verif.Model.Collapse
import Verif.Spec.Collapse
import Verif.Lemmas.FinishMesh
import Verif.Props.Close
import Verif.Props.Singular

/-!
# C136: the collapse of the short edges of a mesh
-/

namespace RSVS.Props

open RSVS RSVS.Spec RSVS.Mesh RSVS.Singular RSVS.FaceFan

theorem edgeVert_pair {m : Mesh} (hu : UniqueIndices m) {x : Edge} (hx : x ∈ m.edges) {a b : Int} (hv : x.vertind = [a, b]) (w : Int) :
    EdgeVert m x.index w ↔ w = a ∨ w = b := by
  constructor
  · rintro ⟨y, hy, hi, hw⟩
    rw [inj_of_nodup hu.edges hy hx hi, hv] at hw
    simpa using hw
  · intro h
    exact ⟨x, hx, rfl, by rw [hv]; simpa using h⟩

/-- The ends of an edge after its vertices are moved. -/
theorem ends_moved {m m' : Mesh} {into : Int → Int} (hu : UniqueIndices m) (hu' : UniqueIndices m')
    (h : ∀ e v, EdgeVert m' e v ↔ ∃ u, EdgeVert m e u ∧ into u = v) {x y : Edge} (hx : x ∈ m.edges) (hy : y ∈ m'.edges) (hi : x.index = y.index)
    {u v a b : Int} (hxv : x.vertind = [u, v]) (hyv : y.vertind = [a, b]) : (into u = a ∧ into v = b) ∨ (into u = b ∧ into v = a) := by
  have h1 := (edgeVert_pair hu' hy hyv (into u)).1 ((h _ _).2 ⟨u, hi ▸ (edgeVert_pair hu hx hxv u).2 (.inl rfl), rfl⟩)
  have h2 := (edgeVert_pair hu' hy hyv (into v)).1 ((h _ _).2 ⟨v, hi ▸ (edgeVert_pair hu hx hxv v).2 (.inr rfl), rfl⟩)
  obtain ⟨w, hw, hwa⟩ := (h _ _).1 ((edgeVert_pair hu' hy hyv a).2 (.inl rfl))
  obtain ⟨z, hz, hzb⟩ := (h _ _).1 ((edgeVert_pair hu' hy hyv b).2 (.inr rfl))
  rw [← hi, edgeVert_pair hu hx hxv] at hw hz
  rcases hw with rfl | rfl <;> rcases hz with rfl | rfl
  · rcases h2 with h2 | h2
    · exact .inr ⟨hzb, h2⟩
    · exact .inl ⟨hwa, h2⟩
  · exact .inl ⟨hwa, hzb⟩
  · exact .inr ⟨hzb, hwa⟩
  · rcases h1 with h1 | h1
    · exact .inl ⟨h1, hzb⟩
    · exact .inr ⟨h1, hwa⟩

theorem shortPath_mem {m : Mesh} {tol : ℚ} (hm : Sound m) {a b : Int} (ha : HasVert m a) (h : ShortPath m tol a b) : HasVert m b := by
  induction h with
  | refl => exact ha
  | tail _ hs _ =>
    obtain ⟨-, x, -, y, hy, -, hi, -⟩ := hs
    exact ⟨y, hy, hi⟩

theorem hasVert_map {m : Mesh} {a : Int} : HasVert m a ↔ a ∈ m.verts.map Vert.index := by
  rw [List.mem_map]; rfl

/-- The edge joins the two vertices. -/
def EdgeEnds (m : Mesh) (e a b : Int) : Prop := ∃ x ∈ m.edges, x.index = e ∧ (x.vertind = [a, b] ∨ x.vertind = [b, a])

theorem lineBetween_iff {m : Mesh} {a b : Int} : LineBetween m a b ↔ ∃ e, EdgeEnds m e a b :=
  ⟨fun ⟨x, hx, h⟩ => ⟨x.index, x, hx, rfl, h⟩, fun ⟨_, x, hx, _, h⟩ => ⟨x, hx, h⟩⟩

theorem sideBetween_iff {m : Mesh} {s a b : Int} : SideBetween m s a b ↔ ∃ e, SurfEdge m s e ∧ EdgeEnds m e a b :=
  ⟨fun ⟨x, hx, hs, h⟩ => ⟨x.index, hs, x, hx, rfl, h⟩, fun ⟨_, hs, x, hx, hi, h⟩ => ⟨x, hx, hi ▸ hs, h⟩⟩

theorem edgeEnds_unique {m : Mesh} (hu : UniqueIndices m) {e a b c d : Int} (h : EdgeEnds m e a b) (h' : EdgeEnds m e c d) :
    (a = c ∧ b = d) ∨ (a = d ∧ b = c) := by
  obtain ⟨x, hx, rfl, g⟩ := h
  obtain ⟨y, hy, hi, g'⟩ := h'
  rw [inj_of_nodup hu.edges hy hx hi] at g'
  rcases g with g | g <;> rw [g] at g' <;> simp only [List.cons.injEq, and_true] at g' <;> omega

/-- **C136**, for meshes in which no edge lists surface 0, or without volumes: the vertices left by the collapse are one of each group of vertices joined by short
edges, two of them are joined exactly if an edge joined their groups, the mesh is sound and no list has repeated entries.  The call throws exactly if there is a volume of which three surfaces
are left when the collapsed edges are dropped and the surfaces with fewer than three entries.  Missing: the surfaces left need not be closed (`C136_open_violated`). -/
theorem C136_collapse_partial (m : Mesh) (tol : ℚ) (t : List Int → Table) (hm : Sound m) (h2 : TwoVerts m) (hl : NoLoops m) (ho : ListedOnce m) (hs : InSpace m)
    (zero : ∀ e, EdgeSurf m e 0 → m.volus = []) (ht : ∀ lab, (t lab).Perm (({ vec := lab, table := [], isHash := true } : HashedVector).generate).table) :
    ∃ into m0, Chosen m tol into ∧ m0.surfs = m.surfs ∧ m0.volus = m.volus ∧ (∀ e, isLoop m0 e = true ↔ Collapsing m tol e) ∧
      (collapseShort m tol (fun lab => (hashedGroups lab (t lab)).findAll) = .error .throws ↔ ∃ c ∈ m0.volus, (surfsLeft m0 c).length = 3) ∧
      ((¬ ∃ c ∈ m0.volus, (surfsLeft m0 c).length = 3) → ∃ r, collapseShort m tol (fun lab => (hashedGroups lab (t lab)).findAll) = .ok r ∧
        Sound r ∧ Quotient m r into ∧ (∀ i, HasVolu r i ↔ ∃ c ∈ m0.volus, c.index = i ∧ 4 ≤ (surfsLeft m0 c).length) ∧
        (∀ s, isFace m0 s = true → ∃ s', HasSurf r s' ∧ MovedFace m r into s s') ∧
        ∀ c, HasVolu r c → (∀ s, VoluSurf m c s → isFace m0 s = true → ∃ s', VoluSurf r c s' ∧ MovedFace m r into s s') ∧
          ∀ s', VoluSurf r c s' → ∃ s, VoluSurf m c s ∧ isFace m0 s = true ∧ MovedFace m r into s s') := by
  obtain ⟨lab, k1, k⟩ := C92_close m tol false hm h2 hl ho hs
  obtain ⟨m', gone, into, k2, k3, k4, k5, k6, k7, k8, k9, k10, k11, k12⟩ := k (t lab) (ht lab)
  have hin : ∀ a, HasVert m a → HasVert m (into a) := fun a ha => shortPath_mem hm ha (k6 a ha)
  have hfix : ∀ a, HasVert m a → into (into a) = into a := fun a ha => ((k5 a (into a) ha (hin a ha)).2 (k6 a ha)).symm
  have hev : ∀ e v, EdgeVert m e v → HasVert m v := fun e v h => hm.noDangling.edgeVert e v h fun h0 => hm.zeroOutside.edgeVert e (h0 ▸ h)
  have hfree : ∀ a ∈ sortUnique gone, VertFree m' a := by
    intro a ha
    rw [mem_sortUnique] at ha
    obtain ⟨g1, g2⟩ := (k7 a).1 ha
    refine ⟨ne_of_gt (hm.pos.verts a g1), fun e he => ?_⟩
    obtain ⟨u, hu, rfl⟩ := (k8 e a).1 he
    exact g2 (hfix u (hev e u hu))
  obtain ⟨m0, hm0⟩ : ∃ m0, m0 = { m' with verts := removeIdx Vert.index m'.verts (sortUnique gone) } := ⟨_, rfl⟩
  have hs0 : Sound m0 := by
    have := remove_sound (vd := sortUnique gone) (ed := []) (sd := []) (cd := []) k3 hfree (by simp) (by simp) (by simp)
    rw [removeIdx_nil, removeIdx_nil, removeIdx_nil] at this
    rw [hm0]
    exact this
  have he0 : m0.edges = m'.edges := by rw [hm0]
  have two0 : ∀ e ∈ m0.edges, ∃ a b, e.vertind = [a, b] := fun e he => List.length_eq_two.1 (k4 e (he0 ▸ he))
  have twom : ∀ e ∈ m.edges, ∃ a b, e.vertind = [a, b] := fun e he => List.length_eq_two.1 (h2 e he)
  have back : ∀ y ∈ m'.edges, ∃ x ∈ m.edges, x.index = y.index := by
    intro y hy
    obtain ⟨a, b, hv⟩ := List.length_eq_two.1 (k4 y hy)
    obtain ⟨u, ⟨x, hx, hi, -⟩, -⟩ := (k8 y.index a).1 ⟨y, hy, rfl, by simp [hv]⟩
    exact ⟨x, hx, hi⟩
  have forth : ∀ x ∈ m.edges, ∃ y ∈ m'.edges, x.index = y.index := by
    intro x hx
    obtain ⟨a, b, hv⟩ := twom x hx
    obtain ⟨y, hy, hi, -⟩ := (k8 x.index (into a)).2 ⟨a, ⟨x, hx, rfl, by simp [hv]⟩, rfl⟩
    exact ⟨y, hy, hi.symm⟩
  have hloop : ∀ e, isLoop m0 e = true ↔ Collapsing m tol e := by
    intro e
    constructor
    · intro h
      obtain ⟨y, hy, rfl⟩ := List.mem_map.1 (isLoop_mem h)
      obtain ⟨a, b, hyv⟩ := two0 y hy
      have hab := (isLoop_iff hs0.unique hy hyv).1 h
      rw [he0] at hy
      obtain ⟨x, hx, hi⟩ := back y hy
      obtain ⟨u, v, hxv⟩ := twom x hx
      refine ⟨x, hx, hi, u, v, hxv, ?_⟩
      rw [← k5 u v (hev x.index u ⟨x, hx, rfl, by simp [hxv]⟩) (hev x.index v ⟨x, hx, rfl, by simp [hxv]⟩)]
      rcases ends_moved hm.unique k3.unique k8 hx hy hi hxv hyv with ⟨g1, g2⟩ | ⟨g1, g2⟩
      · rw [g1, g2, hab]
      · rw [g1, g2, hab]
    · rintro ⟨x, hx, rfl, u, v, hxv, hp⟩
      obtain ⟨y, hy, hi⟩ := forth x hx
      obtain ⟨a, b, hyv⟩ := List.length_eq_two.1 (k4 y hy)
      rw [← k5 u v (hev x.index u ⟨x, hx, rfl, by simp [hxv]⟩) (hev x.index v ⟨x, hx, rfl, by simp [hxv]⟩)] at hp
      rw [hi]
      refine (isLoop_iff hs0.unique (he0 ▸ hy) hyv).2 ?_
      rcases ends_moved hm.unique k3.unique k8 hx hy hi hxv hyv with ⟨g1, g2⟩ | ⟨g1, g2⟩
      · rw [← g1, ← g2, hp]
      · rw [← g1, ← g2, hp]
  have zero0 : ∀ e, EdgeSurf m0 e 0 → m0.volus = [] := by
    rintro e h
    rw [hm0] at h ⊢
    exact k11.trans (zero e ((k9 e 0).1 h))
  have hrun : collapseShort m tol (fun lab => (hashedGroups lab (t lab)).findAll) = m'.removeSingular (sortUnique gone) true >>= fun r => r.tighten := by
    unfold collapseShort
    rw [k1]
    show (mergeGrouped m lab (hashedGroups lab (t lab)).findAll false >>= fun p => _) = _
    rw [k2]
    rfl
  have hsv : m0.surfs = m.surfs ∧ m0.volus = m.volus := by rw [hm0]; exact ⟨k10, k11⟩
  refine ⟨into, m0, ⟨hin, k6, k5⟩, hsv.1, hsv.2, hloop, ?_⟩
  rw [hrun]
  rcases removeSingular_ok (ve := true) hm0 hs0 two0 zero0 with ⟨h, h'⟩ | ⟨h, r, h', h'', h3⟩
  · rw [h']
    exact ⟨⟨fun _ => h.2, fun _ => rfl⟩, fun hn => absurd h.2 hn⟩
  · rw [h']
    have hr2 : ∀ e ∈ r.edges, e.vertind.length ≤ 2 := fun e he => by
      obtain ⟨⟨a, b, g, -⟩, -⟩ := h3.edges e he
      rw [g]; rfl
    obtain ⟨r', g1, g2, -⟩ := C19_tighten r hr2
    have hok : ((.ok r : Res Mesh) >>= fun r => r.tighten) = .ok r' := g1
    rw [hok]
    have hne : ¬ ∃ c ∈ m0.volus, (surfsLeft m0 c).length = 3 := fun hh => h ⟨rfl, hh⟩
    have hsr := sound_tightened h'' g2
    -- ends of the edges
    have E1 : ∀ e a b, EdgeEnds m0 e a b ↔ ∃ u v, EdgeEnds m e u v ∧ into u = a ∧ into v = b := by
      intro e a b
      constructor
      · rintro ⟨y, hy, rfl, g⟩
        rw [he0] at hy
        obtain ⟨x, hx, hi⟩ := back y hy
        obtain ⟨u, v, hxv⟩ := twom x hx
        rcases g with g | g <;> rcases ends_moved hm.unique k3.unique k8 hx hy hi hxv g with ⟨e1, e2⟩ | ⟨e1, e2⟩
        · exact ⟨u, v, ⟨x, hx, hi, .inl hxv⟩, e1, e2⟩
        · exact ⟨v, u, ⟨x, hx, hi, .inr hxv⟩, e2, e1⟩
        · exact ⟨v, u, ⟨x, hx, hi, .inr hxv⟩, e2, e1⟩
        · exact ⟨u, v, ⟨x, hx, hi, .inl hxv⟩, e1, e2⟩
      · rintro ⟨u, v, ⟨x, hx, rfl, g⟩, rfl, rfl⟩
        obtain ⟨y, hy, hi⟩ := forth x hx
        obtain ⟨a, b, hyv⟩ := List.length_eq_two.1 (k4 y hy)
        refine ⟨y, he0 ▸ hy, hi.symm, ?_⟩
        rcases g with g | g <;> rcases ends_moved hm.unique k3.unique k8 hx hy hi g hyv with ⟨e1, e2⟩ | ⟨e1, e2⟩ <;> rw [e1, e2, hyv] <;> simp
    have E2 : ∀ e a b, EdgeEnds r e a b → EdgeEnds m0 e a b ∧ a ≠ b := by
      rintro e a b ⟨x, hx, rfl, g⟩
      obtain ⟨⟨a', b', q1, q2⟩, y, hy, q3, q4⟩ := h3.edges x hx
      refine ⟨⟨y, hy, q3, by rw [q4]; exact g⟩, ?_⟩
      rw [q1] at g
      simp only [List.cons.injEq, and_true] at g
      omega
    have E3 : ∀ e a b, EdgeEnds r' e a b ↔ EdgeEnds r e a b := by
      intro e a b
      constructor
      · rintro ⟨y, hy, rfl, g⟩
        obtain ⟨x, hx, q, -⟩ := forall2_right g2.edges hy
        rw [q] at g
        exact ⟨x, hx, by rw [q], g⟩
      · rintro ⟨x, hx, rfl, g⟩
        obtain ⟨y, hy, q, -⟩ := forall2_left g2.edges hx
        exact ⟨y, hy, by rw [q], by rw [q]; exact g⟩
    have S3 : ∀ s e, SurfEdge r' s e ↔ SurfEdge r s e := by
      intro s e
      constructor
      · rintro ⟨y, hy, rfl, g⟩
        obtain ⟨x, hx, q, q', -⟩ := forall2_right g2.surfs hy
        exact ⟨x, hx, by rw [q], (q'.2 e).1 g⟩
      · rintro ⟨x, hx, rfl, g⟩
        obtain ⟨y, hy, q, q', -⟩ := forall2_left g2.surfs hx
        exact ⟨y, hy, by rw [q], (q'.2 e).2 g⟩
    have C3 : ∀ c s, VoluSurf r' c s ↔ VoluSurf r c s := by
      intro s e
      constructor
      · rintro ⟨y, hy, rfl, g⟩
        obtain ⟨x, hx, q, q'⟩ := forall2_right g2.volus hy
        exact ⟨x, hx, by rw [q], (q'.2 e).1 g⟩
      · rintro ⟨x, hx, rfl, g⟩
        obtain ⟨y, hy, q, q'⟩ := forall2_left g2.volus hx
        exact ⟨y, hy, by rw [q], (q'.2 e).2 g⟩
    have S0 : ∀ s e, SurfEdge m0 s e ↔ SurfEdge m s e := fun s e => by unfold SurfEdge; rw [hsv.1]
    have C0 : ∀ c s, VoluSurf m0 c s ↔ VoluSurf m c s := fun c s => by unfold VoluSurf; rw [hsv.2]
    have hface : ∀ s s', SameFace m0 r s s' → MovedFace m r' into s s' := by
      intro s s' hf a b
      rw [sideBetween_iff]
      constructor
      · rintro ⟨e', q1, q2⟩
        obtain ⟨q3, q4⟩ := E2 _ _ _ ((E3 _ _ _).1 q2)
        refine ⟨q4, ?_⟩
        obtain ⟨e, w1, w2, x, hx, y, hy, w3, w4, w5⟩ := hf.back e' ((S3 _ _).1 q1)
        have : EdgeEnds m0 e a b := by
          obtain ⟨z, hz, hzi, hzv⟩ := q3
          rw [inj_of_nodup hs0.unique.edges hz hy (hzi.trans w4.symm)] at hzv
          refine ⟨x, hx, w3, ?_⟩
          obtain ⟨c, d, hc⟩ := two0 x hx
          rw [hc] at w5 ⊢
          rcases w5 with w5 | w5 <;> rw [w5] at hzv <;> simp at hzv ⊢ <;> omega
        obtain ⟨u, v, z1, z2, z3⟩ := (E1 _ _ _).1 this
        exact ⟨u, v, sideBetween_iff.2 ⟨e, (S0 _ _).1 w1, z1⟩, z2, z3⟩
      · rintro ⟨hab, u, v, q, rfl, rfl⟩
        obtain ⟨e, q1, q2⟩ := sideBetween_iff.1 q
        have q3 := (E1 e _ _).2 ⟨u, v, q2, rfl, rfl⟩
        have q4 : isLoop m0 e = false := by
          obtain ⟨y, hy, rfl, hv⟩ := q3
          rw [← Bool.not_eq_true]
          rcases hv with hv | hv <;> rw [isLoop_iff hs0.unique hy hv]
          · exact hab
          · exact fun h => hab h.symm
        obtain ⟨e', w1, x, hx, y, hy, w3, w4, w5⟩ := hf.there e ((S0 _ _).2 q1) q4
        refine ⟨e', (S3 _ _).2 w1, (E3 _ _ _).2 ?_⟩
        obtain ⟨z, hz, hzi⟩ := h''.noDangling.surfEdge s' e' w1
        obtain ⟨⟨a', b', p1, p2⟩, z', hz', p3, p4⟩ := h3.edges z hz
        rw [inj_of_nodup hs0.unique.edges hz' hy (by rw [p3, hzi, w4])] at p4
        refine ⟨z, hz, hzi, ?_⟩
        obtain ⟨x', hx', g, g'⟩ := q3
        rw [inj_of_nodup hs0.unique.edges hx' hx (by rw [g, w3])] at g'
        rw [← p4]
        rcases w5 with w5 | w5 <;> rw [w5] <;> rcases g' with g' | g' <;> rw [g'] <;> simp
    have hv' : ∀ i, HasVolu r' i ↔ HasVolu r i := by
      intro i
      constructor
      · intro hi
        obtain ⟨y, hy, rfl⟩ := hi
        obtain ⟨x, hx, q, -⟩ := forall2_right g2.volus hy
        exact ⟨x, hx, by rw [q]⟩
      · intro hi
        obtain ⟨x, hx, rfl⟩ := hi
        obtain ⟨y, hy, q, -⟩ := forall2_left g2.volus hx
        exact ⟨y, hy, by rw [q]⟩
    refine ⟨⟨fun hh => by simp at hh, fun hh => absurd hh hne⟩, fun _ => ⟨r', rfl, hsr, ⟨?_, ?_, ?_, ?_, ?_⟩, ?_, ?_, ?_⟩⟩
    · intro a
      have q1 : HasVert r' a ↔ HasVert r a := by
        constructor
        · intro hi
          obtain ⟨y, hy, rfl⟩ := hi
          obtain ⟨x, hx, q, -⟩ := forall2_right g2.verts hy
          exact ⟨x, hx, by rw [q]⟩
        · intro hi
          obtain ⟨x, hx, rfl⟩ := hi
          obtain ⟨y, hy, q, -⟩ := forall2_left g2.verts hx
          exact ⟨y, hy, by rw [q]⟩
      have q2 : HasVert r a ↔ HasVert m0 a := by rw [hasVert_map, hasVert_map, h3.verts]
      have q3 : HasVert m0 a ↔ HasVert m' a ∧ a ∉ gone := by
        unfold HasVert
        rw [hm0]
        constructor
        · intro hh
          obtain ⟨x, hx, rfl⟩ := hh
          have hx := mem_removeIdx.1 hx
          exact ⟨⟨x, hx.1, rfl⟩, fun hg => hx.2 (by rw [mem_sortUnique]; exact hg)⟩
        · rintro ⟨hh, hg⟩
          obtain ⟨x, hx, rfl⟩ := hh
          exact ⟨x, mem_removeIdx.2 ⟨hx, fun hg' => hg (by rw [mem_sortUnique] at hg'; exact hg')⟩, rfl⟩
      rw [q1, q2, q3, k12, k7]
      tauto
    · intro a b
      rw [lineBetween_iff]
      constructor
      · rintro ⟨e, q⟩
        obtain ⟨q3, q4⟩ := E2 _ _ _ ((E3 _ _ _).1 q)
        obtain ⟨u, v, z1, z2, z3⟩ := (E1 _ _ _).1 q3
        exact ⟨q4, u, v, lineBetween_iff.2 ⟨e, z1⟩, z2, z3⟩
      · rintro ⟨hab, u, v, q, rfl, rfl⟩
        obtain ⟨e, q⟩ := lineBetween_iff.1 q
        obtain ⟨y, hy, -, hv⟩ := (E1 e _ _).2 ⟨u, v, q, rfl, rfl⟩
        have : ∃ x ∈ r.edges, x.vertind = [into u, into v] ∨ x.vertind = [into v, into u] := by
          rcases hv with hv | hv
          · exact h3.joined y hy _ _ hv hab
          · obtain ⟨x, hx, hxv⟩ := h3.joined y hy _ _ hv (Ne.symm hab)
            exact ⟨x, hx, hxv.symm⟩
        obtain ⟨x, hx, hxv⟩ := this
        exact ⟨x.index, (E3 _ _ _).2 ⟨x, hx, rfl, hxv⟩⟩
    · intro y hy
      obtain ⟨x, hx, q, q'⟩ := forall2_right g2.verts hy
      exact q'.1.imp fun h => ne_of_lt h
    · intro y hy
      obtain ⟨x, hx, q, q', -⟩ := forall2_right g2.surfs hy
      exact q'.1.imp fun h => ne_of_lt h
    · intro y hy
      obtain ⟨x, hx, q, q'⟩ := forall2_right g2.volus hy
      exact q'.1.imp fun h => ne_of_lt h
    · intro i
      rw [hv', h3.whole]
    · intro s hs
      obtain ⟨s', q1, q2⟩ := h3.faces s hs
      obtain ⟨x, hx, rfl⟩ := q1
      obtain ⟨y, hy, q, -⟩ := forall2_left g2.surfs hx
      exact ⟨_, ⟨y, hy, by rw [q]⟩, hface _ _ q2⟩
    · intro c hc
      obtain ⟨q1, q2⟩ := h3.sides c ((hv' c).1 hc)
      constructor
      · intro s w1 w2
        obtain ⟨s', w3, w4⟩ := q1 s ((C0 _ _).2 w1) w2
        exact ⟨s', (C3 _ _).2 w3, hface _ _ w4⟩
      · intro s' w
        obtain ⟨s, w1, w2, w3⟩ := q2 s' ((C3 _ _).1 w)
        exact ⟨s, (C0 _ _).1 w1, w2, hface _ _ w3⟩

theorem noLoops_of_nodup {m : Mesh} (h : ∀ e ∈ m.edges, e.vertind.Nodup) : NoLoops m := by
  intro e he x hx
  have := h e he
  rw [hx] at this
  simp at this

/-- The table as it is filled. -/
def plainTable (lab : List Int) : Table := (({ vec := lab, table := [], isHash := true } : HashedVector).generate).table

/-- A pyramid on a square, one edge of which is short. -/
def shortPyramid : Mesh where
  verts := [⟨1, [1, 4, 5], [0, 0, 0], false⟩, ⟨2, [1, 2, 6], [1/1000, 0, 0], false⟩, ⟨3, [2, 3, 7], [1, 1, 0], false⟩,
            ⟨4, [3, 4, 8], [0, 1, 0], false⟩, ⟨5, [5, 6, 7, 8], [0, 0, 1], false⟩]
  edges := [⟨1, [1, 2], [1, 2], false⟩, ⟨2, [2, 3], [1, 3], false⟩, ⟨3, [3, 4], [1, 4], false⟩, ⟨4, [4, 1], [1, 5], false⟩,
            ⟨5, [1, 5], [2, 5], false⟩, ⟨6, [2, 5], [2, 3], false⟩, ⟨7, [3, 5], [3, 4], false⟩, ⟨8, [4, 5], [4, 5], false⟩]
  surfs := [{ index := 1, edgeind := [1, 2, 3, 4], voluind := [1, 0] }, { index := 2, edgeind := [1, 5, 6], voluind := [1, 0] },
            { index := 3, edgeind := [2, 6, 7], voluind := [1, 0] }, { index := 4, edgeind := [3, 7, 8], voluind := [1, 0] },
            { index := 5, edgeind := [4, 5, 8], voluind := [1, 0] }]
  volus := [{ index := 1, surfind := [1, 2, 3, 4, 5] }]
  meshDim := 3

/-- The pyramid becomes a tetrahedron. -/
example : (collapseShort shortPyramid (1/100) (fun lab => (hashedGroups lab (plainTable lab)).findAll)).toOption.map
      (fun r => (r.verts.map Vert.index, r.edges.map Edge.index, r.surfs.map Surf.edgeind, r.volus.map Volu.surfind)) =
    some ([1, 3, 4, 5], [2, 3, 4, 5, 7, 8], [[2, 3, 4], [2, 5, 7], [3, 7, 8], [4, 5, 8]], [[1, 3, 4, 5]]) := by decide +kernel

example : ∃ into r, Chosen shortPyramid (1/100) into ∧ collapseShort shortPyramid (1/100) (fun lab => (hashedGroups lab (plainTable lab)).findAll) = .ok r ∧
    Sound r ∧ Quotient shortPyramid r into := by
  obtain ⟨into, m0, h1, -, -, -, h5, h6⟩ := C136_collapse_partial shortPyramid (1/100) plainTable (sound_of_checked (by decide +kernel))
    (by unfold TwoVerts; decide +kernel) (noLoops_of_nodup (by decide +kernel)) (by unfold ListedOnce; decide +kernel) (by unfold InSpace; decide +kernel)
    (fun e h => absurd h (zero_of_dec (by decide +kernel) e)) (fun _ => List.Perm.refl _)
  obtain ⟨r, k1, k2, k3, -⟩ := h6 (fun h => by
    have h7 := h5.2 h
    have h8 : (collapseShort shortPyramid (1/100) (fun lab => (hashedGroups lab (plainTable lab)).findAll)).toOption.isSome = true := by decide +kernel
    rw [h7] at h8
    simp [Except.toOption] at h8)
  exact ⟨into, r, h1, k1, k2, k3⟩

/-- A prism with one short edge in each of its triangles. -/
def shortPrism : Mesh where
  verts := [⟨1, [1, 3, 7], [0, 0, 0], false⟩, ⟨2, [1, 2, 8], [1, 0, 0], false⟩, ⟨3, [2, 3, 9], [1, 1/1000, 0], false⟩,
            ⟨4, [4, 6, 7], [0, 0, 1], false⟩, ⟨5, [4, 5, 8], [1/1000, 0, 1], false⟩, ⟨6, [5, 6, 9], [1, 1, 1], false⟩]
  edges := [⟨1, [1, 2], [1, 3], false⟩, ⟨2, [2, 3], [1, 4], false⟩, ⟨3, [3, 1], [1, 5], false⟩, ⟨4, [4, 5], [2, 3], false⟩,
            ⟨5, [5, 6], [2, 4], false⟩, ⟨6, [6, 4], [2, 5], false⟩, ⟨7, [1, 4], [3, 5], false⟩, ⟨8, [2, 5], [3, 4], false⟩, ⟨9, [3, 6], [4, 5], false⟩]
  surfs := [{ index := 1, edgeind := [1, 2, 3], voluind := [1, 0] }, { index := 2, edgeind := [4, 5, 6], voluind := [1, 0] },
            { index := 3, edgeind := [1, 8, 4, 7], voluind := [1, 0] }, { index := 4, edgeind := [2, 9, 5, 8], voluind := [1, 0] },
            { index := 5, edgeind := [3, 9, 6, 7], voluind := [1, 0] }]
  volus := [{ index := 1, surfind := [1, 2, 3, 4, 5] }]
  meshDim := 3

/-- **C136, violated**: the collapse stops the program on a prism. -/
theorem C136_prism_violated : ∃ (m : Mesh) (tol : ℚ), Sound m ∧ TwoVerts m ∧ NoLoops m ∧ ListedOnce m ∧ InSpace m ∧ (∀ e, ¬ EdgeSurf m e 0) ∧ 0 < tol ∧
    ∀ t : List Int → Table, (∀ lab, (t lab).Perm (plainTable lab)) →
      collapseShort m tol (fun lab => (hashedGroups lab (t lab)).findAll) = .error .throws := by
  have a1 : Sound shortPrism := sound_of_checked (by decide +kernel)
  have a2 : TwoVerts shortPrism := by unfold TwoVerts; decide +kernel
  have a3 : NoLoops shortPrism := noLoops_of_nodup (by decide +kernel)
  have a4 : ListedOnce shortPrism := by unfold ListedOnce; decide +kernel
  have a5 : InSpace shortPrism := by unfold InSpace; decide +kernel
  have a6 : ∀ e, ¬ EdgeSurf shortPrism e 0 := zero_of_dec (by decide +kernel)
  refine ⟨shortPrism, 1/100, a1, a2, a3, a4, a5, a6, by norm_num, fun t ht => ?_⟩
  have key : ∀ (m0 m1 : Mesh), m0.surfs = m1.surfs → (∀ e, isLoop m0 e = true ↔ isLoop m1 e = true) → ∀ c, surfsLeft m0 c = surfsLeft m1 c := by
    intro m0 m1 h h' c
    have hl : isLoop m0 = isLoop m1 := funext fun e => Bool.eq_iff_iff.2 (h' e)
    unfold surfsLeft isFace edgesLeft
    rw [hl, h]
  obtain ⟨into, m0, -, b2, b3, b4, b5, -⟩ := C136_collapse_partial shortPrism (1/100) t a1 a2 a3 a4 a5 (fun e h => absurd h (a6 e)) ht
  obtain ⟨into', m1, -, c2, c3, c4, c5, -⟩ := C136_collapse_partial shortPrism (1/100) plainTable a1 a2 a3 a4 a5 (fun e h => absurd h (a6 e)) (fun _ => List.Perm.refl _)
  have h8 : (collapseShort shortPrism (1/100) (fun lab => (hashedGroups lab (plainTable lab)).findAll)) = .error .throws := by
    have : (match collapseShort shortPrism (1/100) (fun lab => (hashedGroups lab (plainTable lab)).findAll) with
      | .error .throws => true | _ => false) = true := by decide +kernel
    revert this
    split <;> simp_all
  obtain ⟨c, d1, d2⟩ := c5.1 h8
  refine b5.2 ⟨c, by rw [b3, ← c3]; exact d1, ?_⟩
  rw [key m0 m1 (b2.trans c2.symm) fun e => (b4 e).trans (c4 e).symm]
  exact d2

/-- A pentagon and a quadrangle with two short edges and the three edges between them in common. -/
def shortSides : Mesh where
  verts := [⟨1, [1, 5, 6], [0, 0, 0], false⟩, ⟨2, [3, 4, 6], [1/1000, 0, 0], false⟩, ⟨3, [1, 2], [1, 0, 0], false⟩,
            ⟨4, [2, 3], [1001/1000, 0, 0], false⟩, ⟨5, [4, 5], [0, 5, 0], false⟩]
  edges := [⟨1, [1, 3], [1, 2], false⟩, ⟨2, [3, 4], [1, 2], false⟩, ⟨3, [4, 2], [1, 2], false⟩, ⟨4, [2, 5], [1], false⟩,
            ⟨5, [5, 1], [1], false⟩, ⟨6, [2, 1], [2], false⟩]
  surfs := [{ index := 1, edgeind := [1, 2, 3, 4, 5], voluind := [] }, { index := 2, edgeind := [1, 2, 3, 6], voluind := [] }]
  volus := []
  meshDim := 3

/-- **C136, violated**: the sides of a surface left by the collapse need not close: one of its vertices is on one side only. -/
theorem C136_open_violated : ∃ r, Sound shortSides ∧ collapseShort shortSides (1/100) (fun lab => (hashedGroups lab (plainTable lab)).findAll) = .ok r ∧
    ∃ s ∈ r.surfs, ∃ v, (s.edgeind.filter fun e => r.edges.any fun x => x.index == e && x.vertind.contains v).length = 1 := by
  cases h : collapseShort shortSides (1/100) (fun lab => (hashedGroups lab (plainTable lab)).findAll) with
  | error e =>
    have h8 : (collapseShort shortSides (1/100) (fun lab => (hashedGroups lab (plainTable lab)).findAll)).toOption.isSome = true := by decide +kernel
    rw [h] at h8
    simp [Except.toOption] at h8
  | ok r =>
    have h8 : ((collapseShort shortSides (1/100) (fun lab => (hashedGroups lab (plainTable lab)).findAll)).toOption.map fun r =>
      r.surfs.any fun s => (s.edgeind.filter fun e => r.edges.any fun x => x.index == e && x.vertind.contains 3).length == 1) = some true := by decide +kernel
    rw [h] at h8
    simp only [Except.toOption, Option.map_some, Option.some.injEq, List.any_eq_true, beq_iff_eq] at h8
    obtain ⟨s, h9, h10⟩ := h8
    exact ⟨r, sound_of_checked (by decide +kernel), rfl, s, h9, 3, h10⟩

end RSVS.Props
