import Verif.Lemmas.Tecplot

/-!
# Tecplot zones: the zones of a mesh
-/

namespace RSVS.Tecplot

open RSVS RSVS.Spec RSVS.Order RSVS.Mesh

theorem ok_bind' {α β : Type} (a : α) (f : α → Res β) : Except.bind (Except.ok a) f = f a := rfl

theorem two_of_length {α : Type} {l : List α} (h : l.length = 2) : ∃ a b, l = [a, b] := by
  match l, h with
  | [a, b], _ => exact ⟨a, b, rfl⟩

theorem numberOf_le {α : Type} {ix : α → Int} {l : List α} {f : Int → Int} (h : ∀ c, NumberOf (l.map ix) (f c) c) (c : Int) :
    0 ≤ f c ∧ f c ≤ l.length := by
  have := numberOf_range (h c)
  rwa [List.length_map] at this

theorem coordRows_length (V : List Vert) : (coordRows V).length = 3 := rfl

theorem coordRows_row {V : List Vert} {r : List ℚ} (h : r ∈ coordRows V) : r.length = V.length := by
  obtain ⟨j, _, rfl⟩ := List.mem_map.mp h
  simp

/-- The zone of the volumes `C` with faces `F` and nodes `V`. -/
def polyZone (V : List Vert) (C : List Volu) (F : List Surf) (fs : List (List Int)) (cnum : Int → Int) : Zone :=
  ⟨.polyhedron, V.length, C.length, F.length, (F.map fun s => (s.edgeind.length : Int)).sum, coordRows V,
    [C.map Volu.fill, C.map Volu.target, C.map Volu.error],
    (F.map fun s => (s.edgeind.length : Int)) :: fs ++
      [F.map fun s => cnum (s.voluind.getD 0 0), F.map fun s => cnum (s.voluind.getD 1 0)]⟩

theorem sides_ok {F : List Surf} (hF : ∀ s ∈ F, s.voluind.length = 2) (cnum : Int → Int) (k : Nat) (hk : k < 2) :
    F.mapM (m := Except Fault) (fun s => (vecGet s.voluind (k : Int)).map cnum) =
      .ok (F.map fun s => cnum (s.voluind.getD k 0)) := by
  refine mapM_fun fun s hs => ?_
  have hlt : k < s.voluind.length := by rw [hF s hs]; exact hk
  rw [vecGet_nat (List.getElem?_eq_getElem hlt), List.getD_eq_getElem?_getD, List.getElem?_eq_getElem hlt]
  rfl

theorem poly_ok {m : Mesh} {V : List Vert} {C : List Volu} {F : List Surf} {num cnum : Int → Int}
    (hu : (m.edges.map Edge.index).Nodup) (hnum : ∀ v, NumberOf (V.map Vert.index) (num v + 1) v)
    (hc : ∀ c, NumberOf (C.map Volu.index) (cnum c) c)
    (hF : ∀ s ∈ F, 3 ≤ s.edgeind.length ∧ (∃ w, GoesRound (EdgeJoins m) s.edgeind w) ∧ s.voluind.length = 2)
    (hW : ∀ s ∈ F, ∀ e ∈ s.edgeind, ∀ x ∈ m.edges, x.index = e → ∀ v ∈ x.vertind, v ∈ V.map Vert.index) :
    ∃ fs, F.mapM (m := Except Fault) (fun s => faceNodes num m s.edgeind) = .ok fs ∧
      ShowsVolumes m V C F (polyZone V C F fs cnum) ∧ Readable (polyZone V C F fs cnum) := by
  obtain ⟨fs, h1, h2⟩ := mapM_ex (l := F) (f := fun s => faceNodes num m s.edgeind)
    (P := fun s r => r.length = s.edgeind.length ∧ (∀ n ∈ r, 1 ≤ n ∧ n ≤ (V.map Vert.index).length) ∧
      ∀ w, GoesRound (EdgeJoins m) s.edgeind w →
        List.Forall₂ (NumberOf (V.map Vert.index)) r ((List.range s.edgeind.length).map w))
    fun s hs => faceNodes_ok hu hnum (hF s hs).1 (hW s hs) (hF s hs).2.1
  have hlen : F.length = fs.length := h2.length_eq
  have hcounts : (F.map fun s => (s.edgeind.length : Int)) = fs.map fun f => (f.length : Int) := by
    rw [← List.forall₂_eq_eq_eq, List.forall₂_map_left_iff, List.forall₂_map_right_iff]
    exact h2.imp fun a b h => by rw [h.1]
  refine ⟨fs, h1, ⟨rfl, rfl, rfl, rfl, ?_, ?_⟩, ⟨rfl, ?_, rfl, ?_, ?_⟩⟩
  · intro i s hs
    obtain ⟨hi, hsi⟩ := List.getElem?_eq_some_iff.mp hs
    have hi' : i < fs.length := by omega
    obtain ⟨_, _, h3⟩ := List.forall₂_iff_get.mp h2 |>.2 i hi hi'
    simp only [List.get_eq_getElem, hsi] at h3
    obtain ⟨a, b, hab⟩ := two_of_length (hF s (List.mem_of_getElem? hs)).2.2
    refine ⟨fs[i], a, b, cnum a, cnum b, ?_, h3, hab, ?_, ?_, hc a, hc b⟩
    · show ((_ :: fs) ++ _)[i + 1]? = _
      rw [List.cons_append, List.getElem?_cons_succ, List.getElem?_append_left hi', List.getElem?_eq_getElem hi']
    · have : (polyZone V C F fs cnum).map[F.length + 1]? = some (F.map fun s => cnum (s.voluind.getD 0 0)) := by
        show ((_ :: fs) ++ _)[F.length + 1]? = _
        rw [List.cons_append, List.getElem?_cons_succ, List.getElem?_append_right (by omega),
          show F.length - fs.length = 0 by omega]
        rfl
      rw [this, Option.bind_some, List.getElem?_map, hs, Option.map_some, hab]
      rfl
    · have : (polyZone V C F fs cnum).map[F.length + 2]? = some (F.map fun s => cnum (s.voluind.getD 1 0)) := by
        show ((_ :: fs) ++ _)[F.length + 2]? = _
        rw [List.cons_append, List.getElem?_cons_succ, List.getElem?_append_right (by omega),
          show F.length + 1 - fs.length = 1 by omega]
        rfl
      rw [this, Option.bind_some, List.getElem?_map, hs, Option.map_some, hab]
      rfl
  · show ((_ :: fs) ++ _).length = _
    simp [hlen]
  · intro r hr
    exact congrArg Nat.cast (coordRows_row hr)
  · intro r hr
    simp only [polyZone, List.mem_cons, List.not_mem_nil, or_false] at hr
    rcases hr with rfl | rfl | rfl <;> simp [polyZone]
  · refine ⟨fs, F.map fun s => cnum (s.voluind.getD 0 0), F.map fun s => cnum (s.voluind.getD 1 0), ?_, ?_⟩
    · show (_ :: fs) ++ _ = _
      rw [hcounts]
    · refine ⟨by show (fs.length : Int) = F.length; omega, ?_, ?_, by simp [polyZone], by simp [polyZone], ?_⟩
      · intro f hf n hn
        obtain ⟨i, hi, rfl⟩ := List.mem_iff_getElem.mp hf
        have := ((List.forall₂_iff_get.mp h2).2 i (by omega) hi).2.1 n hn
        rwa [List.length_map] at this
      · exact congrArg List.sum hcounts.symm
      · intro c hcm
        rcases List.mem_append.mp hcm with hcm | hcm <;>
        · obtain ⟨s, _, rfl⟩ := List.mem_map.mp hcm
          exact numberOf_le hc _

/-- Ends of the edges of surfaces are vertices. -/
theorem ends_are_verts {m : Mesh} (hs : Sound m) {x : Edge} (hx : x ∈ m.edges) {v : Int} (hv : v ∈ x.vertind) :
    HasVert m v :=
  hs.noDangling.edgeVert x.index v ⟨x, hx, rfl, hv⟩
    fun h0 => hs.zeroOutside.edgeVert x.index ⟨x, hx, rfl, h0 ▸ hv⟩

theorem mem_index {m : Mesh} {v : Int} (h : HasVert m v) : v ∈ m.verts.map Vert.index := by
  obtain ⟨x, h1, h2⟩ := h
  exact List.mem_map.mpr ⟨x, h1, h2⟩

theorem volFaceMap_eq {m : Mesh} {fs : List (List Int)} (hF : ∀ s ∈ m.surfs, s.voluind.length = 2)
    (h : m.surfs.mapM (m := Except Fault) (fun s => faceNodes (posOf Vert.index m.verts) m s.edgeind) = .ok fs) :
    volFaceMap m m.surfs.length =
      .ok (polyZone m.verts m.volus m.surfs fs (fun c => posOf Volu.index m.volus c + 1)).map := by
  unfold volFaceMap
  have h0 := sides_ok hF (fun c => posOf Volu.index m.volus c + 1) 0 (by omega)
  have h1 := sides_ok hF (fun c => posOf Volu.index m.volus c + 1) 1 (by omega)
  rw [lineOf_eq, lineOf_eq, lineOf_eq, lineOf_eq, h, mapM_fun (g := fun s : Surf => (s.edgeind.length : Int)) fun _ _ => rfl]
  show (Except.bind (m.surfs.mapM (m := Except Fault) _) fun left => Except.map _ (m.surfs.mapM (m := Except Fault) _)) = _
  erw [h0, h1]
  rfl

/-- The zone of a mesh of volumes. -/
theorem polyhedron_ok {m : Mesh} (hs : Sound m) (hf : Faced m) (h3 : Solid m) (hv : m.verts ≠ []) :
    ∃ z, polyhedronZone m = .ok z ∧ ShowsVolumes m m.verts m.volus m.surfs z ∧ Readable z := by
  obtain ⟨fs, h1, h2, h4⟩ := poly_ok (V := m.verts) (C := m.volus) (F := m.surfs) hs.unique.edges
    (numberOf_posOf Vert.index m.verts) (numberOf_posOf Volu.index m.volus) hf
    fun s _ e _ x hx _ v hvx => mem_index (ends_are_verts hs hx hvx)
  refine ⟨_, ?_, h2, h4⟩
  unfold polyhedronZone volCoords volValues
  rw [if_pos List.length_nil, if_pos List.length_nil, coordLines_ok h3 hv, valueLines_ok, volFaceMap_eq (fun s hs => (hf s hs).2.2) h1]
  rfl

/-! ### Flat meshes and lines -/

theorem edgeLines_ok {m : Mesh} (h2 : TwoVerts m) : edgeLines m m.edges.length =
    .ok (m.edges.map fun e => e.vertind.map fun v => posOf Vert.index m.verts v + 1) := by
  unfold edgeLines
  rw [lineOf_eq]
  refine mapM_fun fun e he => ?_
  obtain ⟨a, b, hab⟩ := two_of_length (h2 e he)
  rw [hab]
  rfl

theorem numbers_list (V : List Vert) (l : List Int) :
    List.Forall₂ (NumberOf (V.map Vert.index)) (l.map fun v => posOf Vert.index V v + 1) l := by
  rw [List.forall₂_map_left_iff]
  exact List.forall₂_same.mpr fun v _ => numberOf_posOf Vert.index V v

theorem edgeLine_range {m : Mesh} (hs : Sound m) {e : Edge} (he : e ∈ m.edges) {n : Int}
    (hn : n ∈ e.vertind.map fun v => posOf Vert.index m.verts v + 1) : 1 ≤ n ∧ n ≤ m.verts.length := by
  obtain ⟨v, hv, rfl⟩ := List.mem_map.mp hn
  have h := numberOf_posOf Vert.index m.verts v
  have h2 := numberOf_range h
  rw [List.length_map] at h2
  exact ⟨numberOf_pos h (mem_index (ends_are_verts hs he hv)), h2.2⟩

theorem polygon_ok {m : Mesh} (hs : Sound m) (h2 : TwoVerts m) (h3 : Solid m) (hv : m.verts ≠ [])
    (hf : ∀ e ∈ m.edges, e.surfind.length = 2) :
    ∃ z, polygonZone m = .ok z ∧ ShowsSurfaces m z ∧ Readable z := by
  have side : ∀ k : Nat, k < 2 → m.edges.mapM (m := Except Fault)
      (fun e => (vecGet e.surfind (k : Int)).map fun s => posOf Surf.index m.surfs s + 1) =
      .ok (m.edges.map fun e => posOf Surf.index m.surfs (e.surfind.getD k 0) + 1) := by
    intro k hk
    refine mapM_fun fun e he => ?_
    have hlt : k < e.surfind.length := by rw [hf e he]; exact hk
    rw [vecGet_nat (List.getElem?_eq_getElem hlt), List.getD_eq_getElem?_getD, List.getElem?_eq_getElem hlt]
    rfl
  have h0 := side 0 (by omega)
  have h1 := side 1 (by omega)
  refine ⟨⟨.polygon, m.verts.length, m.surfs.length, m.edges.length, 2 * m.edges.length, coordRows m.verts,
    [m.surfs.map Surf.fill, m.surfs.map Surf.target, m.surfs.map Surf.error],
    (m.edges.map fun e => e.vertind.map fun v => posOf Vert.index m.verts v + 1) ++
      [m.edges.map fun e => posOf Surf.index m.surfs (e.surfind.getD 0 0) + 1,
       m.edges.map fun e => posOf Surf.index m.surfs (e.surfind.getD 1 0) + 1]⟩, ?_, ⟨rfl, rfl, rfl, rfl, ?_, ?_⟩,
    ⟨rfl, ?_, rfl, ?_, ?_⟩⟩
  · unfold polygonZone surfFaceMap
    rw [coordLines_ok h3 hv, valueLines_ok, edgeLines_ok h2, lineOf_eq, lineOf_eq]
    erw [h0, h1]
    rfl
  · intro i e he
    obtain ⟨hi, hei⟩ := List.getElem?_eq_some_iff.mp he
    obtain ⟨a, b, hab⟩ := two_of_length (hf e (List.mem_of_getElem? he))
    refine ⟨_, a, b, posOf Surf.index m.surfs a + 1, posOf Surf.index m.surfs b + 1, ?_, numbers_list m.verts e.vertind, hab,
      ?_, ?_, numberOf_posOf _ _ _, numberOf_posOf _ _ _⟩
    · show (_ ++ _)[i]? = _
      rw [List.getElem?_append_left (by simpa using hi), List.getElem?_map, he]
      rfl
    · show ((_ ++ _)[m.edges.length]?).bind _ = _
      rw [List.getElem?_append_right (by simp), List.length_map, Nat.sub_self, List.getElem?_cons_zero, Option.bind_some,
        List.getElem?_map, he, Option.map_some, hab]
      rfl
    · show ((_ ++ _)[m.edges.length + 1]?).bind _ = _
      rw [List.getElem?_append_right (by simp), List.length_map, Nat.add_sub_cancel_left, List.getElem?_cons_succ,
        List.getElem?_cons_zero, Option.bind_some, List.getElem?_map, he, Option.map_some, hab]
      rfl
  · simp
  · intro r hr
    exact congrArg Nat.cast (coordRows_row hr)
  · intro r hr
    simp only [List.mem_cons, List.not_mem_nil, or_false] at hr
    rcases hr with rfl | rfl | rfl <;> simp
  · refine ⟨_, _, _, rfl, ⟨by simp, ?_, ?_, by simp, by simp, ?_⟩, ?_⟩
    · intro f hf' n hn
      obtain ⟨e, he, rfl⟩ := List.mem_map.mp hf'
      exact edgeLine_range hs he hn
    · show _ = (2 * (m.edges.length : Int))
      rw [List.map_map, List.map_congr_left (g := fun _ => (2 : Int)) fun e he => by simp [h2 e he]]
      simp [mul_comm]
    · intro c hc
      rcases List.mem_append.mp hc with hc | hc <;>
      · obtain ⟨s, _, rfl⟩ := List.mem_map.mp hc
        exact numberOf_le (f := fun c => posOf Surf.index m.surfs c + 1) (numberOf_posOf Surf.index m.surfs) _
    · intro f hf'
      obtain ⟨e, he, rfl⟩ := List.mem_map.mp hf'
      rw [List.length_map, h2 e he]

theorem line_ok {m : Mesh} (hs : Sound m) (h2 : TwoVerts m) (h3 : Solid m) (hv : m.verts ≠ []) :
    ∃ z, lineZone m = .ok z ∧ ShowsEdges m z ∧ Readable z := by
  refine ⟨⟨.line, m.verts.length, m.edges.length, m.edges.length, 0, coordRows m.verts,
    List.replicate 3 (List.replicate m.edges.length 0),
    m.edges.map fun e => e.vertind.map fun v => posOf Vert.index m.verts v + 1⟩, ?_, ⟨rfl, rfl, ?_, ?_⟩,
    ⟨rfl, ?_, rfl, ?_, by simp, ?_⟩⟩
  · unfold lineZone
    rw [coordLines_ok h3 hv, edgeLines_ok h2]
    rfl
  · intro r hr x hx
    rw [List.eq_of_mem_replicate hr] at hx
    exact List.eq_of_mem_replicate hx
  · show List.Forall₂ _ (m.edges.map _) m.edges
    rw [List.forall₂_map_left_iff]
    exact List.forall₂_same.mpr fun e _ => numbers_list m.verts e.vertind
  · intro r hr
    exact congrArg Nat.cast (coordRows_row hr)
  · intro r hr
    rw [List.eq_of_mem_replicate hr, List.length_replicate]
  · intro f hf'
    obtain ⟨e, he, rfl⟩ := List.mem_map.mp hf'
    exact ⟨by rw [List.length_map, h2 e he], fun n hn => edgeLine_range hs he hn⟩

/-! ### Some of the volumes -/

theorem volCoords_ok {m : Mesh} (h3 : Solid m) (hn : (m.verts.map Vert.index).Nodup) (hv : m.verts ≠ [])
    {V : List Vert} (hV : ∀ v ∈ V, v ∈ m.verts) {n : Nat} (hl : n = V.length) :
    volCoords m n (V.map Vert.index) = .ok (coordRows V) := by
  unfold volCoords
  split_ifs with h
  · have h0 : V = [] := List.length_eq_zero_iff.mp (by simpa using h)
    subst h0
    subst hl
    exact coords_rows (V := ([] : List Vert)) (l := m.verts) id (fun f => lineOf m.verts 0 f) (fun f => rfl) (by simp) hv h3 0
  · exact coordLinesOf_ok h3 hn hv hV

theorem volFaceMapOf_eq {m : Mesh} {V : List Vert} {C : List Volu} {F : List Surf} {fs : List (List Int)}
    (hn : (m.surfs.map Surf.index).Nodup) (hFm : ∀ s ∈ F, s ∈ m.surfs) (hF : ∀ s ∈ F, s.voluind.length = 2)
    (h : F.mapM (m := Except Fault) (fun s => faceNodes (posOf id (V.map Vert.index)) m s.edgeind) = .ok fs) :
    volFaceMapOf m (F.map Surf.index) (C.map Volu.index) (V.map Vert.index) =
      .ok (polyZone V C F fs (cellNum (C.map Volu.index))).map := by
  unfold volFaceMapOf
  have h0 := sides_ok hF (cellNum (C.map Volu.index)) 0 (by omega)
  have h1 := sides_ok hF (cellNum (C.map Volu.index)) 1 (by omega)
  dsimp only
  rw [rows_eq hn _ hFm, rows_eq hn _ hFm, rows_eq hn _ hFm, rows_eq hn _ hFm, h,
    mapM_fun (g := fun s : Surf => (s.edgeind.length : Int)) fun _ _ => rfl]
  erw [h0, h1]
  rfl

theorem cells_ok {m : Mesh} (hs : Sound m) (hf : Faced m) (h3 : Solid m) (hv : m.verts ≠ []) {L : List Int}
    (hL : L ≠ []) (hLm : ∀ k ∈ L, HasVolu m k) :
    ∃ z V C F, cellsZone m L = .ok z ∧ C.map Volu.index = L ∧ (∀ c ∈ C, c ∈ m.volus) ∧ FacesOf m C F ∧ CornersOf m F V ∧
      ShowsVolumes m V C F z ∧ Readable z := by
  obtain ⟨C, rfl, hC⟩ := of_keys (ix := Volu.index) (l := m.volus) hLm
  obtain ⟨ss, a1, a2⟩ := Refine.concatField_ok (field := Volu.surfind) hLm hs.unique.volus
  have hss : ∀ k ∈ sortUnique ss, ∃ s ∈ m.surfs, s.index = k := by
    intro k hk
    obtain ⟨c, c1, _, c3⟩ := (a2 k).mp (mem_sortUnique.mp hk)
    exact hs.noDangling.voluSurf c.index k ⟨c, c1, rfl, c3⟩ fun h0 => hs.zeroOutside.voluSurf c.index ⟨c, c1, rfl, h0 ▸ c3⟩
  obtain ⟨F, f1, f2⟩ := of_keys hss
  obtain ⟨es, b1, b2⟩ := Refine.concatField_ok (field := Surf.edgeind) hss hs.unique.surfs
  have hes : ∀ k ∈ es, ∃ e ∈ m.edges, e.index = k := by
    intro k hk
    obtain ⟨s, s1, _, s3⟩ := (b2 k).mp hk
    exact hs.noDangling.surfEdge s.index k ⟨s, s1, rfl, s3⟩
  obtain ⟨vs, d1, d2⟩ := Refine.concatField_ok (field := Edge.vertind) hes hs.unique.edges
  have hvs : ∀ k ∈ sortUnique vs, ∃ v ∈ m.verts, v.index = k := by
    intro k hk
    obtain ⟨e, e1, _, e3⟩ := (d2 k).mp (mem_sortUnique.mp hk)
    exact ends_are_verts hs e1 e3
  obtain ⟨V, v1, v2⟩ := of_keys hvs
  have hFmem : ∀ s, s ∈ F ↔ s ∈ m.surfs ∧ s.index ∈ ss := by
    intro s
    constructor
    · intro h
      refine ⟨f2 s h, mem_sortUnique.mp ?_⟩
      rw [← f1]
      exact List.mem_map_of_mem h
    · rintro ⟨h, h'⟩
      have : s.index ∈ F.map Surf.index := by rw [f1]; exact mem_sortUnique.mpr h'
      obtain ⟨t, t1, t2⟩ := List.mem_map.mp this
      rwa [← inj_of_nodup hs.unique.surfs (f2 t t1) h t2]
  have hes' : ∀ k, k ∈ es ↔ ∃ s ∈ F, k ∈ s.edgeind := by
    intro k
    rw [b2]
    exact ⟨fun ⟨s, s1, s2, s3⟩ => ⟨s, (hFmem s).mpr ⟨s1, mem_sortUnique.mp s2⟩, s3⟩,
      fun ⟨s, s1, s3⟩ => ⟨s, f2 s s1, mem_sortUnique.mpr ((hFmem s).mp s1).2, s3⟩⟩
  have hV : ∀ v ∈ m.verts, v ∈ V ↔ v.index ∈ vs := by
    intro v hvm
    constructor
    · intro h
      refine mem_sortUnique.mp ?_
      rw [← v1]
      exact List.mem_map_of_mem h
    · intro h'
      have : v.index ∈ V.map Vert.index := by rw [v1]; exact mem_sortUnique.mpr h'
      obtain ⟨t, t1, t2⟩ := List.mem_map.mp this
      rwa [← inj_of_nodup hs.unique.verts (v2 t t1) hvm t2]
  have hfF : ∀ s ∈ F, 3 ≤ s.edgeind.length ∧ (∃ w, GoesRound (EdgeJoins m) s.edgeind w) ∧ s.voluind.length = 2 :=
    fun s hsF => hf s (f2 s hsF)
  obtain ⟨fs, h1, h2, h4⟩ := poly_ok (V := V) (C := C) (F := F) hs.unique.edges
    (numberOf_id (V.map Vert.index)) (numberOf_cell (C.map Volu.index)) hfF (by
      intro s hsF e he x hx hxe v hvx
      rw [v1]
      exact mem_sortUnique.mpr ((d2 v).mpr ⟨x, hx, (hes' x.index).mpr ⟨s, hsF, hxe ▸ he⟩, hvx⟩))
  refine ⟨_, V, C, F, ?_, rfl, hC, ⟨?_, ?_⟩, ⟨?_, ?_⟩, h2, h4⟩
  · unfold cellsZone
    rw [if_neg (fun h => hL (List.length_eq_zero_iff.mp h)), a1, ok_bind', b1, ok_bind', d1, ok_bind', ← f1, ← v1]
    have hns : (F.map Surf.index).mapM (m := Except Fault) (fun j => (isearch Surf.index m.surfs j).map
        fun s => (s.edgeind.length : Int)) = .ok (F.map fun s => (s.edgeind.length : Int)) := by
      have := keys_eq hs.unique.surfs (fun s : Surf => (Except.ok (s.edgeind.length : Int) : Res Int)) f2
      rw [mapM_fun (g := fun s : Surf => (s.edgeind.length : Int)) fun _ _ => rfl] at this
      rw [← this]
      congr 1
    unfold volValues
    rw [hns, ok_bind', volCoords_ok h3 hs.unique.verts hv v2 (by rw [List.length_map]), ok_bind',
      if_neg (fun h => hL (List.length_eq_zero_iff.mp h)), valueLinesOf_ok hs.unique.volus hC, ok_bind',
      volFaceMapOf_eq hs.unique.surfs f2 (fun s hsF => (hfF s hsF).2.2) h1, List.length_map, List.length_map, List.length_map]
    rfl
  · have := nodup_sortUnique ss
    rw [← f1] at this
    exact this.of_map
  · intro s
    rw [hFmem, a2]
    constructor
    · rintro ⟨q1, c, c1, c2, c3⟩
      obtain ⟨d, e1, e2⟩ := List.mem_map.mp c2
      exact ⟨q1, d, e1, by rwa [inj_of_nodup hs.unique.volus (hC d e1) c1 e2]⟩
    · rintro ⟨q1, c, c1, c3⟩
      exact ⟨q1, c, hC c c1, List.mem_map_of_mem c1, c3⟩
  · have := nodup_sortUnique vs
    rw [← v1] at this
    exact this.of_map
  · intro v
    constructor
    · intro h
      refine ⟨v2 v h, ?_⟩
      obtain ⟨e, e1, e2, e3⟩ := (d2 _).mp ((hV v (v2 v h)).mp h)
      obtain ⟨s, s1, s2⟩ := (hes' _).mp e2
      exact ⟨s, s1, e, e1, s2, e3⟩
    · rintro ⟨h, s, s1, e, e1, e2, e3⟩
      exact (hV v h).mpr ((d2 _).mpr ⟨e, e1, (hes' _).mpr ⟨s, s1, e2⟩, e3⟩)

/-! ### Points -/

/-- The zone once its coordinates are known. -/
theorem points_zone {m : Mesh} (h3 : Solid m) (hv : m.verts ≠ []) {V : List Vert} {L : List Int}
    (hc : pointCount m L = V.length) (hp : pointCoords m V.length 3 L = .ok (coordRows V)) :
    ∃ z, pointZone m L = .ok z ∧ ShowsPoints V z ∧ Readable z := by
  refine ⟨⟨.ordered, V.length, 0, 0, 0, coordRows V ++ List.replicate 3 (List.replicate V.length 0), [], []⟩, ?_,
    ⟨rfl, rfl, rfl⟩, ⟨rfl, ?_, rfl, by simp, rfl⟩⟩
  · unfold pointZone
    obtain ⟨v0, l, hl⟩ := List.exists_cons_of_ne_nil hv
    have h0 : v0 ∈ m.verts := by rw [hl]; simp
    have he : elemAt m.verts 0 = .ok v0 := by rw [hl]; rfl
    rw [he, ok_bind', h3 v0 h0, hc, Int.toNat_natCast, hp]
    rfl
  · intro r hr
    rcases List.mem_append.mp hr with hr | hr
    · exact congrArg Nat.cast (coordRows_row hr)
    · rw [List.eq_of_mem_replicate hr, List.length_replicate]

/-- Without a list all points are shown. -/
theorem points_all {m : Mesh} (h3 : Solid m) (hv : m.verts ≠ []) :
    ∃ z, pointZone m [] = .ok z ∧ ShowsPoints m.verts z ∧ Readable z := by
  have hl : m.verts.length ≠ 0 := fun h => hv (List.length_eq_zero_iff.mp h)
  refine points_zone h3 hv (V := m.verts) ?_ ?_
  · unfold pointCount
    rw [if_neg (by simpa using hl.symm), if_neg (by simp)]
  · unfold pointCoords coordRows
    have : ([0, 1, 2] : List Nat) = List.range 3 := rfl
    rw [this]
    refine mapM_fun fun j hj => ?_
    have hj : j < 3 := List.mem_range.mp hj
    rw [if_neg (by simp), if_neg (by simpa using hl.symm), lineOf_eq]
    refine mapM_fun fun v hvm => ?_
    have hlt : j < v.coord.length := by rw [h3 _ hvm]; exact hj
    rw [vecGet_nat (List.getElem?_eq_getElem hlt), List.getD_eq_getElem?_getD, List.getElem?_eq_getElem hlt]
    rfl

/-- The points of a list of indices. -/
theorem points_listed {m : Mesh} (hn : (m.verts.map Vert.index).Nodup) (h3 : Solid m) (hv : m.verts ≠ [])
    {V : List Vert} (hV : ∀ v ∈ V, v ∈ m.verts) (h0 : V ≠ []) (hl : V.length ≠ m.verts.length) :
    ∃ z, pointZone m (V.map Vert.index) = .ok z ∧ ShowsPoints V z ∧ Readable z := by
  have hc : pointCount m (V.map Vert.index) = V.length := by
    unfold pointCount
    rw [List.length_map, if_neg hl, if_pos (List.length_pos_iff.mpr h0)]
  have hp : pointCoords m V.length 3 (V.map Vert.index) = .ok (coordRows V) := by
    unfold pointCoords
    have : ([0, 1, 2] : List Nat) = List.range 3 := rfl
    unfold coordRows
    rw [this]
    refine mapM_fun fun j hj => ?_
    have hj : j < 3 := List.mem_range.mp hj
    rw [if_pos (by rw [List.length_map]; exact List.length_pos_iff.mpr h0)]
    refine mapM_f2 (List.forall₂_iff_get.mpr ⟨by simp, fun i h1 h2 => ?_⟩)
    have hi : i < V.length := by simpa using h1
    simp only [List.get_eq_getElem, List.getElem_range, List.getElem_map]
    rw [vecGet_nat (a := V[i].index) (by rw [List.getElem?_map, List.getElem?_eq_getElem hi]; rfl), ok_bind']
    unfold isearch
    have hm := hV V[i] (List.getElem_mem hi)
    rw [isearch_mem hn hm, ok_bind']
    have hlt : j < V[i].coord.length := by rw [h3 _ hm]; exact hj
    rw [vecGet_nat (List.getElem?_eq_getElem hlt), List.getD_eq_getElem?_getD, List.getElem?_eq_getElem hlt]
    rfl
  exact points_zone h3 hv hc hp

theorem mapM_stop {α β : Type} {f : α → Res β} {x : α} {e : Fault} (hx : f x = .error e) (post : List α) :
    ∀ {pre : List α}, (∀ a ∈ pre, ∃ b, f a = .ok b) → (pre ++ x :: post).mapM (m := Except Fault) f = .error e
  | [], _ => by rw [List.nil_append, List.mapM_cons, hx]; rfl
  | a :: pre, h => by
    obtain ⟨b, hb⟩ := h a (by simp)
    rw [List.cons_append, List.mapM_cons, hb, mapM_stop hx post fun c hc => h c (by simp [hc])]
    rfl

theorem range_split {n k : Nat} (h : k < n) : ∃ post, List.range n = List.range k ++ k :: post := by
  obtain ⟨d, rfl⟩ := Nat.exists_eq_add_of_lt h
  refine ⟨(List.range d).map (k + 1 + ·), ?_⟩
  rw [Nat.add_right_comm, List.range_add, List.range_succ, List.append_assoc]
  rfl

/-- The first coordinate decides when it fails. -/
theorem pointZone_fault {m : Mesh} (h3 : Solid m) (hv : m.verts ≠ []) {L : List Int} (hL : L ≠ []) {e : Fault}
    (h : (List.range (pointCount m L).toNat).mapM (m := Except Fault) (fun i : Nat => (vecGet L (i : Int)).bind fun k =>
      (isearch Vert.index m.verts k).bind fun v => vecGet v.coord 0) = .error e) : pointZone m L = .error e := by
  unfold pointZone
  obtain ⟨v0, l, hl⟩ := List.exists_cons_of_ne_nil hv
  have h0 : v0 ∈ m.verts := by rw [hl]; simp
  have he : elemAt m.verts 0 = .ok v0 := by rw [hl]; rfl
  have hp : pointCoords m (pointCount m L).toNat 3 L = .error e := by
    unfold pointCoords
    refine mapM_stop (pre := []) (x := 0) ?_ _ (by simp)
    rw [if_pos (List.length_pos_iff.mpr hL)]
    exact h
  rw [he, ok_bind', h3 v0 h0, hp]
  rfl

theorem sum_ge_length : ∀ {l : List Int}, (∀ x ∈ l, 1 ≤ x) → (l.length : Int) ≤ l.sum
  | [], _ => by simp
  | a :: l, h => by
    have h1 := h a (by simp)
    have h2 := sum_ge_length (l := l) fun x hx => h x (by simp [hx])
    rw [List.length_cons, List.sum_cons]
    push_cast
    omega

/-- A list of all the indices is read past its end. -/
theorem points_everything {m : Mesh} (hn : (m.verts.map Vert.index).Nodup) (hpos : ∀ v ∈ m.verts, 0 < v.index)
    (h3 : Solid m) (h2 : 2 ≤ m.verts.length) {L : List Int} (hL : L.Perm (m.verts.map Vert.index)) :
    pointZone m L = .error .ub := by
  have hlen : L.length = m.verts.length := by rw [hL.length_eq, List.length_map]
  have hmem : ∀ k ∈ L, ∃ v ∈ m.verts, v.index = k := fun k hk => List.mem_map.mp (hL.mem_iff.mp hk)
  have hge : ∀ k ∈ L, 1 ≤ k := by
    intro k hk
    obtain ⟨v, v1, v2⟩ := hmem k hk
    have := hpos v v1
    omega
  have hsum : (L.length : Int) < L.sum := by
    have hnL : L.Nodup := hL.nodup_iff.mpr hn
    match L, hge, hnL, hlen with
    | a :: b :: t, hge, hnL, _ =>
      have h1 := hge a (by simp)
      have h2 := hge b (by simp)
      have hab : a ≠ b := by
        intro h
        rw [List.nodup_cons] at hnL
        exact hnL.1 (by simp [h])
      have h4 := sum_ge_length (l := t) fun x hx => hge x (by simp [hx])
      simp only [List.length_cons, List.sum_cons]
      push_cast
      omega
    | [a], _, _, h => simp at h; omega
    | [], _, _, h => simp at h; omega
  have hc : pointCount m L = L.sum := by
    unfold pointCount
    rw [if_pos hlen]
  have hv : m.verts ≠ [] := fun h => by rw [h] at h2; simp at h2
  refine pointZone_fault h3 hv (fun h => by rw [h] at hlen; simp at hlen; omega) ?_
  rw [hc]
  obtain ⟨post, hpost⟩ := range_split (n := L.sum.toNat) (k := L.length) (by omega)
  rw [hpost]
  refine mapM_stop ?_ post ?_
  · have : vecGet L ((L.length : Nat) : Int) = .error .ub := by
      unfold vecGet
      rw [if_neg (by omega), Int.toNat_natCast, List.getElem?_eq_none (by omega)]
    rw [this]
    rfl
  · intro i hi
    have hi : i < L.length := List.mem_range.mp hi
    obtain ⟨v, v1, v2⟩ := hmem L[i] (List.getElem_mem hi)
    have h0 : 0 < v.coord.length := by rw [h3 v v1]; omega
    refine ⟨v.coord[0], ?_⟩
    rw [vecGet_nat (List.getElem?_eq_getElem hi), ok_bind']
    unfold isearch
    rw [← v2, isearch_mem hn v1, ok_bind']
    exact vecGet_nat (k := 0) (List.getElem?_eq_getElem h0)

/-- A list of marks, the first of which is 0, is searched for the index 0. -/
theorem points_marks {m : Mesh} (hpos : ∀ v ∈ m.verts, 0 < v.index) (h3 : Solid m) {L : List Int}
    (hlen : L.length = m.verts.length) (h01 : ∀ x ∈ L, x = 0 ∨ x = 1) (hfirst : L[0]? = some 0) (hone : 1 ∈ L) :
    pointZone m L = .error .throws := by
  have hL : L ≠ [] := fun h => by rw [h] at hone; simp at hone
  have hv : m.verts ≠ [] := fun h => by rw [h] at hlen; exact hL (List.length_eq_zero_iff.mp hlen)
  have hsum : 0 < L.sum := by
    have hnn : ∀ l : List Int, (∀ x ∈ l, x = 0 ∨ x = 1) → 0 ≤ l.sum ∧ (1 ∈ l → 0 < l.sum) := by
      intro l
      induction l with
      | nil => intro _; simp
      | cons a l ih =>
        intro h
        obtain ⟨i1, i2⟩ := ih fun x hx => h x (by simp [hx])
        rw [List.sum_cons]
        refine ⟨by rcases h a (by simp) with h | h <;> omega, fun h1 => ?_⟩
        rcases List.mem_cons.mp h1 with h1 | h1
        · omega
        · have := i2 h1
          rcases h a (by simp) with h | h <;> omega
    exact (hnn L h01).2 hone
  have hc : pointCount m L = L.sum := by
    unfold pointCount
    rw [if_pos hlen]
  refine pointZone_fault h3 hv hL ?_
  rw [hc]
  obtain ⟨post, hpost⟩ := range_split (n := L.sum.toNat) (k := 0) (by omega)
  rw [hpost]
  refine mapM_stop ?_ post (by simp)
  rw [vecGet_nat hfirst, ok_bind']
  unfold isearch
  have : posOf Vert.index m.verts 0 = -1 := by
    rw [posOf_eq_neg_one_iff]
    intro v hv h
    have := hpos v hv
    omega
  rw [this]
  rfl

/-! ### Points inside -/

/-- The vertices with a mark. -/
def marked (vs : List Vert) (isIn : List Bool) : List Vert := ((vs.zip isIn).filter fun p => p.2).map Prod.fst

theorem marked_sublist {vs : List Vert} {isIn : List Bool} (h : isIn.length = vs.length) : (marked vs isIn).Sublist vs := by
  have h1 : (marked vs isIn).Sublist ((vs.zip isIn).map Prod.fst) := List.filter_sublist.map _
  rwa [List.map_fst_zip (by omega)] at h1

theorem mem_marked {vs : List Vert} {isIn : List Bool} {v : Vert} :
    v ∈ marked vs isIn ↔ ∃ i : Nat, vs[i]? = some v ∧ isIn[i]? = some true := by
  unfold marked
  constructor
  · intro h
    obtain ⟨p, h1, rfl⟩ := List.mem_map.mp h
    obtain ⟨h1, h2⟩ := List.mem_filter.mp h1
    obtain ⟨i, hi⟩ := List.mem_iff_getElem?.mp h1
    have := List.getElem?_zip_eq_some.mp hi
    exact ⟨i, this.1, by rw [this.2, h2]⟩
  · rintro ⟨i, h1, h2⟩
    refine List.mem_map.mpr ⟨(v, true), List.mem_filter.mpr ⟨?_, rfl⟩, rfl⟩
    exact List.mem_iff_getElem?.mpr ⟨i, List.getElem?_zip_eq_some.mpr ⟨h1, h2⟩⟩

theorem internalList_ok {m : Mesh} {isIn : List Bool} (h : isIn.length = m.verts.length) (h0 : m.verts ≠ []) :
    internalList m isIn = .ok ((marked m.verts isIn).map Vert.index) := by
  unfold internalList
  have hm : (List.range isIn.length).mapM (m := Except Fault) (fun j : Nat => (vecGet isIn (j : Int)).bind fun b =>
      if b = true then (elemAt m.verts (j : Int)).map fun v => some v.index else .ok none) =
      .ok ((m.verts.zip isIn).map fun p => if p.2 = true then some p.1.index else none) := by
    refine mapM_f2 (List.forall₂_iff_get.mpr ⟨by simp [h], fun i h1 h2 => ?_⟩)
    have hi : i < isIn.length := by simpa using h1
    simp only [List.get_eq_getElem, List.getElem_range, List.getElem_map, List.getElem_zip]
    rw [vecGet_nat (List.getElem?_eq_getElem hi), ok_bind', elemAt_nat m.verts i (by omega)]
    split_ifs <;> rfl
  rw [hm, ok_bind', if_neg (by rw [h]; exact fun h => h0 (List.length_eq_zero_iff.mp h)), List.filterMap_map]
  congr 1
  unfold marked
  rw [List.map_map]
  generalize m.verts.zip isIn = ps
  induction ps with
  | nil => rfl
  | cons p ps ih =>
    obtain ⟨v, b⟩ := p
    cases b
    · rw [List.filterMap_cons_none rfl, List.filter_cons_of_neg (by simp)]; exact ih
    · exact congrArg (List.cons v.index) ih

end RSVS.Tecplot
