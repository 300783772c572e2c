import Verif.Lemmas.FaceFanMesh
import Verif.Lemmas.Refine
import Verif.Lemmas.OrderMesh

/-!
# All surfaces
-/

namespace RSVS.FaceFan

open RSVS RSVS.Mesh RSVS.Spec RSVS.Triang

variable {base : Mesh} {top : Tops} {coordOf : Int → Res (List ℚ)} {tris : List Triangle}

/-- The mesh which the state stands for. -/
def St.mesh (st : St) : Mesh := st.out.concatenate st.tmp

theorem applyOps_list {α : Type} {ix : α → Int} (ops : List (Int × (α → α))) (a b : List α) :
    applyOps ix ops (a ++ b) = applyOps ix ops a ++ applyOps ix ops b := by
  unfold applyOps
  rw [List.map_append]

theorem applyOps_none {α : Type} {ix : α → Int} {ops : List (Int × (α → α))} {l : List α}
    (h : ∀ o ∈ ops, ∀ x ∈ l, ix x ≠ o.1) : applyOps ix ops l = l := by
  unfold applyOps
  refine (List.map_congr_left fun x hx => ?_).trans (List.map_id l)
  have : ∀ o ∈ ops, ix x ≠ o.1 := fun o ho => h o ho x hx
  clear h
  induction ops with
  | nil => rfl
  | cons o ops ih =>
    rw [List.foldl_cons, if_neg (this o (by simp))]
    exact ih fun o ho => this o (List.mem_cons_of_mem _ ho)

/-- What holds after the surfaces in `P` are replaced. -/
structure Inv (base : Mesh) (top : Tops) (coordOf : Int → Res (List ℚ)) (tris : List Triangle) (P : Int → Prop) (st : St) :
    Prop where
  sound : Sound st.mesh
  idx : SameIdx base st.out
  topV : ∀ i, HasVert st.mesh i → i ≤ top.v + st.nV
  topE : ∀ i, HasEdge st.mesh i → i ≤ top.e + st.nE
  topS : ∀ i, HasSurf st.mesh i → i ≤ top.s + st.nS
  tmpC : st.tmp.volus = []
  verts : ∀ v ∈ base.verts, ∃ v' ∈ st.mesh.verts, v'.index = v.index ∧ v'.coord = v.coord
  edges : ∀ e ∈ base.edges, ∃ e' ∈ st.mesh.edges, e'.index = e.index ∧ e'.vertind = e.vertind
  surfs : ∀ f ∈ base.surfs, ¬ P f.index → f ∈ st.mesh.surfs
  fans : ∀ f ∈ base.surfs, P f.index → ∃ x, PointOf coordOf tris f.index x ∧ FanOver base st.mesh f x
  three : ∀ s ∈ st.mesh.surfs, (s ∈ base.surfs ∧ ¬ P s.index) ∨ s.edgeind.length = 3
  euler : euler st.mesh = euler base
  loops : ∀ s ∈ st.mesh.surfs, (s ∈ base.surfs ∧ ¬ P s.index) ∨ IsTriangle st.mesh s
  two : TwoVerts base → TwoVerts st.mesh

/-- The numbers start above those of the mesh. -/
structure GoodTops (base : Mesh) (top : Tops) : Prop where
  v : ∀ i, HasVert base i → i ≤ top.v
  e : ∀ i, HasEdge base i → i ≤ top.e
  s : ∀ i, HasSurf base i → i ≤ top.s
  v0 : 0 ≤ top.v
  e0 : 0 ≤ top.e
  s0 : 0 ≤ top.s

theorem has_of_map {α : Type} {ix : α → Int} {l l' : List α} (h : l.map ix = l'.map ix) (i : Int) :
    (∃ x ∈ l, ix x = i) ↔ ∃ x ∈ l', ix x = i := by
  rw [← List.mem_map, h, List.mem_map]

/-- No index of the new elements is one of the mesh. -/
theorem Inv.notBase {P : Int → Prop} {st : St} (h : Inv base top coordOf tris P st) :
    (∀ x ∈ st.tmp.verts, ¬ HasVert base x.index) ∧ (∀ x ∈ st.tmp.edges, ¬ HasEdge base x.index) ∧
      (∀ x ∈ st.tmp.surfs, ¬ HasSurf base x.index) := by
  have key : ∀ {α : Type} {ix : α → Int} {a b c : List α}, ((a ++ b).map ix).Nodup → a.map ix = c.map ix →
      ∀ x ∈ b, ¬ ∃ y ∈ c, ix y = ix x := by
    intro α ix a b c hn he x hx hy
    rw [← List.mem_map, ← he] at hy
    rw [List.map_append, List.nodup_append] at hn
    exact hn.2.2 _ hy _ (List.mem_map_of_mem hx) rfl
  exact ⟨key h.sound.unique.verts h.idx.verts, key h.sound.unique.edges h.idx.edges, key h.sound.unique.surfs h.idx.surfs⟩

/-- The state after one surface stands for the mesh with the triangles in place. -/
theorem fanned_mesh {f : Fan} {w : Nat → Int} {b : Vert} {st : St} {P : Int → Prop} (hr : Ready f w)
    (hI : Inv f.base top coordOf tris P st) : (fanned f w b st).mesh = fanMesh f w b st.mesh := by
  obtain ⟨n1, n2, n3⟩ := hI.notBase
  have e1 : applyOps Vert.index ((List.range f.n).map (vOp f w)) st.tmp.verts = st.tmp.verts := by
    refine applyOps_none ?_
    rintro o ho x hx rfl'
    obtain ⟨k, hk, rfl⟩ := List.mem_map.1 ho
    exact n1 x hx (rfl' ▸ hr.hasVert (List.mem_range.1 hk))
  have e2 : applyOps Edge.index ((List.range' 1 (f.n - 1)).map (eOp f)) st.tmp.edges = st.tmp.edges := by
    refine applyOps_none ?_
    rintro o ho x hx rfl'
    obtain ⟨k, hk, rfl⟩ := List.mem_map.1 ho
    obtain ⟨y, hy, hi, _⟩ := hr.edge ((mem_ks (by have := hr.three; omega)).1 hk).2
    exact n2 x hx ⟨y, hy, hi.trans rfl'.symm⟩
  have e3 : applyOps Surf.index
      [(f.face.index, fun x => { x with edgeind := [f.e0 + 1, f.e0 + (f.n : Int), edgeNo f 0] })] st.tmp.surfs = st.tmp.surfs := by
    refine applyOps_none ?_
    rintro o ho x hx rfl'
    rw [List.mem_singleton] at ho
    subst ho
    exact n3 x hx ⟨_, hr.face, rfl'.symm⟩
  unfold fanned St.mesh fanMesh Mesh.concatenate
  simp only [applyOps_list, e1, e2, e3, hI.tmpC, List.append_nil, List.append_assoc]

/-- Surfaces other than the replaced one, the ends of edges and the places of vertices stay. -/
theorem fanMesh_kept (f : Fan) (w : Nat → Int) (b : Vert) (m : Mesh) :
    (∀ v ∈ m.verts, ∃ v' ∈ (fanMesh f w b m).verts, v'.index = v.index ∧ v'.coord = v.coord) ∧
    (∀ e ∈ m.edges, ∃ e' ∈ (fanMesh f w b m).edges, e'.index = e.index ∧ e'.vertind = e.vertind) ∧
    (∀ s ∈ m.surfs, s.index ≠ f.face.index → s ∈ (fanMesh f w b m).surfs) := by
  unfold fanMesh applyOps
  refine ⟨fun v hv => ⟨_, List.mem_append_left _ (List.mem_map_of_mem hv), vOps_keep f w _ v⟩,
    fun e he => ⟨_, List.mem_append_left _ (List.mem_map_of_mem he), eOps_keep f _ e⟩, fun s hs hi => ?_⟩
  refine List.mem_append_left _ (List.mem_map.2 ⟨s, hs, ?_⟩)
  simp only [List.foldl_cons, List.foldl_nil]
  rw [if_neg hi]

theorem fanOver_mono {r r' : Mesh} {f : Surf} {x : List ℚ} {s : Int}
    (hv : ∀ v ∈ r.verts, ∃ v' ∈ r'.verts, v'.index = v.index ∧ v'.coord = v.coord)
    (he : ∀ e ∈ r.edges, ∃ e' ∈ r'.edges, e'.index = e.index ∧ e'.vertind = e.vertind)
    (hs : ∀ t ∈ r.surfs, t.index ≠ s → t ∈ r'.surfs) (hf : f.index ≠ s) (hb : HasSurf base s)
    (h : FanOver base r f x) : FanOver base r' f x := by
  obtain ⟨w, c, sp, h1, h2, ⟨v, hv1, hv2, hv3⟩, h4, h5⟩ := h
  refine ⟨w, c, sp, h1, h2, ?_, h4, fun k e hk => ?_⟩
  · obtain ⟨v', g1, g2, g3⟩ := hv v hv1
    exact ⟨v', g1, g2.trans hv2, g3.trans hv3⟩
  · obtain ⟨a1, ⟨y, hy, a2, a3⟩, t, ht, a4, a5, a6⟩ := h5 k e hk
    obtain ⟨y', g1, g2, g3⟩ := he y hy
    refine ⟨a1, ⟨y', g1, g2.trans a2, by rw [g3]; exact a3⟩, t, hs t ht ?_, a4, a5, a6⟩
    rcases a6 with a6 | a6
    · rw [a6]; exact hf
    · rintro rfl
      exact a6 hb

/-- The fan in the mesh. -/
theorem fanOver_new {f : Fan} {w : Nat → Int} {b : Vert} {m : Mesh} (hr : Ready f w) (hface : f.face ∈ m.surfs)
    (hi : b.index = f.centre) (hc : ∀ i, HasVert f.base i → i < f.centre)
    (he : ∀ i, HasEdge f.base i → i ≤ f.e0) (hs : ∀ i, HasSurf f.base i → i ≤ f.s0) :
    FanOver f.base (fanMesh f w b m) f.face b.coord := by
  have h3 := hr.three
  refine ⟨w, f.centre, fun k => f.e0 + 1 + (k : Int), hr.ring, fun h => ?_, ⟨b, by simp [fanMesh], hi, rfl⟩,
    fun i j _ _ hij => by simpa using hij, fun k e hk => ?_⟩
  · have := hc _ h; omega
  · have hkn : k < f.n := by rw [hr.n]; exact (List.getElem?_eq_some_iff.1 hk).1
    obtain ⟨_, _, _, _, _, hke⟩ := hr.edge hkn
    have hek : e = edgeNo f k := Option.some.inj (hk.symm.trans hke)
    subst hek
    rw [← hr.n]
    refine ⟨fun h => ?_, ⟨spoke f w k, ?_, rfl, .inl rfl⟩, ?_⟩
    · have := he _ h
      dsimp only at this
      omega
    · unfold fanMesh
      exact List.mem_append_right _ (List.mem_map_of_mem (List.mem_range.2 hkn))
    · by_cases hk0 : k = 0
      · subst hk0
        refine ⟨{ f.face with edgeind := [f.e0 + 1, f.e0 + (f.n : Int), edgeNo f 0] }, ?_, ?_, rfl, .inl rfl⟩
        · unfold fanMesh applyOps
          refine List.mem_append_left _ (List.mem_map.2 ⟨f.face, hface, ?_⟩)
          simp
        · have e1 : (0 + f.n - 1) % f.n = f.n - 1 := by rw [Nat.mod_eq_of_lt (by omega)]; omega
          have e2 : f.e0 + 1 + ((f.n - 1 : Nat) : Int) = f.e0 + (f.n : Int) := by omega
          have e3 : f.e0 + 1 + ((0 : Nat) : Int) = f.e0 + 1 := by simp
          dsimp only
          rw [e1, e2, e3]
          exact List.Perm.swap _ _ _
      · refine ⟨tri f k, ?_, ?_, rfl, .inr fun h => ?_⟩
        · unfold fanMesh
          exact List.mem_append_right _ (List.mem_map_of_mem ((mem_ks (by omega)).2 ⟨by omega, hkn⟩))
        · have e1 : (k + f.n - 1) % f.n = k - 1 := by
            have : k + f.n - 1 = k - 1 + f.n := by omega
            rw [this, Nat.add_mod_right, Nat.mod_eq_of_lt (by omega)]
          have e2 : f.e0 + 1 + ((k - 1 : Nat) : Int) = f.e0 + (k : Int) := by omega
          have e3 : f.e0 + 1 + (k : Int) = f.e0 + (k : Int) + 1 := by omega
          dsimp only
          rw [e1, e2, e3]
          exact List.Perm.refl _
        · have := hs _ h
          simp only [tri] at this
          omega

theorem fanMesh_three {f : Fan} {w : Nat → Int} {b : Vert} {m : Mesh} : ∀ s ∈ (fanMesh f w b m).surfs,
    (s ∈ m.surfs ∧ s.index ≠ f.face.index) ∨ s.edgeind.length = 3 := by
  unfold fanMesh applyOps
  intro s hs
  rcases List.mem_append.1 hs with h | h
  · obtain ⟨x, hx, rfl⟩ := List.mem_map.1 h
    simp only [List.foldl_cons, List.foldl_nil]
    by_cases hi : x.index = f.face.index
    · rw [if_pos hi]; exact .inr rfl
    · rw [if_neg hi]; exact .inl ⟨hx, hi⟩
  · obtain ⟨k, _, rfl⟩ := List.mem_map.1 h
    exact .inr rfl

theorem isTriangle_mono {m m' : Mesh} (he : ∀ e ∈ m.edges, ∃ e' ∈ m'.edges, e'.index = e.index ∧ e'.vertind = e.vertind) {s : Surf}
    (h : IsTriangle m s) : IsTriangle m' s := by
  have hj : ∀ {e a b}, EdgeJoins m e a b → EdgeJoins m' e a b := by
    rintro e a b ⟨x, hx, h1, h2⟩
    obtain ⟨x', g1, g2, g3⟩ := he x hx
    exact ⟨x', g1, g2.trans h1, by rw [g3]; exact h2⟩
  obtain ⟨a, b, c, e₁, e₂, e₃, h1, h2, h3, h4, h5, h6, h7⟩ := h
  exact ⟨a, b, c, e₁, e₂, e₃, h1, h2, h3, h4, hj h5, hj h6, hj h7⟩

theorem joins_swap {m : Mesh} {e a b : Int} (h : EdgeJoins m e a b) : EdgeJoins m e b a := by
  obtain ⟨x, hx, h1, h2⟩ := h
  exact ⟨x, hx, h1, h2.symm⟩

theorem ring_of_triangle {m : Mesh} {s : Surf} (h : IsTriangle m s) : ∃ w, RingFace m s w := by
  obtain ⟨a, b, c, e₁, e₂, e₃, h1, h2, h3, h4, h5, h6, h7⟩ := h
  refine ⟨fun k => [a, b, c, a].getD k 0, by rw [h4]; simp, fun k e hk => ?_, by rw [h4]; simp, ?_⟩
  · rw [h4] at hk
    match k, hk with
    | 0, hk => cases hk; exact h5
    | 1, hk => cases hk; exact h6
    | 2, hk => cases hk; exact h7
  · rw [h4]
    intro i j hi hj
    simp only [List.length_cons, List.length_nil] at hi hj
    rcases (by omega : i = 0 ∨ i = 1 ∨ i = 2) with rfl | rfl | rfl <;>
      rcases (by omega : j = 0 ∨ j = 1 ∨ j = 2) with rfl | rfl | rfl <;> simp <;> first | exact h1 | exact h2 | exact h3 | exact h1.symm | exact h2.symm | exact h3.symm

theorem ring_mono {m r : Mesh} (he : ∀ e ∈ m.edges, ∃ e' ∈ r.edges, e'.index = e.index ∧ e'.vertind = e.vertind) {f : Surf}
    {w : Nat → Int} (h : RingFace m f w) : RingFace r f w := by
  refine ⟨h.1, fun k e hk => ?_, h.2.2⟩
  obtain ⟨x, hx, h1, h2⟩ := h.2.1 k e hk
  obtain ⟨x', g1, g2, g3⟩ := he x hx
  exact ⟨x', g1, g2.trans h1, by rw [g3]; exact h2⟩

/-- The new surfaces are triangles. -/
theorem fanMesh_loops {f : Fan} {w : Nat → Int} {b : Vert} {m : Mesh} (hr : Ready f w) (hc : ∀ i, HasVert f.base i → i < f.centre)
    (hk : ∀ e ∈ f.base.edges, ∃ e' ∈ m.edges, e'.index = e.index ∧ e'.vertind = e.vertind) :
    ∀ s ∈ (fanMesh f w b m).surfs, (s ∈ m.surfs ∧ s.index ≠ f.face.index) ∨ IsTriangle (fanMesh f w b m) s := by
  have h3 := hr.three
  obtain ⟨_, k2, _⟩ := fanMesh_kept f w b m
  have hsp : ∀ k, k < f.n → EdgeJoins (fanMesh f w b m) (f.e0 + 1 + (k : Int)) f.centre (w (k + 1)) := fun k hkn => by
    refine ⟨spoke f w k, ?_, rfl, .inl rfl⟩
    unfold fanMesh
    exact List.mem_append_right _ (List.mem_map_of_mem (List.mem_range.2 hkn))
  have hed : ∀ k, k < f.n → EdgeJoins (fanMesh f w b m) (edgeNo f k) (w k) (w (k + 1)) := fun k hkn => by
    obtain ⟨x, hx, h1, h2, _⟩ := hr.edge hkn
    obtain ⟨x', g1, g2, g3⟩ := hk x hx
    obtain ⟨x'', g4, g5, g6⟩ := k2 x' g1
    exact ⟨x'', g4, g5.trans (g2.trans h1), by rw [g6, g3]; exact h2⟩
  have hwc : ∀ k, k < f.n → w (k + 1) ≠ f.centre := fun k hkn he => by
    have := hc _ (hr.hasVert hkn)
    omega
  have hw0 : w 0 ≠ f.centre := by
    have := hwc (f.n - 1) (by omega)
    rwa [Nat.sub_add_cancel (by omega), hr.wEnd] at this
  intro s hs
  have hs' := hs
  unfold fanMesh applyOps at hs'
  rcases List.mem_append.1 hs' with h | h
  · obtain ⟨x, hx, rfl⟩ := List.mem_map.1 h
    simp only [List.foldl_cons, List.foldl_nil] at hs ⊢
    by_cases hi : x.index = f.face.index
    · rw [if_pos hi]
      refine .inr ⟨w 1, f.centre, w 0, f.e0 + 1, f.e0 + (f.n : Int), edgeNo f 0, hwc 0 (by omega), hw0.symm,
        (hr.wNext (k := 0) (by omega)).symm, rfl, ?_, ?_, hed 0 (by omega)⟩
      · have := joins_swap (hsp 0 (by omega))
        simpa using this
      · have := hsp (f.n - 1) (by omega)
        rw [Nat.sub_add_cancel (by omega), hr.wEnd] at this
        have e2 : f.e0 + 1 + ((f.n - 1 : Nat) : Int) = f.e0 + (f.n : Int) := by omega
        rwa [e2] at this
    · rw [if_neg hi]; exact .inl ⟨hx, hi⟩
  · obtain ⟨k, hk', rfl⟩ := List.mem_map.1 h
    obtain ⟨hk1, hkn⟩ := (mem_ks (by omega)).1 hk'
    have hwk : w k ≠ f.centre := by
      have := hwc (k - 1) (by omega)
      rwa [Nat.sub_add_cancel (by omega)] at this
    refine .inr ⟨w k, f.centre, w (k + 1), f.e0 + (k : Int), f.e0 + (k : Int) + 1, edgeNo f k, hwk, (hwc k hkn).symm,
      hr.wNext hkn, rfl, ?_, ?_, joins_swap (hed k hkn)⟩
    · have := joins_swap (hsp (k - 1) (by omega))
      rw [Nat.sub_add_cancel (by omega)] at this
      have e2 : f.e0 + 1 + ((k - 1 : Nat) : Int) = f.e0 + (k : Int) := by omega
      rwa [e2] at this
    · have := hsp k hkn
      have e3 : f.e0 + 1 + (k : Int) = f.e0 + (k : Int) + 1 := by omega
      rwa [e3] at this

theorem applyOps_two {ops : List (Int × (Edge → Edge))} (hops : ∀ o ∈ ops, ∀ x, (o.2 x).vertind = x.vertind) {l : List Edge}
    (h : ∀ x ∈ l, x.vertind.length = 2) : ∀ x ∈ applyOps Edge.index ops l, x.vertind.length = 2 := by
  unfold applyOps
  intro x hx
  obtain ⟨y, hy, rfl⟩ := List.mem_map.1 hx
  have hy2 := h y hy
  clear hx hy h
  revert y
  induction ops with
  | nil => exact fun y hy => hy
  | cons o ops ih =>
    intro y hy
    rw [List.foldl_cons]
    split
    · exact ih (fun o ho => hops o (List.mem_cons_of_mem _ ho)) _ (by rw [hops o (by simp)]; exact hy)
    · exact ih (fun o ho => hops o (List.mem_cons_of_mem _ ho)) _ hy

theorem fanMesh_two {f : Fan} {w : Nat → Int} {b : Vert} {m : Mesh} (h : TwoVerts m) : TwoVerts (fanMesh f w b m) := by
  unfold fanMesh
  intro x hx
  rcases List.mem_append.1 hx with hx | hx
  · refine applyOps_two (fun o ho y => ?_) h x hx
    obtain ⟨k, _, rfl⟩ := List.mem_map.1 ho
    rfl
  · obtain ⟨k, _, rfl⟩ := List.mem_map.1 hx
    rfl

theorem fanMesh_euler {f : Fan} {w : Nat → Int} {b : Vert} {m : Mesh} (hn : 1 ≤ f.n) :
    euler (fanMesh f w b m) = euler m := by
  unfold euler fanMesh applyOps
  simp only [List.length_append, List.length_map, List.length_range, List.length_range', List.length_singleton]
  omega

theorem corners_eq {f : Fan} {w : Nat → Int} (hr : Ready f w) {vs : List Int}
    (hvs : ∀ x, x ∈ vs ↔ ∃ a ∈ f.base.edges, a.index ∈ f.face.edgeind ∧ x ∈ a.vertind) : (sortUnique vs).length = f.n := by
  have h3 := hr.three
  have hp : (sortUnique vs).Perm ((List.range f.n).map w) := by
    refine (List.perm_ext_iff_of_nodup (Order.nodup_sortUnique _) ?_).2 fun x => ?_
    · exact (List.nodup_map_iff_inj_on List.nodup_range).2 fun i hi j hj => hr.wInj (List.mem_range.1 hi) (List.mem_range.1 hj)
    · rw [mem_sortUnique, hvs, List.mem_map]
      simp only [List.mem_range]
      constructor
      · rintro ⟨a, ha, hi, hx⟩
        obtain ⟨k, hk, hke⟩ := (face_edges hr a.index).1 ⟨_, hr.face, rfl, hi⟩
        obtain ⟨y, hy, h1, h2, _⟩ := hr.edge hk
        have : y = a := inj_of_nodup hr.sound.unique.edges hy ha (h1.trans hke.symm)
        subst this
        have hx' : x = w k ∨ x = w (k + 1) := by
          rcases h2 with h2 | h2 <;> rw [h2] at hx <;> simp at hx
          · exact hx
          · exact hx.symm
        rcases hx' with rfl | rfl
        · exact ⟨k, hk, rfl⟩
        · rcases Nat.lt_or_ge (k + 1) f.n with h' | h'
          · exact ⟨k + 1, h', rfl⟩
          · have : k + 1 = f.n := by omega
            exact ⟨0, by omega, by rw [this, hr.wEnd]⟩
      · rintro ⟨k, hk, rfl⟩
        obtain ⟨y, hy, h1, h2, h4, _⟩ := hr.edge hk
        refine ⟨y, hy, h1 ▸ h4, ?_⟩
        rcases h2 with h2 | h2 <;> simp [h2]
  rw [hp.length_eq]
  simp

theorem fanned_idx {f : Fan} {w : Nat → Int} {b : Vert} {st : St} (h : SameIdx base st.out) :
    SameIdx base (fanned f w b st).out := by
  refine ⟨(applyOps_index ?_ _).trans h.verts, (applyOps_index ?_ _).trans h.edges, (applyOps_index ?_ _).trans h.surfs,
    (applyOps_index ?_ _).trans h.volus⟩
  · intro o ho x
    obtain ⟨k, _, rfl⟩ := List.mem_map.1 ho
    rfl
  · intro o ho x
    obtain ⟨k, _, rfl⟩ := List.mem_map.1 ho
    rfl
  · intro o ho x
    rw [List.mem_singleton] at ho
    subst ho
    rfl
  · intro o ho x
    obtain ⟨k, _, ho⟩ := List.mem_flatMap.1 ho
    obtain ⟨c, _, rfl⟩ := List.mem_map.1 ho
    rfl

theorem subs_eq {f : Fan} {w : Nat → Int} (hr : Ready f w) :
    posList Edge.index f.base.edges f.face.edgeind = subsFrom f 0 f.n := by
  unfold posList subsFrom
  rw [hr.n, ← List.range_eq_range']
  refine List.ext_getElem? fun k => ?_
  rw [List.getElem?_map, List.getElem?_map]
  rcases Nat.lt_or_ge k f.face.edgeind.length with h | h
  · obtain ⟨_, _, _, _, _, h1⟩ := hr.edge (hr.n ▸ h)
    rw [h1, List.getElem?_range h]
    rfl
  · rw [List.getElem?_eq_none h, List.getElem?_eq_none (by simpa using h)]
    rfl

/-- One surface. -/
theorem fanFace_ok (hb : Sound base) (ht : GoodTops base top) {P : Int → Prop} {st : St} {t : Triangle}
    (hI : Inv base top coordOf tris P st) (hg : GoodTri base coordOf t) (hm : t ∈ tris) (hP : ¬ P t.parentsurf) :
    ∃ st', fanFace base top coordOf t st = .ok st' ∧ Inv base top coordOf tris (fun s => P s ∨ s = t.parentsurf) st' := by
  obtain ⟨face, hface, hfi, w, hring⟩ := hg.ring
  obtain ⟨y, hy1, hy2, hy3⟩ := elemAt_posOf_ok (ix := Surf.index) (l := base.surfs) (k := t.parentsurf) ⟨face, hface, hfi⟩
  have : y = face := inj_of_nodup hb.unique.surfs hy2 hface (hy3.trans hfi.symm)
  subst this
  obtain ⟨vs, hvs, hvm⟩ := Refine.concatField_ok (ix := Edge.index) (field := Edge.vertind) (l := base.edges) (ks := y.edgeind)
    (fun k hk => hb.noDangling.surfEdge y.index k ⟨y, hface, rfl, hk⟩) hb.unique.edges
  obtain ⟨x, hx, hadd⟩ := addPoint_ok (top := top) (corners := y.edgeind.length) hg st
  have hr : Ready ⟨base, y, posOf Surf.index base.surfs t.parentsurf, y.edgeind.length, top.e + st.nE, top.s + st.nS,
      top.v + st.nV + 1⟩ w := ⟨hb, hface, by rw [hfi], rfl, hring⟩
  have hcorner := corners_eq hr hvm
  obtain ⟨ll, hll, hend⟩ := firstEnd_ok hr
  have hsubs := subs_eq hr
  dsimp only at hcorner hll hsubs
  unfold fanFace
  rw [hy1]
  simp only [Except.bind]
  rw [hvs]
  dsimp only
  rw [hcorner, hadd]
  dsimp only
  rw [hsubs, hll]
  dsimp only
  have hloop := fanLoop_all hr hend (st := { st with
        build := ⟨top.v + st.nV + 1, (List.range y.edgeind.length).map fun (kk : Nat) => top.e + st.nE + 1 + (kk : Int), x,
          st.build.isBorder⟩
        nV := st.nV + 1
        tmp := { st.tmp with verts := st.tmp.verts ++ [⟨top.v + st.nV + 1,
          (List.range y.edgeind.length).map fun (kk : Nat) => top.e + st.nE + 1 + (kk : Int), x, st.build.isBorder⟩] } }) hI.idx
  dsimp only at hloop
  rw [hloop]
  have hlen : 3 ≤ y.edgeind.length := hring.1
  -- the mesh so far
  have hrm : Ready ⟨st.mesh, y, posOf Surf.index st.mesh.surfs y.index, y.edgeind.length, top.e + st.nE, top.s + st.nS,
      top.v + st.nV + 1⟩ w := by
    refine ⟨hI.sound, hI.surfs y hface (by rw [hfi]; exact hP), rfl, rfl, hring.1, fun k e hk => ?_, hring.2.2⟩
    obtain ⟨a, ha, h1, h2⟩ := hring.2.1 k e hk
    obtain ⟨a', g1, g2, g3⟩ := hI.edges a ha
    exact ⟨a', g1, g2.trans h1, by rw [g3]; exact h2⟩
  have hv0 := ht.v0
  have he0 := ht.e0
  have hs0 := ht.s0
  generalize hfan : (⟨base, y, posOf Surf.index base.surfs t.parentsurf, y.edgeind.length, top.e + st.nE, top.s + st.nS,
    top.v + st.nV + 1⟩ : Fan) = fan at *
  generalize hfanm : (⟨st.mesh, y, posOf Surf.index st.mesh.surfs y.index, y.edgeind.length, top.e + st.nE, top.s + st.nS,
    top.v + st.nV + 1⟩ : Fan) = fanm at *
  generalize hbb : (⟨top.v + st.nV + 1, (List.range y.edgeind.length).map fun (kk : Nat) => top.e + st.nE + 1 + (kk : Int), x,
    st.build.isBorder⟩ : Vert) = b at *
  refine ⟨fanned fan w b st, ?_, ?_⟩
  · subst hfan
    subst hbb
    unfold fanned
    simp only [Except.map]
    congr 2
    omega
  have hmesh : (fanned fan w b st).mesh = fanMesh fan w b st.mesh := by
    have hI' : Inv fan.base top coordOf tris P st := by subst hfan; exact hI
    exact fanned_mesh hr hI'
  have hsame : fanMesh fan w b st.mesh = fanMesh fanm w b fanm.base := by
    subst hfan
    subst hfanm
    rfl
  have hfresh : Fresh fanm b fanm.base := by
    subst hfanm
    subst hbb
    refine ⟨fun i hi => ?_, hI.topE, hI.topS, rfl, rfl, ?_, ?_, ?_⟩
    · have := hI.topV i hi; dsimp only; omega
    · dsimp only; omega
    · dsimp only; omega
    · dsimp only; omega
  have hfacei : fan.face.index = t.parentsurf := by subst hfan; exact hfi
  obtain ⟨k1, k2, k3⟩ := fanMesh_kept fan w b st.mesh
  have hn : 1 ≤ fan.n := by have := hr.three; omega
  have hnn : fan.n = y.edgeind.length := by subst hfan; rfl
  have hnV : (fanned fan w b st).nV = st.nV + 1 := rfl
  have hnE : (fanned fan w b st).nE = st.nE + fan.n := rfl
  have hnS : (fanned fan w b st).nS = st.nS + (fan.n - 1) := rfl
  have hfr : Fresh fan b st.mesh := by
    subst hfan
    subst hfanm
    exact ⟨hfresh.vert, hfresh.edge, hfresh.surf, hfresh.index, hfresh.edgeind, hfresh.posV, hfresh.posE, hfresh.posS⟩
  have hce : fan.e0 = top.e + st.nE := by subst hfan; rfl
  have hcs : fan.s0 = top.s + st.nS := by subst hfan; rfl
  have hcv : fan.centre = top.v + st.nV + 1 := by subst hfan; rfl
  have hbase : fan.base = base := by subst hfan; rfl
  have hfy : fan.face = y := by subst hfan; rfl
  have hbx : b.coord = x := by subst hbb; rfl
  constructor
  · rw [hmesh, hsame]
    exact fan_sound hrm hfresh
  · exact fanned_idx hI.idx
  · intro i hi
    rw [hmesh] at hi
    rw [hnV]
    rcases (has_vert hfr i).1 hi with h | h
    · have := hI.topV i h; omega
    · omega
  · intro i hi
    rw [hmesh] at hi
    rw [hnE]
    rcases (has_edge i).1 hi with h | ⟨k, hk, h⟩
    · have := hI.topE i h; omega
    · omega
  · intro i hi
    rw [hmesh] at hi
    rw [hnS]
    rcases (has_surf hn i).1 hi with h | ⟨k, _, hk, h⟩
    · have := hI.topS i h; omega
    · omega
  · exact hI.tmpC
  · intro v hv
    rw [hmesh]
    obtain ⟨v', h1, h2, h3⟩ := hI.verts v hv
    obtain ⟨v'', g1, g2, g3⟩ := k1 v' h1
    exact ⟨v'', g1, g2.trans h2, g3.trans h3⟩
  · intro e he
    rw [hmesh]
    obtain ⟨v', h1, h2, h3⟩ := hI.edges e he
    obtain ⟨v'', g1, g2, g3⟩ := k2 v' h1
    exact ⟨v'', g1, g2.trans h2, g3.trans h3⟩
  · intro g hg hp
    rw [hmesh]
    exact k3 g (hI.surfs g hg fun h => hp (.inl h)) (by rw [hfacei]; exact fun h => hp (.inr h))
  · intro g hgm hp
    rw [hmesh]
    by_cases hgt : g.index = t.parentsurf
    · have : g = y := inj_of_nodup hb.unique.surfs hgm hface (hgt.trans hfi.symm)
      subst this
      refine ⟨x, ⟨t, hm, hgt.symm, hx⟩, ?_⟩
      have := fanOver_new (f := fan) (w := w) (b := b) (m := st.mesh) hr (by
        rw [hfy]
        exact hI.surfs g hface (by rw [hfi]; exact hP)) hfr.index
        (fun i hi => by have := ht.v i (hbase ▸ hi); omega) (fun i hi => by have := ht.e i (hbase ▸ hi); omega)
        (fun i hi => by have := ht.s i (hbase ▸ hi); omega)
      rw [hbase, hfy, hbx] at this
      exact this
    · obtain ⟨x', h1, h2⟩ := hI.fans g hgm (hp.resolve_right hgt)
      refine ⟨x', h1, fanOver_mono (s := t.parentsurf) k1 k2 (fun s hs hne => k3 s hs (by rw [hfacei]; exact hne)) hgt
        ⟨y, hface, hfi⟩ h2⟩
  · intro s hs
    rw [hmesh] at hs
    rcases fanMesh_three s hs with ⟨h1, h2⟩ | h1
    · rcases hI.three s h1 with ⟨h4, h5⟩ | h4
      · exact .inl ⟨h4, fun h => h.elim h5 fun h => h2 (h.trans hfacei.symm)⟩
      · exact .inr h4
    · exact .inr h1
  · rw [hmesh, fanMesh_euler hn]
    exact hI.euler
  · intro s hs
    rw [hmesh] at hs ⊢
    rcases fanMesh_loops hr (fun i hi => by have := ht.v i (hbase ▸ hi); omega) (fun e he => hI.edges e (hbase ▸ he)) s hs with
      ⟨h1, h2⟩ | h1
    · rcases hI.loops s h1 with ⟨h4, h5⟩ | h4
      · exact .inl ⟨h4, fun h => h.elim h5 fun h => h2 (h.trans hfacei.symm)⟩
      · exact .inr (isTriangle_mono k2 h4)
    · exact .inr h1
  · intro h
    rw [hmesh]
    exact fanMesh_two (hI.two h)

theorem mixed_iff (t : Triangle) : 1 < (sortUnique t.pointtype).length ↔ Mixed t := by
  unfold Mixed
  constructor
  · intro h
    obtain ⟨a, b, l, hl⟩ : ∃ a b l, sortUnique t.pointtype = a :: b :: l := by
      match hq : sortUnique t.pointtype with
      | [] => rw [hq] at h; simp at h
      | [a] => rw [hq] at h; simp at h
      | a :: b :: l => exact ⟨a, b, l, rfl⟩
    have hn := Order.nodup_sortUnique t.pointtype
    rw [hl] at hn
    refine ⟨a, mem_sortUnique.1 (by rw [hl]; simp), b, mem_sortUnique.1 (by rw [hl]; simp), ?_⟩
    rintro rfl
    simp at hn
  · rintro ⟨a, ha, b, hb, hab⟩
    rw [← mem_sortUnique] at ha hb
    match hq : sortUnique t.pointtype with
    | [] => rw [hq] at ha; simp at ha
    | [c] =>
      rw [hq, List.mem_singleton] at ha hb
      exact absurd (ha.trans hb.symm) hab
    | a :: b :: l => simp

/-- What holds before triangle `j`. -/
structure LoopInv (base : Mesh) (top : Tops) (coordOf : Int → Res (List ℚ)) (tris : List Triangle) (j : Nat)
    (acc : List Nat × St) : Prop where
  inv : Inv base top coordOf tris (fun s => ∃ i t, i < j ∧ tris[i]? = some t ∧ Mixed t ∧ t.parentsurf = s) acc.2
  all : ∀ i t, tris[i]? = some t → (∃ i' t', i' < j ∧ tris[i']? = some t' ∧ Mixed t' ∧ t'.parentsurf = t.parentsurf) → i ∈ acc.1
  only : ∀ i t, tris[i]? = some t → i ∈ acc.1 → j ≤ i →
    ∃ i' t', i' < j ∧ tris[i']? = some t' ∧ Mixed t' ∧ t'.parentsurf = t.parentsurf

theorem oneTri_ok (hb : Sound base) (ht : GoodTops base top) {sibs : Int → List Nat}
    (hs : ∀ t ∈ tris, AllPos Triangle.parentsurf tris t.parentsurf (sibs t.parentsurf))
    (hg : ∀ t ∈ tris, Mixed t → GoodTri base coordOf t) {j : Nat} (hj : j < tris.length) {acc : List Nat × St}
    (h : LoopInv base top coordOf tris j acc) :
    ∃ acc', oneTri base top coordOf tris sibs acc j = .ok acc' ∧ LoopInv base top coordOf tris (j + 1) acc' := by
  have hget : tris[j]? = some tris[j] := List.getElem?_eq_getElem hj
  have hmem : tris[j] ∈ tris := List.getElem_mem hj
  -- the surfaces replaced, one triangle on
  have hnext : (fun s => ∃ i t, i < j + 1 ∧ tris[i]? = some t ∧ Mixed t ∧ t.parentsurf = s) =
      fun s => (∃ i t, i < j ∧ tris[i]? = some t ∧ Mixed t ∧ t.parentsurf = s) ∨ (Mixed tris[j] ∧ s = tris[j].parentsurf) := by
    funext s
    refine propext ⟨?_, ?_⟩
    · rintro ⟨i, t, hi, h1, h2, h3⟩
      rcases Nat.lt_or_ge i j with hij | hij
      · exact .inl ⟨i, t, hij, h1, h2, h3⟩
      · have : i = j := by omega
        subst this
        rw [hget] at h1
        cases h1
        exact .inr ⟨h2, h3.symm⟩
    · rintro (⟨i, t, hi, h1⟩ | ⟨h1, rfl⟩)
      · exact ⟨i, t, by omega, h1⟩
      · exact ⟨j, _, by omega, hget, h1, rfl⟩
  have hnext' : ∀ s, (∃ i t, i < j + 1 ∧ tris[i]? = some t ∧ Mixed t ∧ t.parentsurf = s) ↔
      (∃ i t, i < j ∧ tris[i]? = some t ∧ Mixed t ∧ t.parentsurf = s) ∨ (Mixed tris[j] ∧ s = tris[j].parentsurf) := fun s =>
    iff_of_eq (congrFun hnext s)
  unfold oneTri
  by_cases hd : j ∈ acc.1
  · rw [if_pos hd]
    have hold := h.only j _ hget hd (Nat.le_refl _)
    have hsame : ∀ s, (∃ i t, i < j + 1 ∧ tris[i]? = some t ∧ Mixed t ∧ t.parentsurf = s) ↔
        ∃ i t, i < j ∧ tris[i]? = some t ∧ Mixed t ∧ t.parentsurf = s := fun s => by
      rw [hnext']
      refine ⟨fun hh => hh.elim id ?_, .inl⟩
      rintro ⟨_, rfl⟩
      exact hold
    refine ⟨acc, rfl, ?_, ?_, ?_⟩
    · rw [funext fun s => propext (hsame s)]
      exact h.inv
    · intro i t hi hh
      exact h.all i t hi ((hsame _).1 hh)
    · intro i t hi hm hji
      exact (hsame _).2 (h.only i t hi hm (by omega))
  · rw [if_neg hd, elemAt_nat tris j hj]
    simp only [Except.bind]
    by_cases hmix : Mixed tris[j]
    · rw [if_pos ((mixed_iff _).2 hmix)]
      have hP : ¬ ∃ i t, i < j ∧ tris[i]? = some t ∧ Mixed t ∧ t.parentsurf = tris[j].parentsurf := fun hh =>
        hd (h.all j _ hget hh)
      obtain ⟨st', h1, h2⟩ := fanFace_ok hb ht h.inv (hg _ hmem hmix) hmem hP
      rw [h1]
      refine ⟨_, rfl, ?_, ?_, ?_⟩
      · rw [hnext]
        simp only [hmix, true_and]
        exact h2
      · intro i t hi hh
        rw [hnext'] at hh
        rcases hh with hh | ⟨_, hh⟩
        · exact List.mem_append_left _ (List.mem_append_left _ (h.all i t hi hh))
        · exact List.mem_append_left _ (List.mem_append_right _ (((hs _ hmem).2 i).2 ⟨t, hi, hh⟩))
      · intro i t hi hm hji
        rw [hnext']
        rcases List.mem_append.1 hm with hm | hm
        · rcases List.mem_append.1 hm with hm | hm
          · exact .inl (h.only i t hi hm (by omega))
          · obtain ⟨t', g1, g2⟩ := ((hs _ hmem).2 i).1 hm
            rw [hi] at g1
            cases g1
            exact .inr ⟨hmix, g2⟩
        · rw [List.mem_singleton] at hm
          omega
    · rw [if_neg (fun hh => hmix ((mixed_iff _).1 hh))]
      have hsame : ∀ s, (∃ i t, i < j + 1 ∧ tris[i]? = some t ∧ Mixed t ∧ t.parentsurf = s) ↔
          ∃ i t, i < j ∧ tris[i]? = some t ∧ Mixed t ∧ t.parentsurf = s := fun s => by
        rw [hnext']
        exact ⟨fun hh => hh.elim id fun hh => absurd hh.1 hmix, .inl⟩
      refine ⟨_, rfl, ?_, ?_, ?_⟩
      · rw [funext fun s => propext (hsame s)]
        exact h.inv
      · intro i t hi hh
        exact List.mem_append_left _ (h.all i t hi ((hsame _).1 hh))
      · intro i t hi hm hji
        rw [hsame]
        rcases List.mem_append.1 hm with hm | hm
        · exact h.only i t hi hm (by omega)
        · rw [List.mem_singleton] at hm
          omega

theorem loop_range {σ : Type} {I : Nat → σ → Prop} {step : σ → Nat → Res σ} {n : Nat}
    (hstep : ∀ j a, j < n → I j a → ∃ a', step a j = .ok a' ∧ I (j + 1) a') {a : σ} (h0 : I 0 a) : ∀ j ≤ n,
    ∃ a', (List.range j).foldlM (m := Except Fault) step a = .ok a' ∧ I j a'
  | 0, _ => ⟨a, rfl, h0⟩
  | j + 1, hj => by
    obtain ⟨a', h1, h2⟩ := loop_range hstep h0 j (by omega)
    obtain ⟨a'', h3, h4⟩ := hstep j a' (by omega) h2
    refine ⟨a'', ?_, h4⟩
    rw [List.range_succ, List.foldlM_append, h1]
    change List.foldlM (m := Except Fault) step a' [j] = _
    rw [List.foldlM_cons, h3]
    rfl

theorem base_tops (hb : Sound base) : GoodTops base
    ⟨maxIdx Vert.index base.verts, maxIdx Edge.index base.edges, maxIdx Surf.index base.surfs⟩ := by
  refine ⟨?_, ?_, ?_, (maxIdx_spec ..).1, (maxIdx_spec ..).1, (maxIdx_spec ..).1⟩
  · rintro i ⟨x, hx, rfl⟩
    exact (maxIdx_spec Vert.index base.verts).2 x hx
  · rintro i ⟨x, hx, rfl⟩
    exact (maxIdx_spec Edge.index base.edges).2 x hx
  · rintro i ⟨x, hx, rfl⟩
    exact (maxIdx_spec Surf.index base.surfs).2 x hx

theorem meshTriangulation_ok (hb : Sound base) {sibs : Int → List Nat}
    (hs : ∀ t ∈ tris, AllPos Triangle.parentsurf tris t.parentsurf (sibs t.parentsurf))
    (hg : ∀ t ∈ tris, Mixed t → GoodTri base coordOf t) :
    ∃ st, meshTriangulation base tris sibs coordOf = .ok st.mesh ∧ Inv base
      ⟨maxIdx Vert.index base.verts, maxIdx Edge.index base.edges, maxIdx Surf.index base.surfs⟩ coordOf tris (Split tris) st := by
  have ht := base_tops hb
  have hm0 : (⟨base, ⟨[], [], [], [], 0⟩, ⟨0, [], [], false⟩, 0, 0, 0⟩ : St).mesh = base := by
    unfold St.mesh Mesh.concatenate
    simp
  have h0 : LoopInv base ⟨maxIdx Vert.index base.verts, maxIdx Edge.index base.edges, maxIdx Surf.index base.surfs⟩ coordOf tris 0
      ([], ⟨base, ⟨[], [], [], [], 0⟩, ⟨0, [], [], false⟩, 0, 0, 0⟩) := by
    refine ⟨?_, ?_, ?_⟩
    · constructor
      · rw [hm0]; exact hb
      · exact ⟨rfl, rfl, rfl, rfl⟩
      · rw [hm0]; intro i hi; have := ht.v i hi; simpa using this
      · rw [hm0]; intro i hi; have := ht.e i hi; simpa using this
      · rw [hm0]; intro i hi; have := ht.s i hi; simpa using this
      · rfl
      · rw [hm0]; exact fun v hv => ⟨v, hv, rfl, rfl⟩
      · rw [hm0]; exact fun v hv => ⟨v, hv, rfl, rfl⟩
      · rw [hm0]; exact fun v hv _ => hv
      · rintro f _ ⟨i, t, hi, _⟩
        omega
      · rw [hm0]
        exact fun s hs => .inl ⟨hs, fun ⟨i, t, hi, _⟩ => by omega⟩
      · rw [hm0]
      · rw [hm0]
        exact fun s hs => .inl ⟨hs, fun ⟨i, t, hi, _⟩ => by omega⟩
      · rw [hm0]; exact id
    · rintro i t _ ⟨i', t', hi, _⟩
      omega
    · intro i t _ hm
      simp at hm
  obtain ⟨acc, h1, h2⟩ := loop_range (I := LoopInv base _ coordOf tris) (n := tris.length)
    (fun j a hj ha => oneTri_ok hb ht hs hg hj ha) h0 tris.length (Nat.le_refl _)
  refine ⟨acc.2, ?_, ?_⟩
  · unfold meshTriangulation
    rw [h1]
    rfl
  · have : Split tris = fun s => ∃ i t, i < tris.length ∧ tris[i]? = some t ∧ Mixed t ∧ t.parentsurf = s := by
      funext s
      refine propext ⟨?_, ?_⟩
      · rintro ⟨t, hm, h3, h4⟩
        obtain ⟨i, hi⟩ := List.getElem?_of_mem hm
        exact ⟨i, t, (List.getElem?_eq_some_iff.1 hi).1, hi, h3, h4⟩
      · rintro ⟨i, t, _, hi, h3, h4⟩
        exact ⟨t, List.mem_of_getElem? hi, h3, h4⟩
    rw [this]
    exact h2.inv

end RSVS.FaceFan
