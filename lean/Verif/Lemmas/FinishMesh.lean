import Verif.Lemmas.FlattenFaces
import Verif.Lemmas.SplitSurfGrow
import Verif.Model.FinishMesh
import Verif.Props.Mesh
import Verif.Props.SplitSurf
import Verif.Spec.FinishMesh

/-!
# Lemmas about tightening and ordering a mesh
-/

namespace RSVS.FaceFan

open RSVS RSVS.Mesh RSVS.Spec RSVS.Triang RSVS.SplitSurf RSVS.Props

theorem forall2_trans {α : Type} {R : α → α → Prop} (ht : ∀ x y z, R x y → R y z → R x z) :
    ∀ {a b c : List α}, List.Forall₂ R a b → List.Forall₂ R b c → List.Forall₂ R a c
  | _, _, _, .nil, .nil => .nil
  | _, _, _, .cons h1 h2, .cons h3 h4 => .cons (ht _ _ _ h1 h3) (forall2_trans ht h2 h4)

theorem forall2_left {α : Type} {R : α → α → Prop} {a b : List α} (h : List.Forall₂ R a b) {x : α} (hx : x ∈ a) :
    ∃ y ∈ b, R x y := by
  induction h with
  | nil => simp at hx
  | cons h1 _ ih =>
    rcases List.mem_cons.1 hx with rfl | hx
    · exact ⟨_, by simp, h1⟩
    · obtain ⟨y, hy, hr⟩ := ih hx
      exact ⟨y, List.mem_cons_of_mem _ hy, hr⟩

theorem forall2_right {α : Type} {R : α → α → Prop} {a b : List α} (h : List.Forall₂ R a b) {y : α} (hy : y ∈ b) :
    ∃ x ∈ a, R x y := by
  induction h with
  | nil => simp at hy
  | cons h1 _ ih =>
    rcases List.mem_cons.1 hy with rfl | hy
    · exact ⟨_, by simp, h1⟩
    · obtain ⟨x, hx, hr⟩ := ih hy
      exact ⟨x, List.mem_cons_of_mem _ hx, hr⟩

theorem forall2_index {α : Type} {ix : α → Int} {R : α → α → Prop} (hR : ∀ x y, R x y → ix y = ix x) {a b : List α}
    (h : List.Forall₂ R a b) : b.map ix = a.map ix := by
  induction h with
  | nil => rfl
  | cons h1 _ ih => rw [List.map_cons, List.map_cons, hR _ _ h1, ih]

theorem _root_.RSVS.Spec.SameButOrder.trans {a b c : Mesh} (h : SameButOrder a b) (g : SameButOrder b c) : SameButOrder a c where
  verts := forall2_trans (fun x y z h1 h2 => ⟨h2.1.trans h1.1, h2.2.1.trans h1.2.1, h2.2.2.1.trans h1.2.2.1,
    fun e => (h2.2.2.2 e).trans (h1.2.2.2 e)⟩) h.verts g.verts
  edges := forall2_trans (fun x y z h1 h2 => ⟨h2.1.trans h1.1, h2.2.1.trans h1.2.1, h2.2.2.trans h1.2.2⟩) h.edges g.edges
  surfs := forall2_trans (fun x y z h1 h2 => ⟨h2.1.trans h1.1, fun e => (h2.2.1 e).trans (h1.2.1 e),
    fun e => (h2.2.2.1 e).trans (h1.2.2.1 e), h2.2.2.2.1.trans h1.2.2.2.1, h2.2.2.2.2.1.trans h1.2.2.2.2.1,
    h2.2.2.2.2.2.1.trans h1.2.2.2.2.2.1, h2.2.2.2.2.2.2.trans h1.2.2.2.2.2.2⟩) h.surfs g.surfs
  volus := forall2_trans (fun x y z h1 h2 => h2.trans h1) h.volus g.volus
  dim := g.dim.trans h.dim

theorem _root_.RSVS.Spec.SameButOrder.joins {m r : Mesh} (h : SameButOrder m r) {e a b : Int} : EdgeJoins r e a b ↔ EdgeJoins m e a b := by
  constructor
  · rintro ⟨y, hy, h1, h2⟩
    obtain ⟨x, hx, g1, g2, _⟩ := forall2_right h.edges hy
    exact ⟨x, hx, g1.symm.trans h1, by rw [← g2]; exact h2⟩
  · rintro ⟨x, hx, h1, h2⟩
    obtain ⟨y, hy, g1, g2, _⟩ := forall2_left h.edges hx
    exact ⟨y, hy, g1.trans h1, by rw [g2]; exact h2⟩

theorem _root_.RSVS.Spec.SameButOrder.two {m r : Mesh} (h : SameButOrder m r) (h2 : TwoVerts m) : TwoVerts r := by
  intro y hy
  obtain ⟨x, hx, _, g2, _⟩ := forall2_right h.edges hy
  rw [g2]
  exact h2 x hx

theorem _root_.RSVS.Spec.SameButOrder.loop {m r : Mesh} (h : SameButOrder m r) {l : List Int} (hl : IsLoop (EdgeJoins m) l) :
    IsLoop (EdgeJoins r) l := by
  obtain ⟨w, h1, h2⟩ := hl
  exact ⟨w, fun k e hk => h.joins.2 (h1 k e hk), h2⟩

theorem same_of_tightened {m r : Mesh} (h : Tightened m r) : SameButOrder m r where
  verts := h.verts.imp fun x y h => by
    obtain ⟨h1, h2⟩ := h
    rw [h1]
    exact ⟨rfl, rfl, rfl, h2.2⟩
  edges := h.edges.imp fun x y h => by
    obtain ⟨h1, h2⟩ := h
    rw [h1]
    exact ⟨rfl, rfl, rfl⟩
  surfs := h.surfs.imp fun x y h => by
    obtain ⟨h1, h2, h3⟩ := h
    rw [h1]
    exact ⟨rfl, h2.2, h3.2, rfl, rfl, rfl, rfl⟩
  volus := h.volus.imp fun x y h => by
    rw [h.1]
  dim := h.dim

/-- Tightening keeps a mesh sound. -/
theorem sound_tightened {m r : Mesh} (hm : Sound m) (h : Tightened m r) : Sound r := by
  have hve : ∀ v e, VertEdge r v e ↔ VertEdge m v e := by
    intro v e
    constructor
    · rintro ⟨y, hy, h1, h2⟩
      obtain ⟨x, hx, g1, g2⟩ := forall2_right h.verts hy
      exact ⟨x, hx, by rw [← h1, g1], (g2.2 e).1 h2⟩
    · rintro ⟨x, hx, h1, h2⟩
      obtain ⟨y, hy, g1, g2⟩ := forall2_left h.verts hx
      exact ⟨y, hy, by rw [← h1, g1], (g2.2 e).2 h2⟩
  have hev : ∀ e v, EdgeVert r e v ↔ EdgeVert m e v := by
    intro e v
    constructor
    · rintro ⟨y, hy, h1, h2⟩
      obtain ⟨x, hx, g1, g2⟩ := forall2_right h.edges hy
      exact ⟨x, hx, by rw [← h1, g1], by rw [g1] at h2; exact h2⟩
    · rintro ⟨x, hx, h1, h2⟩
      obtain ⟨y, hy, g1, g2⟩ := forall2_left h.edges hx
      exact ⟨y, hy, by rw [← h1, g1], by rw [g1]; exact h2⟩
  have hes : ∀ e s, EdgeSurf r e s ↔ EdgeSurf m e s := by
    intro e v
    constructor
    · rintro ⟨y, hy, h1, h2⟩
      obtain ⟨x, hx, g1, g2⟩ := forall2_right h.edges hy
      exact ⟨x, hx, by rw [← h1, g1], (g2.2 v).1 h2⟩
    · rintro ⟨x, hx, h1, h2⟩
      obtain ⟨y, hy, g1, g2⟩ := forall2_left h.edges hx
      exact ⟨y, hy, by rw [← h1, g1], (g2.2 v).2 h2⟩
  have hse : ∀ s e, SurfEdge r s e ↔ SurfEdge m s e := by
    intro e v
    constructor
    · rintro ⟨y, hy, h1, h2⟩
      obtain ⟨x, hx, g1, g2, _⟩ := forall2_right h.surfs hy
      exact ⟨x, hx, by rw [← h1, g1], (g2.2 v).1 h2⟩
    · rintro ⟨x, hx, h1, h2⟩
      obtain ⟨y, hy, g1, g2, _⟩ := forall2_left h.surfs hx
      exact ⟨y, hy, by rw [← h1, g1], (g2.2 v).2 h2⟩
  have hsc : ∀ s c, SurfVolu r s c ↔ SurfVolu m s c := by
    intro e v
    constructor
    · rintro ⟨y, hy, h1, h2⟩
      obtain ⟨x, hx, g1, _, g2⟩ := forall2_right h.surfs hy
      exact ⟨x, hx, by rw [← h1, g1], (g2.2 v).1 h2⟩
    · rintro ⟨x, hx, h1, h2⟩
      obtain ⟨y, hy, g1, _, g2⟩ := forall2_left h.surfs hx
      exact ⟨y, hy, by rw [← h1, g1], (g2.2 v).2 h2⟩
  have hcs : ∀ c s, VoluSurf r c s ↔ VoluSurf m c s := by
    intro e v
    constructor
    · rintro ⟨y, hy, h1, h2⟩
      obtain ⟨x, hx, g1, g2⟩ := forall2_right h.volus hy
      exact ⟨x, hx, by rw [← h1, g1], (g2.2 v).1 h2⟩
    · rintro ⟨x, hx, h1, h2⟩
      obtain ⟨y, hy, g1, g2⟩ := forall2_left h.volus hx
      exact ⟨y, hy, by rw [← h1, g1], (g2.2 v).2 h2⟩
  have iv := forall2_index (ix := Vert.index) (fun x y h => by rw [h.1]) h.verts
  have ie := forall2_index (ix := Edge.index) (fun x y h => by rw [h.1]) h.edges
  have is := forall2_index (ix := Surf.index) (fun x y h => by rw [h.1]) h.surfs
  have ic := forall2_index (ix := Volu.index) (fun x y h => by rw [h.1]) h.volus
  refine sound_mk ⟨iv ▸ hm.unique.verts, ie ▸ hm.unique.edges, is ▸ hm.unique.surfs, ic ▸ hm.unique.volus⟩
    ⟨fun i hi => hm.pos.verts i ((has_of_map iv i).1 hi), fun i hi => hm.pos.edges i ((has_of_map ie i).1 hi),
      fun i hi => hm.pos.surfs i ((has_of_map is i).1 hi), fun i hi => hm.pos.volus i ((has_of_map ic i).1 hi)⟩ ?_ ?_ ?_
  · intro v e
    rw [hve, hev]
    exact sound_ve hm v e
  · intro e s
    rw [hse, hes]
    exact sound_es hm e s
  · intro s c
    rw [hcs, hsc]
    exact sound_sc hm s c

/-- Ordering surfaces of one loop changes nothing but orders. -/
theorem same_of_ordered {m r : Mesh} (hm : Sound m) (hr : Sound r) (h : SplitBy m r id)
    (hi : r.surfs.map Surf.index = m.surfs.map Surf.index) : SameButOrder m r where
  verts := by
    rw [h.verts]
    exact List.forall₂_same.2 fun x _ => ⟨rfl, rfl, rfl, fun e => Iff.rfl⟩
  edges := h.edges.imp fun x y h => by
    obtain ⟨l, rfl⟩ := h
    exact ⟨rfl, rfl, rfl⟩
  surfs := by
    have hl : m.surfs.length = r.surfs.length := by
      have := congrArg List.length hi
      simpa using this.symm
    refine List.forall₂_iff_get.2 ⟨hl, fun i h1 h2 => ?_⟩
    have hx : m.surfs.get ⟨i, h1⟩ ∈ m.surfs := List.get_mem _ _
    have hy : r.surfs.get ⟨i, h2⟩ ∈ r.surfs := List.get_mem _ _
    have hxy : (r.surfs.get ⟨i, h2⟩).index = (m.surfs.get ⟨i, h1⟩).index := by
      have := congrArg (fun l : List Int => l[i]?) hi
      simpa [h1, h2] using this
    generalize m.surfs.get ⟨i, h1⟩ = x at *
    generalize r.surfs.get ⟨i, h2⟩ = y at *
    obtain ⟨f, hf, hfi, hg⟩ := h.comes y hy
    have : f = x := inj_of_nodup hm.unique.surfs hf hx (hfi.trans hxy)
    subst this
    refine ⟨hxy, fun e => ?_, ?_⟩
    · rw [h.shares f hf]
      constructor
      · exact fun he => ⟨y, hy, hxy, he⟩
      · rintro ⟨g, hg1, hg2, hg3⟩
        have : g = y := inj_of_nodup hr.unique.surfs hg1 hy (hg2.trans hxy.symm)
        subst this
        exact hg3
    · rw [hg]
      exact ⟨fun c => Iff.rfl, rfl, rfl, rfl, rfl⟩
  volus := h.volus.imp fun x y h => by
    obtain ⟨l, rfl⟩ := h
    rfl
  dim := h.dim

/-- Ordering, tightening and ordering again. -/
theorem finishMesh_ok {tab : List Int → Table} (ht : ∀ l, IsTable l (tab l)) (cap : Nat) {m : Mesh} (hm : Sound m) (h2 : TwoVerts m)
    (ho : ∀ f ∈ m.surfs, OneLoop m f) :
    ∃ r, finishMesh tab cap m = .ok r ∧ Sound r ∧ TwoVerts r ∧ SameButOrder m r ∧
      ∀ g ∈ r.surfs, g.isordered = true ∧ OneLoop r g := by
  obtain ⟨a, a1, a2, a3, a4, a5⟩ := C129_one_loop tab ht m hm h2 (fun f hf _ => (ho f hf).imp id fun h => ⟨_, h.2, fun _ => Iff.rfl, h.1⟩)
    (fun f hf _ => ho f hf) cap
  have sa := same_of_ordered hm a2 a3 a4
  have ta := sa.two h2
  obtain ⟨b, b1, b2, -⟩ := C19_tighten a fun e he => (ta e he).le
  have sb := same_of_tightened b2
  have hb := sound_tightened a2 b2
  obtain ⟨r, r1, r2, r3, r4, r5⟩ := C129_one_loop tab ht b hb (sb.two ta) (fun f hf _ => by
    obtain ⟨x, hx, g1, g2, g3⟩ := forall2_right b2.surfs hf
    rcases (a5 x hx).2 with h | h
    · left
      exact List.eq_nil_iff_forall_not_mem.2 fun e he => by
        have := (g2.2 e).1 he
        rw [h] at this
        simp at this
    · exact .inr ⟨x.edgeind, h.2, fun e => (g2.2 e).symm, sb.loop (sa.loop h.1)⟩)
    (fun f hf hfo => by
      obtain ⟨x, hx, g1, g2, g3⟩ := forall2_right b2.surfs hf
      rw [g1] at hfo
      simp at hfo) cap
  have sr := same_of_ordered hb r2 r3 r4
  refine ⟨r, ?_, r2, sr.two (sb.two ta), sa.trans (sb.trans sr), fun g hg => ⟨(r5 g hg).1, ?_⟩⟩
  · unfold finishMesh
    rw [a1]
    simp only [Except.bind]
    rw [b1]
    dsimp only
    rw [r1]
    rfl
  · exact (r5 g hg).2.imp id fun h => ⟨sr.loop h.1, h.2⟩

theorem joins_ends {m : Mesh} (hm : Sound m) {e a b c d : Int} (h : EdgeJoins m e a b) (g : EdgeJoins m e c d) :
    (a = c ∧ b = d) ∨ (a = d ∧ b = c) := by
  obtain ⟨x, hx, h1, h2⟩ := h
  obtain ⟨y, hy, g1, g2⟩ := g
  have : x = y := inj_of_nodup hm.unique.edges hx hy (h1.trans g1.symm)
  subst this
  rcases h2 with h2 | h2 <;> rcases g2 with g2 | g2 <;> rw [h2] at g2 <;> simp at g2 <;> tauto

/-- A ring has no edge twice. -/
theorem ring_once {m : Mesh} (hm : Sound m) {f : Surf} {w : Nat → Int} (h : RingFace m f w) : f.edgeind.Nodup := by
  obtain ⟨h3, h1, hend, hinj⟩ := h
  rw [List.nodup_iff_getElem?_ne_getElem?]
  intro i j hij hj he
  have hi : i < f.edgeind.length := by omega
  have e1 := h1 i _ (List.getElem?_eq_getElem hi)
  have e2 := h1 j _ (List.getElem?_eq_getElem hj)
  have hee : f.edgeind[i] = f.edgeind[j] := by
    rw [List.getElem?_eq_getElem hi, List.getElem?_eq_getElem hj] at he
    exact Option.some.inj he
  rw [← hee] at e2
  rcases joins_ends hm e1 e2 with ⟨g1, _⟩ | ⟨g1, g2⟩
  · have := hinj i j hi hj g1
    omega
  · have g2' := hinj (i + 1) j (by omega) hj g2
    subst g2'
    rcases Nat.lt_or_ge (i + 1 + 1) f.edgeind.length with h | h
    · have := hinj i (i + 1 + 1) hi h g1
      omega
    · have hl : i + 1 + 1 = f.edgeind.length := by omega
      rw [hl, hend] at g1
      have := hinj i 0 hi (by omega) g1
      omega

theorem oneLoop_of_ring {m : Mesh} (hm : Sound m) {f : Surf} {w : Nat → Int} (h : RingFace m f w) : OneLoop m f :=
  .inr ⟨⟨w, h.2⟩, ring_once hm h⟩

/-- All surfaces of the mesh made are rings. -/
theorem made_rings {base : Mesh} {top : Tops} {coordOf : Int → Res (List ℚ)} {tris : List Triangle} {P : Int → Prop} {st : St}
    (h : Inv base top coordOf tris P st) (hr : ∀ f ∈ base.surfs, ∃ w, RingFace base f w) :
    ∀ f ∈ st.mesh.surfs, ∃ w, RingFace st.mesh f w := by
  intro f hf
  rcases h.loops f hf with ⟨h1, _⟩ | h1
  · obtain ⟨w, hw⟩ := hr f h1
    exact ⟨w, ring_mono h.edges hw⟩
  · exact ring_of_triangle h1

end RSVS.FaceFan
