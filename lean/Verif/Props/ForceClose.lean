import Verif.Lemmas.ForceCloseMesh
import Verif.Props.Mesh
import Verif.Props.Tecplot

/-!
# C128: new containers for the connected parts of a mesh

`mesh::ForceCloseContainers` gives each connected part of a mesh one new volume (or surface), after a snake was split or merged.
-/

namespace RSVS.Props

open RSVS RSVS.Mesh RSVS.Spec RSVS.ForceClose

/-- C128 in three dimensions: the volumes are replaced by one volume for each connected part, and each surface is between the volume of
its part and the outside; the mesh stays sound.  Partial: no edge may list the outside as a surface, each surface must have an edge and
the edges of a surface must be joined. -/
theorem C128_volumes_partial (m : Mesh) (hm : Sound m) (h2 : TwoVerts m) (hv : m.volus ≠ []) (h0 : ∀ e, ¬ EdgeSurf m e 0)
    (hj : SurfJoined m) (hb : ∀ f ∈ m.surfs, f.edgeind ≠ []) :
    ∃ r lab, m.forceClose = .ok r ∧ Sound r ∧ VoluPerPart m r lab := by
  obtain ⟨lab, slab, volus, h1, h3, h4, h5, h6, h7⟩ := volumes_run hm h2 hv h0 hj hb
  refine ⟨_, lab, h1, volumes_sound hm h2 hb h3 h4 h5 h6 h7, ⟨?_, rfl, rfl, ?_⟩⟩
  · exact ⟨fun v hv => List.mem_map.1 (h5.into v hv), fun c hc => h5.onto c (List.mem_map.2 hc), h5.same⟩
  · exact forall₂_map_right fun f hf => ⟨slab f.index, rfl, fun e v he hev => h3 f.index e v ⟨f, hf, rfl, he⟩ hev⟩

/-- C128 in two dimensions: the surfaces are replaced by one surface for each connected part. -/
theorem C128_surfaces (m : Mesh) (hm : Sound m) (h2 : TwoVerts m) (hv : m.volus = []) :
    ∃ r lab, m.forceClose = .ok r ∧ Sound r ∧ SurfPerPart m r lab := by
  obtain ⟨lab, elb, surfs, h1, h3, h4, h5, h6, h7, h8⟩ := surfaces_run hm h2 hv
  refine ⟨_, lab, h1, surfaces_sound hm h2 hv h3 h4 h5 h6 h7 h8, ⟨?_, rfl, rfl, ?_⟩⟩
  · exact ⟨fun v hv => List.mem_map.1 (h5.into v hv), fun c hc => h5.onto c (List.mem_map.2 hc), h5.same⟩
  · exact forall₂_map_right fun x hx => ⟨elb x.index, rfl, fun v hev => h3 x.index v ⟨x, hx, rfl, hev⟩⟩

theorem ring_joined {m : Mesh} (hm : Sound m) {f : Surf} {w : Nat → Int} (h : RingFace m f w) {k : Nat} (hk : k ≤ f.edgeind.length) :
    VertJoined m (fun _ => True) (HasVert m) (w 0) (w k) ∧ VertJoined m (fun _ => True) (HasVert m) (w k) (w 0) := by
  induction k with
  | zero => exact ⟨Relation.ReflTransGen.refl, Relation.ReflTransGen.refl⟩
  | succ k ih =>
    obtain ⟨i1, i2⟩ := ih (by omega)
    obtain ⟨x, hx, hxi, hxv⟩ := h.2.1 k f.edgeind[k] (List.getElem?_eq_getElem (by omega))
    have ha : EdgeVert m x.index (w k) := ⟨x, hx, rfl, by rcases hxv with h | h <;> simp [h]⟩
    have hb : EdgeVert m x.index (w (k + 1)) := ⟨x, hx, rfl, by rcases hxv with h | h <;> simp [h]⟩
    exact ⟨i1.tail ⟨hasVert_of_edge hm ha, hasVert_of_edge hm hb, x.index, trivial, ha, hb⟩,
      i2.head ⟨hasVert_of_edge hm hb, hasVert_of_edge hm ha, x.index, trivial, hb, ha⟩⟩

/-- When the edges of each surface form one loop the edges of each surface are joined, and there are some. -/
theorem C128_rings (m : Mesh) (hm : Sound m) (h : ∀ f ∈ m.surfs, ∃ w, RingFace m f w) :
    SurfJoined m ∧ ∀ f ∈ m.surfs, f.edgeind ≠ [] := by
  refine ⟨?_, fun f hf he => ?_⟩
  · have key : ∀ s e v, SurfEdge m s e → EdgeVert m e v → ∀ f ∈ m.surfs, f.index = s → ∀ w, RingFace m f w →
        VertJoined m (fun _ => True) (HasVert m) (w 0) v ∧ VertJoined m (fun _ => True) (HasVert m) v (w 0) := by
      rintro s e v ⟨g, hg, hgi, he⟩ ⟨y, hy, hyi, hyv⟩ f hf hfi w hw
      have := inj_of_nodup hm.unique.surfs hf hg (hfi.trans hgi.symm)
      subst this
      obtain ⟨k, hk, rfl⟩ := List.getElem_of_mem he
      obtain ⟨x, hx, hxi, hxv⟩ := hw.2.1 k f.edgeind[k] (List.getElem?_eq_getElem hk)
      have := inj_of_nodup hm.unique.edges hx hy (hxi.trans hyi.symm)
      subst this
      have hvv : v = w k ∨ v = w (k + 1) := by
        rcases hxv with h | h <;> rw [h] at hyv <;> simp only [List.mem_cons, List.not_mem_nil, or_false] at hyv <;> tauto
      rcases hvv with rfl | rfl
      · exact ring_joined hm hw (by omega)
      · exact ring_joined hm hw (by omega)
    rintro s e e' v v' h1 h2 h3 h4
    obtain ⟨f, hf, hfi, _⟩ := id h1
    obtain ⟨w, hw⟩ := h f hf
    exact (key s e v h1 h3 f hf hfi w hw).2.trans (key s e' v' h2 h4 f hf hfi w hw).1
  · obtain ⟨w, hw⟩ := h f hf
    have := hw.1
    rw [he] at this
    simp at this

/-! ### Examples -/

/-- Two tetrahedra apart from each other, in one volume. -/
def apartTets : Mesh where
  verts := tetra.verts ++ tetra.verts.map fun v => ⟨v.index + 4, v.edgeind.map (· + 6), [5, 5, 5], false⟩
  edges := tetra.edges ++ tetra.edges.map fun x => ⟨x.index + 6, x.vertind.map (· + 4), x.surfind.map (· + 4), false⟩
  surfs := tetra.surfs ++ tetra.surfs.map fun f => { index := f.index + 4, edgeind := f.edgeind.map (· + 6), voluind := [1, 0] }
  volus := [{ index := 1, surfind := [1, 2, 3, 4, 5, 6, 7, 8] }]
  meshDim := 3

theorem apartTets_sound : Sound apartTets := sound_of_checked (by decide +kernel)

theorem ring_triangle {m : Mesh} {f : Surf} {a b c x y z : Int} (hf : f.edgeind = [a, b, c]) (h1 : EdgeJoins m a x y)
    (h2 : EdgeJoins m b y z) (h3 : EdgeJoins m c z x) (hxy : x ≠ y) (hyz : y ≠ z) (hzx : z ≠ x) :
    RingFace m f fun k => if k = 1 then y else if k = 2 then z else x := by
  refine ⟨by simp [hf], ?_, by simp [hf], ?_⟩
  · intro k e he
    rw [hf] at he
    match k with
    | 0 => simp only [List.getElem?_cons_zero, Option.some.injEq] at he; subst he; exact h1
    | 1 => simp only [List.getElem?_cons_succ, List.getElem?_cons_zero, Option.some.injEq] at he; subst he; exact h2
    | 2 => simp only [List.getElem?_cons_succ, List.getElem?_cons_zero, Option.some.injEq] at he; subst he; exact h3
    | k + 3 => simp at he
  · intro i j hi hj h
    rw [hf] at hi hj
    simp only [List.length_cons, List.length_nil] at hi hj
    have hi' : i = 0 ∨ i = 1 ∨ i = 2 := by omega
    have hj' : j = 0 ∨ j = 1 ∨ j = 2 := by omega
    rcases hi' with rfl | rfl | rfl <;> rcases hj' with rfl | rfl | rfl <;> simp_all

instance (m : Mesh) (e a b : Int) : Decidable (EdgeJoins m e a b) := by unfold EdgeJoins; infer_instance

/-- Each surface is a triangle, with its edges in some order. -/
theorem rings_of_checked {m : Mesh} (corners : Int → Int × Int × Int)
    (h : ∀ f ∈ m.surfs, ∃ a ∈ f.edgeind, ∃ b ∈ f.edgeind, ∃ c ∈ f.edgeind, f.edgeind = [a, b, c] ∧
      EdgeJoins m a (corners f.index).1 (corners f.index).2.1 ∧ EdgeJoins m b (corners f.index).2.1 (corners f.index).2.2 ∧
      EdgeJoins m c (corners f.index).2.2 (corners f.index).1 ∧ (corners f.index).1 ≠ (corners f.index).2.1 ∧
      (corners f.index).2.1 ≠ (corners f.index).2.2 ∧ (corners f.index).2.2 ≠ (corners f.index).1) :
    ∀ f ∈ m.surfs, ∃ w, RingFace m f w := fun f hf => by
  obtain ⟨a, -, b, -, c, -, h1, h2, h3, h4, h5, h6, h7⟩ := h f hf
  exact ⟨_, ring_triangle h1 h2 h3 h4 h5 h6 h7⟩

def apartCorners (s : Int) : Int × Int × Int :=
  if s = 1 then (2, 1, 3) else if s = 2 then (2, 1, 4) else if s = 3 then (3, 1, 4) else if s = 4 then (3, 2, 4)
  else if s = 5 then (6, 5, 7) else if s = 6 then (6, 5, 8) else if s = 7 then (7, 5, 8) else (7, 6, 8)

theorem apartTets_rings : ∀ f ∈ apartTets.surfs, ∃ w, RingFace apartTets f w := rings_of_checked apartCorners (by decide +kernel)

theorem noZero_of_checked {m : Mesh} (h : ∀ x ∈ m.edges, (0 : Int) ∉ x.surfind) : ∀ e, ¬ EdgeSurf m e 0 := by
  rintro e ⟨x, hx, -, h0⟩
  exact h x hx h0

/-- The hypotheses of `C128_volumes_partial` can be met: each of the two tetrahedra gets its own volume. -/
example : ∃ r lab, apartTets.forceClose = .ok r ∧ Sound r ∧ VoluPerPart apartTets r lab :=
  C128_volumes_partial apartTets apartTets_sound (by unfold TwoVerts; decide +kernel) (by decide)
    (noZero_of_checked (by decide +kernel)) (C128_rings _ apartTets_sound apartTets_rings).1
    (C128_rings _ apartTets_sound apartTets_rings).2

example : apartTets.forceClose.map (fun r => (r.volus.map Volu.index, r.surfs.map Surf.voluind)) =
    .ok ([1, 2], [[1, 0], [1, 0], [1, 0], [1, 0], [2, 0], [2, 0], [2, 0], [2, 0]]) := by decide +kernel

/-- Those of `C128_surfaces` too. -/
example : ∃ r lab, flatPair.forceClose = .ok r ∧ Sound r ∧ SurfPerPart flatPair r lab :=
  C128_surfaces flatPair (sound_of_checked (by decide +kernel)) (by unfold TwoVerts; decide +kernel) rfl

/-! ### Without the hypotheses -/

/-- A tetrahedron and a surface without edges in a volume of its own. -/
def bareFace : Mesh :=
  { tetra with surfs := tetra.surfs ++ [{ index := 5, edgeind := [], voluind := [2, 0] }],
               volus := tetra.volus ++ [{ index := 2, surfind := [5] }] }

/-- C128 fails for a surface without edges: it still lists its old volume, which is gone. -/
theorem C128_bare_violated : ∃ m r, Sound m ∧ TwoVerts m ∧ m.volus ≠ [] ∧ (∀ e, ¬ EdgeSurf m e 0) ∧ SurfJoined m ∧
    m.forceClose = .ok r ∧ ¬ Sound r := by
  obtain ⟨r, hr⟩ : ∃ r, bareFace.forceClose = .ok r := by
    have h : (bareFace.forceClose).isOk = true := by decide +kernel
    cases hc : bareFace.forceClose with
    | ok r => exact ⟨r, rfl⟩
    | error e => rw [hc] at h; cases h
  have hs : Sound bareFace := sound_of_checked (by decide +kernel)
  refine ⟨bareFace, r, hs, by unfold TwoVerts; decide +kernel, by decide, noZero_of_checked (by decide +kernel), ?_, hr, fun h => ?_⟩
  · have hq : ∀ f ∈ tetra.surfs, ∃ w, RingFace tetra f w := rings_of_checked apartCorners (by decide +kernel)
    have hj := (C128_rings tetra tetra_sound hq).1
    have hk : ∀ s e, SurfEdge bareFace s e → SurfEdge tetra s e := by
      rintro s e ⟨f, hf, hfi, he⟩
      rcases List.mem_append.1 hf with hf | hf
      · exact ⟨f, hf, hfi, he⟩
      · simp only [List.mem_cons, List.not_mem_nil, or_false] at hf
        subst hf
        exact absurd he List.not_mem_nil
    intro s e e' v v' h1 h2 h3 h4
    exact hj s e e' v v' (hk s e h1) (hk s e' h2) h3 h4
  · have hd : (∃ f ∈ r.surfs, f.index = 5 ∧ (2 : Int) ∈ f.voluind) ∧ ∀ c ∈ r.volus, c.index ≠ 2 := by
      have : (bareFace.forceClose.map fun r => decide ((∃ f ∈ r.surfs, f.index = 5 ∧ (2 : Int) ∈ f.voluind) ∧ ∀ c ∈ r.volus, c.index ≠ 2)) =
          .ok true := by decide +kernel
      rw [hr] at this
      simpa [Except.map] using this
    obtain ⟨c, hc, hci⟩ := h.noDangling.surfVolu 5 2 hd.1 (by decide)
    exact hd.2 c hc hci

/-- The two tetrahedra with the surfaces 1 and 5 made one surface, a face with two loops. -/
def twoLoops : Mesh :=
  { apartTets with
    edges := apartTets.edges.map fun x => { x with surfind := x.surfind.map fun s => if s = 5 then 1 else s }
    surfs := (apartTets.surfs.map fun f => if f.index = 1 then { f with edgeind := [1, 2, 4, 7, 8, 10] } else f).filter (·.index ≠ 5)
    volus := [{ index := 1, surfind := [1, 2, 3, 4, 6, 7, 8] }] }

/-- C128 fails for a surface with edges in two parts: both new volumes list it, but it lists only one of them. -/
theorem C128_split_violated : ∃ m r, Sound m ∧ TwoVerts m ∧ m.volus ≠ [] ∧ (∀ e, ¬ EdgeSurf m e 0) ∧ (∀ f ∈ m.surfs, f.edgeind ≠ []) ∧
    m.forceClose = .ok r ∧ ¬ Sound r := by
  obtain ⟨r, hr⟩ : ∃ r, twoLoops.forceClose = .ok r := by
    have h : (twoLoops.forceClose).isOk = true := by decide +kernel
    cases hc : twoLoops.forceClose with
    | ok r => exact ⟨r, rfl⟩
    | error e => rw [hc] at h; cases h
  refine ⟨twoLoops, r, sound_of_checked (by decide +kernel), by unfold TwoVerts; decide +kernel, by decide,
    noZero_of_checked (by decide +kernel), by decide +kernel, hr, fun h => ?_⟩
  have hd : (∃ c ∈ r.volus, c.index = 1 ∧ (1 : Int) ∈ c.surfind) ∧ (∃ f ∈ r.surfs, f.index = 1) ∧
      ∀ f ∈ r.surfs, f.index = 1 → (1 : Int) ∉ f.voluind := by
    have : (twoLoops.forceClose.map fun r => decide ((∃ c ∈ r.volus, c.index = 1 ∧ (1 : Int) ∈ c.surfind) ∧ (∃ f ∈ r.surfs, f.index = 1) ∧
      ∀ f ∈ r.surfs, f.index = 1 → (1 : Int) ∉ f.voluind)) = .ok true := by decide +kernel
    rw [hr] at this
    simpa [Except.map] using this
  obtain ⟨h1, h2, h3⟩ := hd
  have hvol : HasVolu r 1 := by
    obtain ⟨c, hc, hci, _⟩ := h1
    exact ⟨c, hc, hci⟩
  obtain ⟨f, hf, hfi, hfv⟩ := (h.sym.surfVolu 1 1 h2 hvol).2 h1
  exact h3 f hf hfi hfv

/-- A tetrahedron and an edge which is on no surface. -/
def spikeTet : Mesh :=
  { tetra with
    verts := tetra.verts ++ [⟨5, [7], [3, 3, 3], false⟩, ⟨6, [7], [4, 4, 4], false⟩]
    edges := tetra.edges ++ [⟨7, [5, 6], [0], false⟩] }

/-- C128 fails for an edge which lists the outside as a surface: the surface is searched for, not found, and the result -1 is used as a
position. -/
theorem C128_zero_violated : ∃ m, Sound m ∧ TwoVerts m ∧ m.volus ≠ [] ∧ SurfJoined m ∧ (∀ f ∈ m.surfs, f.edgeind ≠ []) ∧
    m.forceClose = .error .ub := by
  have hs : Sound spikeTet := sound_of_checked (by decide +kernel)
  have hq : ∀ f ∈ spikeTet.surfs, ∃ w, RingFace spikeTet f w := rings_of_checked apartCorners (by decide +kernel)
  refine ⟨spikeTet, hs, by unfold TwoVerts; decide +kernel, by decide, (C128_rings _ hs hq).1, (C128_rings _ hs hq).2, ?_⟩
  decide +kernel

end RSVS.Props
