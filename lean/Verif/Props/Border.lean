import Verif.Lemmas.Border
import Verif.Props.Mesh

/-!
# Properties of the border marks: C22 and C62
-/

namespace RSVS.Props

open RSVS.Spec RSVS.Mesh

/-! ### C22 -/

/-- C22 in three dimensions: `SetBorders` ends without an error, changes nothing but marks, and
marks a surface iff one of its volumes is the outside, an edge iff it has such a surface, a vertex
iff it has such an edge, and a volume iff it has such a surface or such a vertex. -/
theorem C22_borders_3d (m : Mesh) (hm : Sound m) (h3 : m.volus ≠ [])
    (h0 : ∀ e, ¬ EdgeSurf m e 0) : ∃ m', setBorders m = .ok m' ∧ Marked3 m m' :=
  setBorders_ok3 hm h3 h0

/-- C22 in two dimensions: the outside is the surface 0 of an edge. -/
theorem C22_borders_2d (m : Mesh) (hm : Sound m) (h3 : m.volus = []) :
    ∃ m', setBorders m = .ok m' ∧ Marked2 m m' ∧ ∀ c, ¬ VoluMarked m' c := by
  obtain ⟨m', h1, h2⟩ := setBorders_ok2 hm h3
  refine ⟨m', h1, h2, ?_⟩
  have hv : m'.volus = [] := by
    have := congrArg (fun x => x.volus.length) h2.same
    simp only [unmarked, List.length_map, h3, List.length_nil] at this
    exact List.length_eq_zero_iff.mp this
  rintro c ⟨x, hx, _⟩
  rw [hv] at hx
  cases hx

/-- The result does not depend on the marks before: meshes which differ in their marks only are
marked alike. -/
theorem C22_previous_marks (a b : Mesh) (ha : Sound a) (h : unmarked a = unmarked b)
    (h0 : a.volus ≠ [] → ∀ e, ¬ EdgeSurf a e 0) : setBorders a = setBorders b := by
  have hs : SameUnmarked b a := h.symm
  have hb : Sound b := hs.sound ha
  have hlen : a.volus.length = b.volus.length := by
    have := congrArg (fun x => x.volus.length) h
    simpa [unmarked] using this
  by_cases hc : a.volus = []
  · have hc' : b.volus = [] := by
      rw [hc] at hlen; exact List.length_eq_zero_iff.mp hlen.symm
    obtain ⟨a', a1, a2⟩ := setBorders_ok2 ha hc
    obtain ⟨b', b1, b2⟩ := setBorders_ok2 hb hc'
    rw [a1, b1]
    congr 1
    have hoe : ∀ e, OutEdge2 b e ↔ OutEdge2 a e := fun e => hs.edgeSurf
    have hov : ∀ v, OutVert2 b v ↔ OutVert2 a v := fun v => by
      unfold OutVert2; simp only [hs.vertEdge, hoe]
    have hsv : ∀ s v, SurfVert b s v ↔ SurfVert a s v := fun s v => by
      unfold SurfVert; simp only [hs.surfEdge, hs.edgeVert]
    have sa : SameUnmarked a' a := a2.same
    have sb : SameUnmarked b' b := b2.same
    have va : a'.volus = [] := by
      have := congrArg (fun x => x.volus.length) a2.same
      simp only [unmarked, List.length_map, hc, List.length_nil] at this
      exact List.length_eq_zero_iff.mp this
    have vb : b'.volus = [] := by
      have := congrArg (fun x => x.volus.length) b2.same
      simp only [unmarked, List.length_map, hc', List.length_nil] at this
      exact List.length_eq_zero_iff.mp this
    apply mesh_eq_of_marks (sa.unique ha.unique)
      ((a2.same.trans h).trans b2.same.symm : unmarked a' = unmarked b')
    · intro i; rw [a2.vert, b2.vert, hov]
    · intro i; rw [a2.edge, b2.edge, hoe]
    · intro i
      rw [a2.surf, b2.surf]
      simp only [hs.surfEdge, hoe, hov, hsv]
    · intro i; unfold VoluMarked; rw [va, vb]
  · have hc' : b.volus ≠ [] := by
      intro hb'
      rw [hb'] at hlen
      exact hc (List.length_eq_zero_iff.mp hlen)
    have h0b : ∀ e, ¬ EdgeSurf b e 0 := fun e => by rw [hs.edgeSurf]; exact h0 hc e
    obtain ⟨a', a1, a2⟩ := setBorders_ok3 ha hc (h0 hc)
    obtain ⟨b', b1, b2⟩ := setBorders_ok3 hb hc' h0b
    rw [a1, b1]
    congr 1
    have hos : ∀ s, OutSurf3 b s ↔ OutSurf3 a s := fun s => hs.surfVolu
    have hoe : ∀ e, OutEdge3 b e ↔ OutEdge3 a e := fun e => by
      unfold OutEdge3; simp only [hs.edgeSurf, hos]
    have hov : ∀ v, OutVert3 b v ↔ OutVert3 a v := fun v => by
      unfold OutVert3; simp only [hs.vertEdge, hoe]
    have hcv : ∀ c v, VoluVert b c v ↔ VoluVert a c v := fun c v => by
      unfold VoluVert; simp only [hs.voluSurf, hs.surfEdge, hs.edgeVert]
    have sa : SameUnmarked a' a := a2.same
    apply mesh_eq_of_marks (sa.unique ha.unique)
      ((a2.same.trans h).trans b2.same.symm : unmarked a' = unmarked b')
    · intro i; rw [a2.vert, b2.vert, hov]
    · intro i; rw [a2.edge, b2.edge, hoe]
    · intro i; rw [a2.surf, b2.surf, hos]
    · intro i
      rw [a2.volu, b2.volu]
      simp only [hs.voluSurf, hos, hov, hcv]

/-- A second call changes nothing. -/
theorem C22_idempotent (m m' : Mesh) (hm : Sound m) (h0 : m.volus ≠ [] → ∀ e, ¬ EdgeSurf m e 0)
    (h : setBorders m = .ok m') : setBorders m' = .ok m' := by
  have hs : unmarked m' = unmarked m := by
    by_cases hc : m.volus = []
    · obtain ⟨x, h1, h2⟩ := setBorders_ok2 hm hc
      rw [h] at h1; cases h1; exact h2.same
    · obtain ⟨x, h1, h2⟩ := setBorders_ok3 hm hc (h0 hc)
      rw [h] at h1; cases h1; exact h2.same
  rw [← C22_previous_marks m m' hm hs.symm h0]
  exact h

/-- In a mesh with volumes an edge which lists the surface 0 makes `SetBorders` throw, unless a
border surface comes before it in the list. -/
theorem C22_edge_without_surface (m : Mesh) (h3 : m.volus ≠ []) (hm : Sound m) (x : Edge)
    (hx : x ∈ m.edges) (rest : List Int) (hl : x.surfind = 0 :: rest) :
    ∃ f, setBorders m = .error f := by
  cases hr : setBorders m with
  | error f => exact ⟨f, rfl⟩
  | ok m' =>
    exfalso
    unfold setBorders at hr
    rw [if_pos (by cases hc : m.volus with | nil => exact absurd hc h3 | cons a l => simp)] at hr
    obtain ⟨m1, h1, _⟩ := bind_ok_iff.mp hr
    unfold setBorders3 at h1
    obtain ⟨surfs, hs, h1⟩ := bind_ok_iff.mp h1
    obtain ⟨volus, _, h1⟩ := bind_ok_iff.mp h1
    obtain ⟨edges, he, h1⟩ := bind_ok_iff.mp h1
    have hno : ∀ s ∈ surfs, s.index ≠ 0 := by
      obtain ⟨g, g1, _⟩ := markAll_ok (l := m.surfs)
        (set := fun (s : Surf) b => { s with isBorder := b })
        (f := fun s => anyHit (fun c => .ok (c == 0)) s.voluind) (fun s _ => by
          obtain ⟨b, hb, _⟩ := anyHit_ok (f := fun c => .ok (c == 0)) (l := s.voluind)
            (fun x _ => ⟨_, rfl⟩)
          exact ⟨b, hb⟩)
      rw [g1] at hs
      cases hs
      intro s hsm
      obtain ⟨y, hy, rfl⟩ := List.mem_map.mp hsm
      have : 0 < y.index := hm.pos.surfs _ ⟨y, hy, rfl⟩
      show y.index ≠ 0
      omega
    have hp : posOf Surf.index surfs 0 = -1 := by
      rcases posOf_cases (ix := Surf.index) surfs 0 with ⟨hp, _⟩ | ⟨k, _, hk, hk'⟩
      · exact hp
      · exact absurd hk' (hno _ (List.getElem_mem hk))
    have key : ∀ l : List Edge, x ∈ l → ∀ r, markAll (fun e => anyHit (surfBorder surfs) e.surfind)
        (fun (e : Edge) b => { e with isBorder := b }) l = .ok r → False := by
      intro l
      induction l with
      | nil => intro h; cases h
      | cons a l ih =>
        intro h r hr
        unfold markAll at hr
        rw [List.mapM_cons] at hr
        obtain ⟨y, hy, hr⟩ := bind_ok_iff.mp hr
        obtain ⟨ys, hys, _⟩ := bind_ok_iff.mp hr
        rcases List.mem_cons.mp h with rfl | h
        · obtain ⟨b, hb, _⟩ := bind_ok_iff.mp hy
          have hb : anyHit (surfBorder surfs) x.surfind = .ok b := hb
          rw [hl] at hb
          unfold anyHit surfBorder at hb
          rw [hp] at hb
          cases hb
        · exact ih h ys hys
    exact key m.edges hx edges he

/-- A tetrahedron cut into four by a vertex inside it. -/
def splitTetra : Mesh where
  verts := [⟨1, [1, 2, 3, 4], [0, 0, 0], false⟩,
            ⟨2, [1, 5, 6, 7], [4, 0, 0], false⟩,
            ⟨3, [2, 5, 8, 9], [0, 4, 0], false⟩,
            ⟨4, [3, 6, 8, 10], [0, 0, 4], false⟩,
            ⟨5, [4, 7, 9, 10], [1, 1, 1], false⟩]
  edges := [⟨1, [1, 2], [1, 2, 3], false⟩,
            ⟨2, [1, 3], [1, 4, 5], false⟩,
            ⟨3, [1, 4], [2, 4, 6], false⟩,
            ⟨4, [1, 5], [3, 5, 6], false⟩,
            ⟨5, [2, 3], [1, 7, 8], false⟩,
            ⟨6, [2, 4], [2, 7, 9], false⟩,
            ⟨7, [2, 5], [3, 8, 9], false⟩,
            ⟨8, [3, 4], [4, 7, 10], false⟩,
            ⟨9, [3, 5], [5, 8, 10], false⟩,
            ⟨10, [4, 5], [6, 9, 10], false⟩]
  surfs := [{ index := 1, edgeind := [1, 2, 5], voluind := [1, 0] },
            { index := 2, edgeind := [1, 3, 6], voluind := [2, 0] },
            { index := 3, edgeind := [1, 4, 7], voluind := [1, 2] },
            { index := 4, edgeind := [2, 3, 8], voluind := [3, 0] },
            { index := 5, edgeind := [2, 4, 9], voluind := [1, 3] },
            { index := 6, edgeind := [3, 4, 10], voluind := [2, 3] },
            { index := 7, edgeind := [5, 6, 8], voluind := [4, 0] },
            { index := 8, edgeind := [5, 7, 9], voluind := [1, 4] },
            { index := 9, edgeind := [6, 7, 10], voluind := [2, 4] },
            { index := 10, edgeind := [8, 9, 10], voluind := [3, 4] }]
  volus := [{ index := 1, surfind := [1, 3, 5, 8] },
            { index := 2, surfind := [2, 3, 6, 9] },
            { index := 3, surfind := [4, 5, 6, 10] },
            { index := 4, surfind := [7, 8, 9, 10] }]
  meshDim := 3

theorem splitTetra_sound : Sound splitTetra := sound_of_checked (by decide +kernel)

theorem splitTetra_no0 : ∀ e, ¬ EdgeSurf splitTetra e 0 := by
  have h : ∀ x ∈ splitTetra.edges, (0 : Int) ∉ x.surfind := by decide +kernel
  rintro e ⟨x, hx, _, h0⟩
  exact h x hx h0

/-- Vertex 5, the edges and the surfaces which meet there are not marked; everything else is. -/
example : ∃ m', setBorders splitTetra = .ok m' ∧ Marked3 splitTetra m' ∧
    ¬ VertMarked m' 5 ∧ VertMarked m' 1 ∧ VoluMarked m' 1 ∧ EdgeMarked m' 1 ∧ ¬ EdgeMarked m' 10 := by
  obtain ⟨m', h1, h2⟩ := C22_borders_3d splitTetra splitTetra_sound (by decide) splitTetra_no0
  refine ⟨m', h1, h2, ?_, ?_, ?_, ?_, ?_⟩ <;>
  · rw [show m' = (match setBorders splitTetra with | .ok x => x | .error _ => splitTetra) by
      rw [h1]]
    simp only [VertMarked, EdgeMarked, VoluMarked]
    decide +kernel

/-- Stale marks: all elements marked before. -/
example : setBorders { splitTetra with
      verts := splitTetra.verts.map (fun x => { x with isBorder := true }) } =
    setBorders splitTetra :=
  C22_previous_marks _ _ (SameUnmarked.sound (m := splitTetra)
      (by show unmarked _ = unmarked _; decide +kernel) splitTetra_sound)
    (by decide +kernel) (fun _ => splitTetra_no0)

/-- Two dimensions: triangle 2 has no edge on the border, but a vertex. -/
def vertexOnly : Mesh where
  verts := [⟨1, [1, 2, 3], [0, 0, 0], false⟩, ⟨2, [2, 4], [1, 0, 0], false⟩,
            ⟨3, [3, 4], [0, 1, 0], false⟩, ⟨4, [1], [0, 0, 0], false⟩]
  edges := [⟨1, [1, 4], [1, 0], false⟩, ⟨2, [1, 2], [2, 3], false⟩, ⟨3, [1, 3], [2, 3], false⟩,
            ⟨4, [2, 3], [2, 3], false⟩]
  surfs := [{ index := 1, edgeind := [1], voluind := [] },
            { index := 2, edgeind := [2, 3, 4], voluind := [] },
            { index := 3, edgeind := [2, 3, 4], voluind := [] }]
  volus := []
  meshDim := 2

theorem vertexOnly_sound : Sound vertexOnly := sound_of_checked (by decide +kernel)

example : ∃ m', setBorders vertexOnly = .ok m' ∧ Marked2 vertexOnly m' ∧ SurfMarked m' 2 ∧
    VertMarked m' 1 ∧ ¬ VertMarked m' 2 := by
  obtain ⟨m', h1, h2, _⟩ := C22_borders_2d vertexOnly vertexOnly_sound rfl
  refine ⟨m', h1, h2, ?_, ?_, ?_⟩ <;>
  · rw [show m' = (match setBorders vertexOnly with | .ok x => x | .error _ => vertexOnly) by
      rw [h1]]
    simp only [VertMarked, SurfMarked]
    decide +kernel

/-- An edge without a surface in a mesh with a volume. -/
example : ∃ f, setBorders { tetra with edges := ⟨7, [], [0], false⟩ :: tetra.edges } = .error f :=
  C22_edge_without_surface _ (by decide) (sound_of_checked (by decide +kernel)) ⟨7, [], [0], false⟩
    (by simp) [] rfl

/-! ### C62 -/

/-- C62: `GetOffBorderVert` returns the indices of the marked volumes asked for, each once and in
the order of the mesh, and exactly the vertices of these volumes which are not marked. -/
theorem C62_off_border_partial (m : Mesh) (hm : Sound m) (outer : Int) (eps : ℚ) (vals : Int → List ℚ)
    (ho : outer = -1 ∨ outer = 0 ∨ outer = 1) :
    ∃ vs cs, getOffBorderVert3D m outer eps vals = .ok (vs, cs) ∧
      cs.Sublist (m.volus.map Volu.index) ∧
      (∀ c, c ∈ cs ↔ VoluMarked m c ∧ Wanted outer eps (vals c)) ∧
      (∀ v, v ∈ vs ↔ ∃ c ∈ cs, VoluVert m c v ∧ ¬ VertMarked m v) :=
  getOffBorderVert3D_ok hm ho

/-- Any other value of `outerVolume` throws as soon as there is a marked volume. -/
theorem C62_unknown_outer (m : Mesh) (outer : Int) (eps : ℚ) (vals : Int → List ℚ)
    (ho : outer ≠ -1 ∧ outer ≠ 0 ∧ outer ≠ 1) (c : Int) (hc : VoluMarked m c) :
    getOffBorderVert3D m outer eps vals = .error .throws :=
  getOffBorderVert3D_unknown ho hc

/-- After `SetBorders`: a vertex returned touches no outside surface and belongs to a volume at the
border. -/
theorem C62_after_borders (m m' : Mesh) (hm : Sound m) (h3 : m.volus ≠ [])
    (h0 : ∀ e, ¬ EdgeSurf m e 0) (h : setBorders m = .ok m') (eps : ℚ) (vals : Int → List ℚ) :
    ∃ vs cs, getOffBorderVert3D m' (-1) eps vals = .ok (vs, cs) ∧
      (∀ v, v ∈ vs ↔ (¬ OutVert3 m v ∧ ∃ c, VoluVert m c v ∧
        ((∃ s, VoluSurf m c s ∧ OutSurf3 m s) ∨ ∃ w, VoluVert m c w ∧ OutVert3 m w))) := by
  obtain ⟨x, h1, h2⟩ := setBorders_ok3 hm h3 h0
  rw [h] at h1; cases h1
  have hs : SameUnmarked m' m := h2.same
  obtain ⟨vs, cs, g1, _, g3, g4⟩ := C62_off_border_partial m' (hs.sound hm) (-1) eps vals (Or.inl rfl)
  refine ⟨vs, cs, g1, ?_⟩
  intro v
  have hcv : ∀ c v, VoluVert m' c v ↔ VoluVert m c v := fun c v => by
    unfold VoluVert; simp only [hs.voluSurf, hs.surfEdge, hs.edgeVert]
  rw [g4]
  simp only [g3, h2.volu, h2.vert, hcv]
  constructor
  · rintro ⟨c, ⟨hc, _⟩, hv, hn⟩; exact ⟨hn, c, hv, hc⟩
  · rintro ⟨hn, c, hv, hc⟩; exact ⟨c, ⟨hc, Or.inl rfl⟩, hv, hn⟩

/-- C62 does not hold for the overload which is not `const`: it calls itself without end.  No
number of nested calls is enough, whatever the mesh. -/
theorem C62_nonconst_violated (m : Mesh) (borderIsSet : Bool) (depth : Nat) (r : List Int × List Int) :
    getOffBorderVertNonConst depth m borderIsSet ≠ .ok r := by
  induction depth generalizing m borderIsSet with
  | zero => unfold getOffBorderVertNonConst; simp
  | succ n ih =>
    unfold getOffBorderVertNonConst
    cases borderIsSet with
    | true => exact ih m true
    | false =>
      simp only [Bool.false_eq_true, if_false]
      intro h
      obtain ⟨m', _, h2⟩ := bind_ok_iff.mp h
      exact ih m' true h2

/-- The mesh above after `SetBorders`: vertex 5 is found from volumes 1 to 4. -/
example : ((setBorders splitTetra >>= fun m => getOffBorderVert3D m (-1) (1 / 4503599627370496)
    (fun _ => [])).map (fun r => (r.1.dedup, r.2))) = .ok ([5], [1, 2, 3, 4]) := by decide +kernel

example : ((setBorders splitTetra >>= fun m => getOffBorderVert3D m 0 (1 / 4503599627370496)
    (fun c => if c = 2 then [1 / 2, 1] else [1 / 2])).map (fun r => (r.1.dedup, r.2))) =
    .ok ([5], [2]) := by decide +kernel

example : (setBorders splitTetra >>= fun m => getOffBorderVert3D m 7 1 (fun _ => [])) =
    .error .throws := by decide +kernel

end RSVS.Props
