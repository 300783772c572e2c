import Mathlib.Tactic.NormNum
import Verif.Lemmas.PointCell
import Verif.Props.Mesh

/-!
# The volume in which a point lies
-/

namespace RSVS.Props

open RSVS RSVS.Mesh RSVS.Spec RSVS.PointCell RSVS.Geo

variable {K : Type} [Field K] [LinearOrder K] [IsStrictOrderedRing K]

/-- C124: in a sound convex mesh with flat, bounded volumes of which the surfaces have their first edges all along or all against
the ring, and if in the second case the first point is inside of the mesh, each number which `mesh::VertexInVolume` gives is right:
the point is in the volume (up to the tolerance), or it is in none and the number is 0. -/
theorem C124_points_partial {m : Mesh} (hm : Sound m) {near : Int → Int → Bool} {co : Int → P3 K} {fw : Bool} {w : Int → Nat → Int}
    (hf : FacesAlong m near co fw w) {eps : K} (he : 0 < eps) (hb : Bounded m co w eps) (hx : ConvexMesh m co w) {l : List K}
    {size : Nat} (h1 : fw = true ∨ ∃ c, InCell m co w 0 c (ptAt l size 0)) {rs : List Int}
    (h : pointsInVolumes m near co eps l size = .ok rs) :
    rs.length = l.length / size ∧ ∀ i r, rs[i]? = some r → RightCell m co w eps (ptAt l size i) r :=
  points_right hm hf he hb hx h1 h

/-- C124: in such a mesh the search for a point gives a number or fails with an exception; it does not fail if there is only one
volume. -/
theorem C124_defined_partial {m : Mesh} (hm : Sound m) {near : Int → Int → Bool} {co : Int → P3 K} {fw : Bool} {w : Int → Nat → Int}
    (hf : FacesAlong m near co fw w) {eps : K} (he : 0 < eps) (hb : Bounded m co w eps) (flip : Bool) (x : P3 K) :
    (∃ r, pointInVolume m near co eps flip [x 0, x 1, x 2] = .ok r) ∨
      (pointInVolume m near co eps flip [x 0, x 1, x 2] = .error .throws ∧ 1 < m.volus.length) := by
  unfold pointInVolume
  split
  · exact .inl ⟨0, rfl⟩
  · rename_i v vs hv
    have hin : v ∈ m.volus := by rw [hv]; simp
    rcases walk_run hm hf he hb flip x (n := m.volus.length) (alt := none) ⟨v, hin, rfl⟩ with h | ⟨h, h0 | ⟨d, ⟨v', hv', hi'⟩, hd⟩⟩
    · exact .inl h
    · rw [hv] at h0
      cases h0
    · refine .inr ⟨h, ?_⟩
      rw [hv] at hv' ⊢
      rcases List.mem_cons.1 hv' with rfl | hv'
      · exact absurd hi'.symm hd
      · have := List.length_pos_of_mem hv'
        simp only [List.length_cons]
        omega

omit [IsStrictOrderedRing K] in
/-- C124: a surface on which no three points are apart from each other tells nothing about the point; the volume to go on with is
the other volume of the surface. -/
theorem C124_degenerate_partial {m : Mesh} (hm : Sound m) {near : Int → Int → Bool} {co : Int → P3 K} {eps : K} {flip : Bool}
    {x : List K} {f : Surf} (hf : f ∈ m.surfs) (ho : f.isordered = true) (h3 : 3 ≤ f.edgeind.length) {p : List Int}
    (hp : Curv.threePoints m near f.index = .ok p) (hl : p.length ≠ 3) {a b c : Int} (hv : f.voluind = [a, b]) (hab : a ≠ b)
    (hc : c ∈ f.voluind) : ∃ o, o ∈ f.voluind ∧ o ≠ c ∧ lookAt m near co eps flip x c f.index = .ok (.flat o) := by
  unfold lookAt
  rw [Smooth.isearch_self hm.unique.surfs hf]
  simp only [Except.bind]
  rw [if_neg (by rw [ho]; simp), if_neg (by omega), hp]
  simp only [Except.bind]
  rw [if_pos hl]
  rw [hv] at hc ⊢
  simp only [List.mem_cons, List.not_mem_nil, or_false] at hc
  rcases hc with rfl | rfl
  · exact ⟨b, by simp, hab.symm, by simp [vecGet, Except.map]⟩
  · exact ⟨a, by simp, hab, by simp [vecGet, Except.map, hab]⟩

/-- Two tetrahedra on a common face; the edges are stored from the first vertex to the second, or the other way round where `rev`
says so. -/
def twinTet (rev : Int → Bool) : Mesh :=
  let ed : Int → Int → Int → List Int → Edge := fun i a b ss => ⟨i, if rev i then [b, a] else [a, b], ss, true⟩
  { verts := [⟨1, [1, 3, 4, 7], [0, 0, 0], true⟩, ⟨2, [1, 2, 5, 9], [1, 0, 0], true⟩, ⟨3, [2, 3, 6, 8], [0, 1, 0], true⟩,
      ⟨4, [4, 5, 6], [0, 0, 1], true⟩, ⟨5, [7, 8, 9], [0, 0, -1], true⟩]
    edges := [ed 1 1 2 [1, 2, 5], ed 2 2 3 [1, 4, 7], ed 3 1 3 [1, 3, 6], ed 4 1 4 [2, 3], ed 5 2 4 [2, 4], ed 6 3 4 [3, 4],
      ed 7 1 5 [5, 6], ed 8 3 5 [6, 7], ed 9 2 5 [5, 7]]
    surfs := [{ index := 1, edgeind := [3, 2, 1], voluind := [1, 2], isordered := true },
      { index := 2, edgeind := [1, 5, 4], voluind := [1, 0], isordered := true },
      { index := 3, edgeind := [4, 6, 3], voluind := [1, 0], isordered := true },
      { index := 4, edgeind := [2, 6, 5], voluind := [1, 0], isordered := true },
      { index := 5, edgeind := [7, 9, 1], voluind := [2, 0], isordered := true },
      { index := 6, edgeind := [8, 7, 3], voluind := [2, 0], isordered := true },
      { index := 7, edgeind := [9, 8, 2], voluind := [2, 0], isordered := true }]
    volus := [{ index := 1, surfind := [1, 2, 3, 4] }, { index := 2, surfind := [1, 5, 6, 7] }]
    meshDim := 3 }

/-- The corners of its surfaces, in order. -/
def twinRing : Int → List Int
  | 1 => [1, 3, 2, 1]
  | 2 => [1, 2, 4, 1]
  | 3 => [1, 4, 3, 1]
  | 4 => [2, 3, 4, 2]
  | 5 => [1, 5, 2, 1]
  | 6 => [3, 5, 1, 3]
  | _ => [2, 5, 3, 2]

def twinW (s : Int) (k : Nat) : Int := (twinRing s).getD k 0

/-- The coordinates of its vertices. -/
def twinCo : Int → P3 ℚ
  | 2 => fun i => if i = 0 then 1 else 0
  | 3 => fun i => if i = 1 then 1 else 0
  | 4 => fun i => if i = 2 then 1 else 0
  | 5 => fun i => if i = 2 then -1 else 0
  | _ => fun _ => 0

theorem twinTet_sound (b : Bool) : Sound (twinTet fun _ => b) := by
  cases b
  · exact sound_of_checked (by decide +kernel)
  · exact sound_of_checked (by decide +kernel)

/-- Outside of the surfaces. -/
def twinOut : Int → P3 ℚ → ℚ
  | 1, x => -x 2
  | 2, x => -x 1
  | 3, x => -x 0
  | 4, x => x 0 + x 1 + x 2 - 1
  | 5, x => -x 1
  | 6, x => -x 0
  | _, x => x 0 + x 1 - x 2 - 1

theorem twin_vol (s : Int) (hs : s = 1 ∨ s = 2 ∨ s = 3 ∨ s = 4 ∨ s = 5 ∨ s = 6 ∨ s = 7) (x : P3 ℚ) :
    sixVol (twinCo (twinW s 0)) (twinCo (twinW s 1)) (twinCo (twinW s 2)) x = twinOut s x := by
  rcases hs with rfl | rfl | rfl | rfl | rfl | rfl | rfl <;>
    simp [sixVol, twinW, twinRing, twinCo, twinOut] <;> ring

theorem twin_faces (b : Bool) : FacesAlong (twinTet fun _ => b) (fun a c => decide (a = c)) twinCo (!b) twinW := by
  have hi : ∀ f ∈ (twinTet fun _ => b).surfs, f.index = 1 ∨ f.index = 2 ∨ f.index = 3 ∨ f.index = 4 ∨ f.index = 5 ∨ f.index = 6 ∨
      f.index = 7 := by cases b <;> decide +kernel
  have h3 : ∀ f ∈ (twinTet fun _ => b).surfs, f.edgeind.length = 3 := by cases b <;> decide +kernel
  have key : ∀ f ∈ (twinTet fun _ => b).surfs, f.isordered = true ∧
      (∀ k < f.edgeind.length, ∃ x ∈ (twinTet fun _ => b).edges, x.index = f.edgeind.getD k 0 ∧
        (x.vertind = [twinW f.index k, twinW f.index (k + 1)] ∨ x.vertind = [twinW f.index (k + 1), twinW f.index k])) ∧
      twinW f.index f.edgeind.length = twinW f.index 0 ∧
      (∀ i < f.edgeind.length, ∀ j < f.edgeind.length, twinW f.index i = twinW f.index j → i = j) ∧
      (∀ e ∈ (twinTet fun _ => b).edges, f.edgeind.head? = some e.index →
        e.vertind = if !b then [twinW f.index 0, twinW f.index 1] else [twinW f.index 1, twinW f.index 0]) ∧
      f.voluind = [f.voluind.getD 0 0, f.voluind.getD 1 0] ∧ f.voluind.getD 0 0 ≠ f.voluind.getD 1 0 := by
    cases b <;> decide +kernel
  refine ⟨fun f hf => ?_, fun f hf => (key f hf).1, fun f hf => ?_, fun f hf i j hi hj hn => ?_, fun f hf k h2 hk => ?_,
    fun f hf => ?_, fun f hf => (key f hf).2.2.2.2.1⟩
  · obtain ⟨-, k2, k3, k4, -⟩ := key f hf
    refine ⟨by rw [h3 f hf], fun k e hk => ?_, k3, fun i j hi hj => k4 i hi j hj⟩
    obtain ⟨hlt, rfl⟩ := List.getElem?_eq_some_iff.1 hk
    obtain ⟨x, hx, g1, g2⟩ := k2 k hlt
    rw [List.getD_eq_getElem?_getD, List.getElem?_eq_getElem hlt] at g1
    exact ⟨x, hx, g1, g2⟩
  · exact ⟨_, _, (key f hf).2.2.2.2.2.1, (key f hf).2.2.2.2.2.2⟩
  · simp only [decide_eq_false_iff_not]
    exact fun h => hn ((key f hf).2.2.2.1 i hi j hj h)
  · rw [h3 f hf] at hk
    obtain rfl : k = 2 := by omega
    exact ⟨1, one_pos, fun x => (one_mul _).symm⟩
  · refine ⟨fun i => if i = 0 then 7 else if i = 1 then 5 else 3, ?_⟩
    have h7 := hi f hf
    rw [twin_vol _ h7]
    rcases h7 with h | h | h | h | h | h | h <;> rw [h] <;> decide +kernel

theorem twin_beyond {b : Bool} {f : Surf} (hf : f ∈ (twinTet fun _ => b).surfs) (c : Int) (x : P3 ℚ) :
    beyond twinCo (twinW f.index) f c x = (if f.voluind.head? = some c then 1 else -1) * twinOut f.index x := by
  unfold beyond
  rw [twin_vol]
  revert f
  cases b <;> decide +kernel

theorem twin_bounded (b : Bool) : Bounded (twinTet fun _ => b) twinCo twinW (1 / 100) := by
  rintro c ⟨v, hv, rfl⟩ x
  have hv : v.index = 1 ∨ v.index = 2 := by
    revert v
    cases b <;> decide +kernel
  by_contra hn
  push Not at hn
  have get : ∀ s : Surf, s ∈ (twinTet fun _ => b).surfs → v.index ∈ s.voluind →
      -(1 / 100) < (if s.voluind.head? = some v.index then 1 else -1) * twinOut s.index x := by
    intro s hs h
    rw [← twin_beyond hs]
    exact hn s hs h
  rcases hv with hv | hv <;> rw [hv] at get
  · have g1 := get { index := 1, edgeind := [3, 2, 1], voluind := [1, 2], isordered := true } (by simp [twinTet]) (by simp)
    have g2 := get { index := 2, edgeind := [1, 5, 4], voluind := [1, 0], isordered := true } (by simp [twinTet]) (by simp)
    have g3 := get { index := 3, edgeind := [4, 6, 3], voluind := [1, 0], isordered := true } (by simp [twinTet]) (by simp)
    have g4 := get { index := 4, edgeind := [2, 6, 5], voluind := [1, 0], isordered := true } (by simp [twinTet]) (by simp)
    simp [twinOut] at g1 g2 g3 g4
    linarith
  · have g1 := get { index := 1, edgeind := [3, 2, 1], voluind := [1, 2], isordered := true } (by simp [twinTet]) (by simp)
    have g2 := get { index := 5, edgeind := [7, 9, 1], voluind := [2, 0], isordered := true } (by simp [twinTet]) (by simp)
    have g3 := get { index := 6, edgeind := [8, 7, 3], voluind := [2, 0], isordered := true } (by simp [twinTet]) (by simp)
    have g4 := get { index := 7, edgeind := [9, 8, 2], voluind := [2, 0], isordered := true } (by simp [twinTet]) (by simp)
    simp [twinOut] at g1 g2 g3 g4
    linarith

theorem twin_convex (b : Bool) : ConvexMesh (twinTet fun _ => b) twinCo twinW := by
  rintro c x ⟨⟨v, hv, rfl⟩, hn⟩
  have hv : v.index = 1 ∨ v.index = 2 := by
    clear hn
    revert v
    cases b <;> decide +kernel
  have get : ∀ s : Surf, s ∈ (twinTet fun _ => b).surfs → v.index ∈ s.voluind →
      (if s.voluind.head? = some v.index then 1 else -1) * twinOut s.index x ≤ 0 := by
    intro s hs h
    rw [← twin_beyond hs]
    exact hn s hs h
  have all : -x 1 ≤ 0 ∧ -x 0 ≤ 0 ∧ x 0 + x 1 + x 2 - 1 ≤ 0 ∧ x 0 + x 1 - x 2 - 1 ≤ 0 := by
    rcases hv with hv | hv <;> rw [hv] at get
    · have g1 := get { index := 1, edgeind := [3, 2, 1], voluind := [1, 2], isordered := true } (by simp [twinTet]) (by simp)
      have g2 := get { index := 2, edgeind := [1, 5, 4], voluind := [1, 0], isordered := true } (by simp [twinTet]) (by simp)
      have g3 := get { index := 3, edgeind := [4, 6, 3], voluind := [1, 0], isordered := true } (by simp [twinTet]) (by simp)
      have g4 := get { index := 4, edgeind := [2, 6, 5], voluind := [1, 0], isordered := true } (by simp [twinTet]) (by simp)
      simp [twinOut] at g1 g2 g3 g4
      refine ⟨?_, ?_, ?_, ?_⟩ <;> linarith
    · have g1 := get { index := 1, edgeind := [3, 2, 1], voluind := [1, 2], isordered := true } (by simp [twinTet]) (by simp)
      have g2 := get { index := 5, edgeind := [7, 9, 1], voluind := [2, 0], isordered := true } (by simp [twinTet]) (by simp)
      have g3 := get { index := 6, edgeind := [8, 7, 3], voluind := [2, 0], isordered := true } (by simp [twinTet]) (by simp)
      have g4 := get { index := 7, edgeind := [9, 8, 2], voluind := [2, 0], isordered := true } (by simp [twinTet]) (by simp)
      simp [twinOut] at g1 g2 g3 g4
      refine ⟨?_, ?_, ?_, ?_⟩ <;> linarith
  obtain ⟨a1, a2, a3, a4⟩ := all
  intro f hf h0 d hd hd0
  rw [twin_beyond hf]
  have hcase : (f.index = 2 ∨ f.index = 3 ∨ f.index = 4 ∨ f.index = 5 ∨ f.index = 6 ∨ f.index = 7) ∧ f.voluind.head? = some d := by
    have : ∀ f ∈ (twinTet fun _ => b).surfs, 0 ∈ f.voluind → ∀ d ∈ f.voluind, d ≠ 0 →
        (f.index = 2 ∨ f.index = 3 ∨ f.index = 4 ∨ f.index = 5 ∨ f.index = 6 ∨ f.index = 7) ∧ f.voluind.head? = some d := by
      cases b <;> decide +kernel
    exact this f hf h0 d hd hd0
  rw [if_pos hcase.2, one_mul]
  rcases hcase.1 with h | h | h | h | h | h <;> rw [h] <;> assumption

/-- The results for three points: in the first volume, in the second and outside, in a list of four numbers for each point. -/
example : ∃ rs, pointsInVolumes (twinTet fun _ => true) (fun a c => decide (a = c)) twinCo (1 / 100)
      [1 / 5, 1 / 5, 1 / 5, 9, 1 / 5, 1 / 5, -1 / 5, 9, 1, 1, 1, 9] 4 = .ok rs ∧ rs = [1, 2, 0] ∧
    ∀ i r, rs[i]? = some r → RightCell (twinTet fun _ => true) twinCo twinW (1 / 100)
      (ptAt [1 / 5, 1 / 5, 1 / 5, 9, 1 / 5, 1 / 5, -1 / 5, 9, 1, 1, 1, 9] 4 i) r := by
  have h : pointsInVolumes (twinTet fun _ => true) (fun a c => decide (a = c)) twinCo (1 / 100)
      [1 / 5, 1 / 5, 1 / 5, 9, 1 / 5, 1 / 5, -1 / 5, 9, 1, 1, 1, 9] 4 = .ok [1, 2, 0] := by decide +kernel
  refine ⟨_, h, rfl, (C124_points_partial (twinTet_sound true) (twin_faces true) (by norm_num) (twin_bounded true) (twin_convex true)
    (.inr ⟨1, ⟨_, by simp [twinTet]; exact .inl rfl, rfl⟩, fun f hf hc => ?_⟩) h).2⟩
  rw [twin_beyond hf]
  have : ∀ f ∈ (twinTet fun _ => true).surfs, 1 ∈ f.voluind → (if f.voluind.head? = some 1 then 1 else -1) * twinOut f.index
      (ptAt [1 / 5, 1 / 5, 1 / 5, 9, 1 / 5, 1 / 5, -1 / 5, 9, 1, 1, 1, 9] 4 0) ≤ 0 := by decide +kernel
  exact this f hf hc

example : ∃ r, pointInVolume (twinTet fun _ => false) (fun a c => decide (a = c)) twinCo (1 / 100) true [1 / 5, 1 / 5, 1 / 5] = .ok r := by
  rcases C124_defined_partial (twinTet_sound false) (twin_faces false) (by norm_num) (twin_bounded false) true (fun _ => 1 / 5) with h | h
  · exact h
  · exact ⟨1, by decide +kernel⟩

/-- All points of the mesh are near each other. -/
example : ∃ o, o ∈ [1, (2 : Int)] ∧ o ≠ 1 ∧
    lookAt (twinTet fun _ => false) (fun _ _ => true) twinCo (1 / 100) false [0, 0, 0] 1 1 = .ok (.flat o) :=
  C124_degenerate_partial (twinTet_sound false) (f := { index := 1, edgeind := [3, 2, 1], voluind := [1, 2], isordered := true })
    (by simp [twinTet]) rfl (by simp) (p := []) (by decide +kernel) (by simp) (a := 1) (b := 2) rfl (by decide) (by simp)

/-- C124 fails if the first point is outside of the mesh: the sign is taken from it, and all other points get wrong numbers.  All
conditions on the mesh are met. -/
theorem C124_first_violated : ∃ (m : Mesh) (co : Int → P3 ℚ) (w : Int → Nat → Int) (near : Int → Int → Bool),
    Sound m ∧ FacesAlong m near co false w ∧ Bounded m co w (1 / 100) ∧ ConvexMesh m co w ∧
      pointsInVolumes m near co (1 / 100) [1 / 5, 1 / 5, 1 / 5] 3 = .ok [1] ∧
      pointsInVolumes m near co (1 / 100) [1, 1, 1, 1 / 5, 1 / 5, 1 / 5] 3 = .ok [0, 0] :=
  ⟨twinTet fun _ => true, twinCo, twinW, fun a c => decide (a = c), twinTet_sound true, twin_faces true, twin_bounded true,
    twin_convex true, by decide +kernel, by decide +kernel⟩

/-- C124 fails if the first edges of the surfaces are not stored in the same way: in two meshes which are the same but for the
order of the two vertices of one edge, a point has different numbers. -/
theorem C124_direction_violated : ∃ (m m' : Mesh) (co : Int → P3 ℚ) (near : Int → Int → Bool),
    Sound m ∧ Sound m' ∧ m'.verts = m.verts ∧ m'.surfs = m.surfs ∧ m'.volus = m.volus ∧
      m'.edges.map (fun e => (e.index, e.vertind.reverse)) = (m.edges.map fun e => (e.index, if e.index = 2 then e.vertind else e.vertind.reverse)) ∧
      pointsInVolumes m near co (1 / 100) [1 / 5, 1 / 5, 1 / 5] 3 = .ok [1] ∧
      pointsInVolumes m' near co (1 / 100) [1 / 5, 1 / 5, 1 / 5] 3 = .ok [0] :=
  ⟨twinTet fun _ => false, twinTet fun i => decide (i = 2), twinCo, fun a c => decide (a = c), twinTet_sound false,
    sound_of_checked (by decide +kernel), rfl, rfl, rfl, by decide +kernel, by decide +kernel, by decide +kernel⟩

omit [IsStrictOrderedRing K] in
/-- C124: for an empty list of points, three numbers past its end are read. -/
theorem C124_empty_violated (m : Mesh) (near : Int → Int → Bool) (co : Int → P3 K) (eps : K) :
    pointsInVolumes m near co eps [] 3 = .error .ub := by
  unfold pointsInVolumes readPoint
  simp [Except.bind]

/-- A tetrahedron with a vertex more in the middle of one edge. -/
def splitTet : Mesh where
  verts := [⟨1, [1, 3, 4], [0, 0, 0], true⟩, ⟨2, [1, 2, 5], [1, 0, 0], true⟩, ⟨3, [3, 6, 7], [0, 1, 0], true⟩,
    ⟨4, [4, 5, 6], [0, 0, 1], true⟩, ⟨5, [2, 7], [1 / 2, 1 / 2, 0], true⟩]
  edges := [⟨1, [1, 2], [1, 2], true⟩, ⟨2, [2, 5], [1, 4], true⟩, ⟨3, [1, 3], [1, 3], true⟩, ⟨4, [1, 4], [2, 3], true⟩,
    ⟨5, [2, 4], [2, 4], true⟩, ⟨6, [3, 4], [3, 4], true⟩, ⟨7, [5, 3], [1, 4], true⟩]
  surfs := [{ index := 1, edgeind := [3, 7, 2, 1], voluind := [1, 0], isordered := true },
    { index := 2, edgeind := [1, 5, 4], voluind := [1, 0], isordered := true },
    { index := 3, edgeind := [4, 6, 3], voluind := [1, 0], isordered := true },
    { index := 4, edgeind := [2, 7, 6, 5], voluind := [1, 0], isordered := true }]
  volus := [{ index := 1, surfind := [1, 2, 3, 4] }]
  meshDim := 3

def splitCo : Int → P3 ℚ
  | 2 => fun i => if i = 0 then 1 else 0
  | 3 => fun i => if i = 1 then 1 else 0
  | 4 => fun i => if i = 2 then 1 else 0
  | 5 => fun i => if i = 2 then 0 else 1 / 2
  | _ => fun _ => 0

/-- C124 fails if the first three corners of a surface are on one line: the surface is passed over, and points far outside of it are
found to be in the volume. -/
theorem C124_line_violated : ∃ (m : Mesh) (co : Int → P3 ℚ) (near : Int → Int → Bool) (f : Surf) (w : Nat → Int) (x : P3 ℚ),
    Sound m ∧ f ∈ m.surfs ∧ RingFace m f w ∧ f.voluind = [1, 0] ∧ 1 < sixVol (co (w 0)) (co (w 1)) (co (w 3)) x ∧
      pointsInVolumes m near co (1 / 100) [1 / 5, 1 / 5, 1 / 5, x 0, x 1, x 2] 3 = .ok [1, 1] := by
  refine ⟨splitTet, splitCo, fun a c => decide (a = c), { index := 4, edgeind := [2, 7, 6, 5], voluind := [1, 0], isordered := true },
    fun k => [2, 5, 3, 4, 2].getD k 0, fun _ => 5, sound_of_checked (by decide +kernel), by simp [splitTet], ⟨by simp, ?_, by simp, ?_⟩,
    rfl, by decide +kernel, by decide +kernel⟩
  · intro k e hk
    match k with
    | 0 => simp at hk; subst hk; exact ⟨⟨2, [2, 5], [1, 4], true⟩, by simp [splitTet], rfl, .inl rfl⟩
    | 1 => simp at hk; subst hk; exact ⟨⟨7, [5, 3], [1, 4], true⟩, by simp [splitTet], rfl, .inl rfl⟩
    | 2 => simp at hk; subst hk; exact ⟨⟨6, [3, 4], [3, 4], true⟩, by simp [splitTet], rfl, .inl rfl⟩
    | 3 => simp at hk; subst hk; exact ⟨⟨5, [2, 4], [2, 4], true⟩, by simp [splitTet], rfl, .inr rfl⟩
    | k + 4 => simp at hk
  · intro i j hi hj h
    have : ∀ i < 4, ∀ j < 4, [2, 5, 3, 4, (2 : Int)].getD i 0 = [2, 5, 3, 4, (2 : Int)].getD j 0 → i = j := by decide
    exact this i hi j hj h

end RSVS.Props
