import Verif.Lemmas.InnerPoints
import Verif.Lemmas.Refine
import Verif.Props.Mesh

/-!
# Properties of points in cells: C97
-/

namespace RSVS.Props

open RSVS.Spec RSVS.Mesh RSVS.Geo RSVS.Inner

variable {K : Type} [Field K] [LinearOrder K] [IsStrictOrderedRing K]

/-- The places of the corners of a volume. -/
def CornerAt (m : Mesh) (co : Int → P3 K) (c : Volu) (p : P3 K) : Prop := ∃ v, VoluCorner m c v ∧ p = co v

/-- The places of the corners of a surface. -/
def SurfCornerAt (m : Mesh) (co : Int → P3 K) (f : Surf) (p : P3 K) : Prop := ∃ v, SurfCorner m f v ∧ p = co v

/-- The share of the centre in a point of layer `j` of `n`. -/
def share (K : Type) [Field K] (n j : Nat) : K := ((j : K) + 1) / ((n : K) + 1)

theorem layerPoint_eq {n j : Nat} (hj : j < n) (c p : P3 K) :
    layerPoint n j c p = fun k => share K n j * c k + (1 - share K n j) * p k := by
  have hn : ((n : K) + 1) ≠ 0 := by
    have : (0 : K) ≤ (n : K) := Nat.cast_nonneg n
    linarith
  funext k
  unfold layerPoint share
  rw [Nat.cast_sub hj.le]
  push_cast
  field_simp
  ring

/-- C97: the points in volumes are their centres, then for each volume, each of its corners once and each layer the point that
divides the way from the corner to the centre; all are in the hull of the corners when the centre is.  A negative number of
layers is refused. -/
theorem C97_layers (m : Mesh) (co : Int → P3 K) (cent : Volu → P3 K) (hm : Sound m) :
    (∀ n < 0, volumeLayers m co cent n = .error .throws) ∧
    ∀ n : Nat, ∃ (r : List (P3 K)) (corners : Volu → List Int), volumeLayers m co cent n = .ok r ∧
      (∀ c ∈ m.volus, (corners c).Nodup ∧ ∀ v, v ∈ corners c ↔ VoluCorner m c v) ∧
      r = m.volus.map cent ++ m.volus.flatMap (fun c => (corners c).flatMap fun v => (List.range n).map fun j =>
        fun k => share K n j * cent c k + (1 - share K n j) * co v k) ∧
      ((∀ c ∈ m.volus, InHull (CornerAt m co c) (cent c)) → ∀ p ∈ r, ∃ c ∈ m.volus, InHull (CornerAt m co c) p) := by
  refine ⟨fun n hn => by unfold volumeLayers; rw [if_pos hn], fun n => ?_⟩
  classical
  have hc : ∃ corners : Volu → List Int, ∀ c ∈ m.volus, (cornersOf m c).map sortUnique = .ok (corners c) ∧ (corners c).Nodup ∧
      ∀ v, v ∈ corners c ↔ VoluCorner m c v := by
    refine ⟨fun c => match (cornersOf m c).map sortUnique with | .ok l => l | .error _ => [], fun c hc => ?_⟩
    obtain ⟨l, h1, h2⟩ := cornersOf_ok hm hc
    simp only [h1, Except.map]
    exact ⟨trivial, Order.nodup_sortUnique l, fun v => by rw [mem_sortUnique, h2]⟩
  obtain ⟨corners, hcor⟩ := hc
  have hvol : volumeLayers m co cent n = .ok (m.volus.map cent ++ m.volus.flatMap (fun c => (corners c).flatMap fun v =>
      (List.range n).map fun j => layerPoint n j (cent c) (co v))) := by
    unfold volumeLayers
    rw [if_neg (by omega)]
    rw [Curv.mapM_map (g := fun c => (corners c).flatMap fun v => (List.range n).map fun j => layerPoint n j (cent c) (co v))]
    · rw [Except.map, List.flatMap_def (l := m.volus)]
    · intro c hc
      obtain ⟨h1, h2, h3⟩ := hcor c hc
      obtain ⟨l, k1, k2⟩ := cornersOf_ok hm hc
      rw [k1] at h1 ⊢
      have : sortUnique l = corners c := Except.ok.inj h1
      simp only [Except.bind]
      rw [this, Int.toNat_natCast]
      exact layersOf_ok (fun v hv => corner_has hm ((h3 v).mp hv)) n (cent c)
  refine ⟨_, corners, hvol, fun c hc => (hcor c hc).2, ?_, fun hh p hp => ?_⟩
  · congr 1
    rw [List.flatMap_def, List.flatMap_def]
    congr 1
    apply List.map_congr_left
    intro c _
    rw [List.flatMap_def, List.flatMap_def]
    congr 1
    apply List.map_congr_left
    intro v _
    apply List.map_congr_left
    intro j hj
    exact layerPoint_eq (List.mem_range.mp hj) _ _
  · rcases List.mem_append.mp hp with hp | hp
    · obtain ⟨c, hc, rfl⟩ := List.mem_map.mp hp
      exact ⟨c, hc, hh c hc⟩
    · obtain ⟨c, hc, hp⟩ := List.mem_flatMap.mp hp
      obtain ⟨v, hv, hp⟩ := List.mem_flatMap.mp hp
      obtain ⟨j, hj, rfl⟩ := List.mem_map.mp hp
      exact ⟨c, hc, inHull_layer (List.mem_range.mp hj) (hh c hc) ⟨v, ((hcor c hc).2.2 v).mp hv, rfl⟩⟩

/-- C97 (partial): the points in surfaces are their centres and points on the ways from corners to centres. -/
theorem C97_surface_partial (m : Mesh) (co : Int → P3 K) (cent : Surf → P3 K) (hm : Sound m) (n : Nat)
    (hh : ∀ f ∈ m.surfs, InHull (SurfCornerAt m co f) (cent f)) :
    ∃ r, surfaceLayers m co cent n = .ok r ∧ (∀ p ∈ r, ∃ f ∈ m.surfs, InHull (SurfCornerAt m co f) p) ∧
      (∀ f ∈ m.surfs, cent f ∈ r) ∧
      ∀ f ∈ m.surfs, ∀ v, SurfCorner m f v → ∀ j < n, (fun k => share K n j * cent f k + (1 - share K n j) * co v k) ∈ r := by
  have hc : ∀ f ∈ m.surfs, ∃ r, ((concatField m.edges Edge.vertind (posList Edge.index m.edges f.edgeind)).bind fun l =>
        layersOf m co (n : Int).toNat (cent f) l) = .ok r ∧ (∀ p ∈ r, InHull (SurfCornerAt m co f) p) ∧
        ∀ v, SurfCorner m f v → ∀ j < n, (fun k => share K n j * cent f k + (1 - share K n j) * co v k) ∈ r := by
    intro f hf
    obtain ⟨l, h1, h2⟩ := Refine.concatField_ok (ix := Edge.index) (field := Edge.vertind) (l := m.edges) (ks := f.edgeind)
      (fun e he => hm.noDangling.surfEdge f.index e ⟨f, hf, rfl, he⟩) hm.unique.edges
    have h3 : ∀ v, v ∈ l ↔ SurfCorner m f v := fun v => by
      rw [h2]
      constructor
      · rintro ⟨e, he, hi, hv⟩; exact ⟨e.index, hi, e, he, rfl, hv⟩
      · rintro ⟨i, hi, e, he, rfl, hv⟩; exact ⟨e, he, hi, hv⟩
    have h4 : ∀ v ∈ l, HasVert m v := fun v hv => by
      obtain ⟨e, -, h⟩ := (h3 v).mp hv
      exact hm.noDangling.edgeVert e v h fun h0 => hm.zeroOutside.edgeVert e (h0 ▸ h)
    rw [h1]
    simp only [Except.bind, Int.toNat_natCast]
    rw [layersOf_ok h4]
    refine ⟨_, rfl, fun p hp => ?_, fun v hv j hj => ?_⟩
    · obtain ⟨v, hv, hp⟩ := List.mem_flatMap.mp hp
      obtain ⟨j, hj, rfl⟩ := List.mem_map.mp hp
      exact inHull_layer (List.mem_range.mp hj) (hh f hf) ⟨v, (h3 v).mp hv, rfl⟩
    · rw [← layerPoint_eq hj]
      exact List.mem_flatMap.mpr ⟨v, (h3 v).mpr hv, List.mem_map.mpr ⟨j, List.mem_range.mpr hj, rfl⟩⟩
  obtain ⟨rs, h1, h2⟩ := Lengths.mapM_all m.surfs hc
  refine ⟨m.surfs.map cent ++ rs.flatten, ?_, fun p hp => ?_, fun f hf => ?_, fun f hf v hv j hj => ?_⟩
  · unfold surfaceLayers
    rw [if_neg (by omega), h1]
    rfl
  · rcases List.mem_append.mp hp with hp | hp
    · obtain ⟨f, hf, rfl⟩ := List.mem_map.mp hp
      exact ⟨f, hf, hh f hf⟩
    · obtain ⟨r, hr, hp⟩ := List.mem_flatten.mp hp
      obtain ⟨i, hi, rfl⟩ := List.mem_iff_getElem.mp hr
      have hi' : i < m.surfs.length := by rw [h2.length_eq]; exact hi
      exact ⟨m.surfs[i], List.getElem_mem hi', (h2.get hi' hi).1 p hp⟩
  · exact List.mem_append.mpr (.inl (List.mem_map.mpr ⟨f, hf, rfl⟩))
  · obtain ⟨i, hi, rfl⟩ := List.mem_iff_getElem.mp hf
    have hi' : i < rs.length := by rw [← h2.length_eq]; exact hi
    exact List.mem_append.mpr (.inr (List.mem_flatten.mpr ⟨rs[i], List.getElem_mem hi', (h2.get hi hi').2 v hv j hj⟩))

/-- C97, full statement about `CoordInVolume`: the point of a volume is in the hull of its corners. -/
def C97_inside_statement (K : Type) [Field K] [LinearOrder K] : Prop :=
  ∀ (m : Mesh) (co : Int → P3 K) (c : Volu), Sound m → c ∈ m.volus → (∃ v, VoluCorner m c v) →
    ∃ p, coordInVolume m co c = .ok (some p) ∧ InHull (CornerAt m co c) p

/-- C97, full statement about the number of points in surfaces: one for each surface, corner and layer, and the centres. -/
def C97_surface_statement (K : Type) [Field K] : Prop :=
  ∀ (m : Mesh) (co : Int → P3 K) (cent : Surf → P3 K) (n : Nat) (corners : Surf → List Int), Sound m →
    (∀ f ∈ m.surfs, (corners f).Nodup ∧ ∀ v, v ∈ corners f ↔ SurfCorner m f v) →
    ∃ r, surfaceLayers m co cent n = .ok r ∧ r.length = m.surfs.length + (m.surfs.map fun f => (corners f).length * n).sum

/-- C97 (partial): three times the point that `CoordInVolume` gives is a mean of corners, each at least once, and so in their
hull. -/
theorem C97_inside_partial (m : Mesh) (co : Int → P3 K) (c : Volu) (hm : Sound m) (hc : c ∈ m.volus) (hne : ∃ v, VoluCorner m c v) :
    ∃ p, coordInVolume m co c = .ok (some p) ∧ InHull (CornerAt m co c) (fun k => 3 * p k) ∧
      ∃ l : List Int, (∀ v, v ∈ l ↔ VoluCorner m c v) ∧ ∀ k, p k = (l.map fun v => co v k).sum / (3 * l.length) := by
  obtain ⟨l, h1, h2⟩ := cornersOf_ok hm hc
  have hl : l ≠ [] := by
    obtain ⟨v, hv⟩ := hne
    rintro rfl
    exact absurd ((h2 v).mpr hv) (by simp)
  have hpos : l.length ≠ 0 := fun h => hl (List.eq_nil_of_length_eq_zero h)
  have hK : (l.length : K) ≠ 0 := Nat.cast_ne_zero.mpr hpos
  have heq : coordInVolume m co c = .ok (some fun k => (l.map fun v => co v k).sum / (3 * (l.length : K))) := by
    unfold coordInVolume
    rw [h1]
    simp only [Except.bind]
    rw [coordOf_all (fun v hv => corner_has hm ((h2 v).mp hv))]
    simp only [Except.map]
    rw [coordFold, if_neg (by simp [hpos])]
    congr 2
    funext k
    simp only [List.map_map, Function.comp_def, List.length_map]
    push_cast
    congr 1 <;> ring
  refine ⟨_, heq, ?_, l, h2, fun k => rfl⟩
  have h3 := inHull_mean (ps := l.map co) (S := CornerAt m co c) (by simpa using hl) (fun p hp => by
    obtain ⟨v, hv, rfl⟩ := List.mem_map.mp hp
    exact ⟨v, (h2 v).mp hv, rfl⟩)
  have : (fun k => 3 * ((l.map fun v => co v k).sum / (3 * (l.length : K)))) =
      fun j => ((l.map co).map fun p => p j).sum / ((l.map co).length : K) := by
    funext k
    rw [List.map_map, List.length_map]
    simp only [Function.comp_def]
    field_simp
  rw [this]
  exact h3

/-- The corners of the tetrahedron, away from the origin. -/
def farCo (v : Int) : P3 K := if v = 1 then ![1, 0, 0] else if v = 2 then ![2, 0, 0] else if v = 3 then ![1, 1, 0] else ![1, 0, 1]

/-- The volume of the tetrahedron. -/
def tetraVolu : Volu := { index := 1, surfind := [1, 2, 3, 4] }

theorem tetra_corner (v : Int) : VoluCorner tetra tetraVolu v ↔ v = 1 ∨ v = 2 ∨ v = 3 ∨ v = 4 := by
  obtain ⟨l, h1, h2⟩ := cornersOf_ok tetra_sound (c := tetraVolu) (by simp [tetra, tetraVolu])
  have : cornersOf tetra tetraVolu = .ok [1, 2, 1, 3, 2, 3, 1, 2, 1, 4, 2, 4, 1, 3, 1, 4, 3, 4, 2, 3, 2, 4, 3, 4] := by
    decide +kernel
  rw [this] at h1
  rw [← h2 v, ← Except.ok.inj h1]
  simp only [List.mem_cons, List.not_mem_nil, or_false]
  tauto

/-- C97: the point of a tetrahedron that is away from the origin is outside of it, and points in surfaces are given twice. -/
theorem C97_violated : ¬ C97_inside_statement ℚ ∧ ¬ C97_surface_statement ℚ := by
  constructor
  · intro h
    obtain ⟨p, h1, h2⟩ := h tetra farCo tetraVolu tetra_sound (by simp [tetra, tetraVolu]) ⟨1, (tetra_corner 1).mpr (by simp)⟩
    have hp : (coordInVolume (K := ℚ) tetra farCo tetraVolu).map (fun o => o.map fun p => p 0) = .ok (some (5 / 12)) := by
      decide +kernel
    rw [h1] at hp
    have hp0 : p 0 = 5 / 12 := by simpa [Except.map] using hp
    have := h2 ![-1, 0, 0] (-1) (by
      rintro q ⟨v, hv, rfl⟩
      rcases (tetra_corner v).mp hv with rfl | rfl | rfl | rfl <;> simp [inner_eq, farCo])
    simp [inner_eq, hp0] at this
    norm_num at this
  · intro h
    have hl : (surfaceLayers (K := ℚ) tetra farCo (fun _ _ => 0) 1).map List.length = .ok 28 := by decide +kernel
    obtain ⟨r, h1, h2⟩ := h tetra farCo (fun _ _ => 0) 1
      (fun f => if f.index = 1 then [1, 2, 3] else if f.index = 2 then [1, 2, 4] else if f.index = 3 then [1, 3, 4] else [2, 3, 4])
      tetra_sound (by
        intro f hf
        have key : ∀ f ∈ tetra.surfs, ∃ l, concatField tetra.edges Edge.vertind (posList Edge.index tetra.edges f.edgeind) = .ok l ∧
            (∀ v, v ∈ l ↔ SurfCorner tetra f v) := by
          intro f hf
          obtain ⟨l, h1, h2⟩ := Refine.concatField_ok (ix := Edge.index) (field := Edge.vertind) (l := tetra.edges) (ks := f.edgeind)
            (fun e he => tetra_sound.noDangling.surfEdge f.index e ⟨f, hf, rfl, he⟩) tetra_sound.unique.edges
          refine ⟨l, h1, fun v => ?_⟩
          rw [h2]
          constructor
          · rintro ⟨e, he, hi, hv⟩; exact ⟨e.index, hi, e, he, rfl, hv⟩
          · rintro ⟨i, hi, e, he, rfl, hv⟩; exact ⟨e, he, hi, hv⟩
        obtain ⟨l, k1, k2⟩ := key f hf
        simp only [tetra, List.mem_cons, List.not_mem_nil, or_false] at hf
        rcases hf with rfl | rfl | rfl | rfl
        · have : concatField tetra.edges Edge.vertind (posList Edge.index tetra.edges [1, 2, 4]) = .ok [1, 2, 1, 3, 2, 3] := by
            decide +kernel
          rw [this] at k1
          exact ⟨by decide, fun v => by rw [← k2 v, ← Except.ok.inj k1]; simp; tauto⟩
        · have : concatField tetra.edges Edge.vertind (posList Edge.index tetra.edges [1, 3, 5]) = .ok [1, 2, 1, 4, 2, 4] := by
            decide +kernel
          rw [this] at k1
          exact ⟨by decide, fun v => by rw [← k2 v, ← Except.ok.inj k1]; simp; tauto⟩
        · have : concatField tetra.edges Edge.vertind (posList Edge.index tetra.edges [2, 3, 6]) = .ok [1, 3, 1, 4, 3, 4] := by
            decide +kernel
          rw [this] at k1
          exact ⟨by decide, fun v => by rw [← k2 v, ← Except.ok.inj k1]; simp; tauto⟩
        · have : concatField tetra.edges Edge.vertind (posList Edge.index tetra.edges [4, 5, 6]) = .ok [2, 3, 2, 4, 3, 4] := by
            decide +kernel
          rw [this] at k1
          exact ⟨by decide, fun v => by rw [← k2 v, ← Except.ok.inj k1]; simp; tauto⟩)
    have h1' : surfaceLayers (K := ℚ) tetra farCo (fun _ _ => 0) 1 = .ok r := by exact_mod_cast h1
    rw [h1'] at hl
    have hl' : r.length = 28 := by simpa [Except.map] using hl
    rw [hl'] at h2
    revert h2
    decide +kernel

/-- The tetrahedron meets the hypotheses of `C97_inside_partial`, and of `C97_layers` with a corner's mean as centre. -/
example : (∃ p, coordInVolume (K := ℚ) tetra farCo tetraVolu = .ok (some p) ∧
      InHull (CornerAt tetra farCo tetraVolu) fun k => 3 * p k) ∧
    ∀ c ∈ tetra.volus, InHull (CornerAt (K := ℚ) tetra farCo c) (![5 / 4, 1 / 4, 1 / 4]) := by
  constructor
  · obtain ⟨p, h1, h2, -⟩ := C97_inside_partial (K := ℚ) tetra farCo tetraVolu tetra_sound (by simp [tetra, tetraVolu])
      ⟨1, (tetra_corner 1).mpr (by simp)⟩
    exact ⟨p, h1, h2⟩
  · intro c hc n d h
    obtain rfl : c = tetraVolu := by simpa [tetra, tetraVolu] using hc
    have h1 := h (farCo 1) ⟨1, (tetra_corner 1).mpr (by simp), rfl⟩
    have h2 := h (farCo 2) ⟨2, (tetra_corner 2).mpr (by simp), rfl⟩
    have h3 := h (farCo 3) ⟨3, (tetra_corner 3).mpr (by simp), rfl⟩
    have h4 := h (farCo 4) ⟨4, (tetra_corner 4).mpr (by simp), rfl⟩
    simp [inner_eq, farCo] at h1 h2 h3 h4 ⊢
    linarith

/-- The midpoints of edges of the tetrahedron as centres meet the hypotheses of `C97_surface_partial`. -/
example : ∃ cent : Surf → P3 ℚ, (∀ f ∈ tetra.surfs, InHull (SurfCornerAt tetra farCo f) (cent f)) ∧
    ∃ r, surfaceLayers tetra farCo cent 2 = .ok r ∧ ∀ f ∈ tetra.surfs, cent f ∈ r := by
  let cent : Surf → P3 ℚ := fun f => if f.index = 1 then ![3 / 2, 0, 0] else if f.index = 2 then ![3 / 2, 0, 0]
    else if f.index = 3 then ![1, 1 / 2, 0] else ![3 / 2, 1 / 2, 0]
  have hc : ∀ f ∈ tetra.surfs, InHull (SurfCornerAt tetra farCo f) (cent f) := by
    have mid : ∀ (f : Surf) (e a b : Int) (x : P3 ℚ), e ∈ f.edgeind → EdgeVert tetra e a → EdgeVert tetra e b →
        (∀ k, x k = (farCo a k + farCo b k) / 2) → InHull (SurfCornerAt tetra farCo f) x := by
      intro f e a b x he ha hb hx n d h
      have h1 := h (farCo a) ⟨a, ⟨e, he, ha⟩, rfl⟩
      have h2 := h (farCo b) ⟨b, ⟨e, he, hb⟩, rfl⟩
      simp only [inner_eq, hx] at h1 h2 ⊢
      linarith
    intro f hf
    simp only [tetra, List.mem_cons, List.not_mem_nil, or_false] at hf
    rcases hf with rfl | rfl | rfl | rfl
    · exact mid _ 1 1 2 _ (by simp) ⟨⟨1, [1, 2], [1, 2], false⟩, by simp [tetra], rfl, by simp⟩
        ⟨⟨1, [1, 2], [1, 2], false⟩, by simp [tetra], rfl, by simp⟩ (by decide +kernel)
    · exact mid _ 1 1 2 _ (by simp) ⟨⟨1, [1, 2], [1, 2], false⟩, by simp [tetra], rfl, by simp⟩
        ⟨⟨1, [1, 2], [1, 2], false⟩, by simp [tetra], rfl, by simp⟩ (by decide +kernel)
    · exact mid _ 2 1 3 _ (by simp) ⟨⟨2, [1, 3], [1, 3], false⟩, by simp [tetra], rfl, by simp⟩
        ⟨⟨2, [1, 3], [1, 3], false⟩, by simp [tetra], rfl, by simp⟩ (by decide +kernel)
    · exact mid _ 4 2 3 _ (by simp) ⟨⟨4, [2, 3], [1, 4], false⟩, by simp [tetra], rfl, by simp⟩
        ⟨⟨4, [2, 3], [1, 4], false⟩, by simp [tetra], rfl, by simp⟩ (by decide +kernel)
  obtain ⟨r, h1, -, h2, -⟩ := C97_surface_partial tetra farCo cent tetra_sound 2 hc
  exact ⟨cent, hc, r, by exact_mod_cast h1, h2⟩

end RSVS.Props
