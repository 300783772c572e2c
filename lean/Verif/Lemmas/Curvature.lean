import Mathlib.Algebra.BigOperators.Field
import Mathlib.Algebra.Order.BigOperators.Group.List
import Mathlib.Tactic.FieldSimp
import Mathlib.Tactic.Ring
import Verif.Lemmas.Geometry
import Verif.Lemmas.MeshDetach
import Verif.Lemmas.MeshOrder
import Verif.Lemmas.Order
import Verif.Lemmas.Spawn
import Verif.Model.Curvature
import Verif.Spec.SnakeJoin

/-!
# Lemmas about curvature
-/

namespace RSVS.Curv

open RSVS.Mesh RSVS.Geo RSVS.Spec

variable {K : Type} [Field K] [LinearOrder K] [IsStrictOrderedRing K]

/-- A list in step with the elements is read at the index of an element. -/
theorem vecGet_map {α β : Type} {ix : α → Int} {l : List α} (f : Int → β) {i : Int}
    (h : ∃ a ∈ l, ix a = i) : vecGet (l.map fun a => f (ix a)) (posOf ix l i) = .ok (f i) := by
  obtain ⟨p, h1, h2, h3⟩ := posOf_mem h
  rw [h1]
  refine Order.vecGet_nat ?_
  rw [List.getElem?_map, List.getElem?_eq_getElem h2]
  simp [h3]

/-- Every list in step with the elements is of that form. -/
theorem exists_fun {α β : Type} [Inhabited β] {ix : α → Int} {l : List α} (hn : (l.map ix).Nodup) {r : List β}
    (h : r.length = l.length) : ∃ f : Int → β, r = l.map fun a => f (ix a) := by
  refine ⟨fun i => r.getD (posOf ix l i).toNat default, ?_⟩
  apply List.ext_getElem (by simp [h])
  intro i h1 h2
  rw [List.getElem_map]
  simp only
  rw [posOf_getElem hn i (by omega)]
  simp [List.getElem?_eq_getElem h1]

theorem exists_fun' {α β : Type} [Inhabited β] {ix : α → Int} {l : List α} (hn : (l.map ix).Nodup) (g : α → β) :
    ∃ f : Int → β, ∀ a ∈ l, f (ix a) = g a := by
  obtain ⟨f, h⟩ := exists_fun (r := l.map g) hn (by simp)
  exact ⟨f, fun a ha => by rw [List.map_inj_left] at h; exact (h a ha).symm⟩

omit [LinearOrder K] [IsStrictOrderedRing K] in
theorem foldlM_sum {α : Type} {f : K → α → Res K} {g : α → K} : ∀ (l : List α), (∀ a ∈ l, ∀ s, f s a = .ok (s + g a)) →
    ∀ s, l.foldlM (m := Except Fault) f s = .ok (s + (l.map g).sum)
  | [], _, s => by simp [pure, Except.pure]
  | a :: l, h, s => by
    rw [List.foldlM_cons, h a (by simp) s]
    have := foldlM_sum l (fun b hb => h b (by simp [hb])) (s + g a)
    simp only [bind, Except.bind]
    rw [this, List.map_cons, List.sum_cons, add_assoc]

theorem mapM_map {α β : Type} {f : α → Res β} {g : α → β} : ∀ (l : List α), (∀ a ∈ l, f a = .ok (g a)) →
    l.mapM (m := Except Fault) f = .ok (l.map g)
  | [], _ => rfl
  | a :: l, h => by
    rw [List.mapM_cons, h a (by simp), mapM_map l (fun b hb => h b (by simp [hb]))]; rfl

/-- What the two passes need. -/
structure CurvMesh (m : Mesh) : Prop where
  sound : Sound m
  two : TwoVerts m
  loops : NoLoops m
  once : ListedOnce m

variable {m : Mesh}

theorem CurvMesh.hasEdge (hm : CurvMesh m) {v e : Int} (h : VertEdge m v e) : HasEdge m e :=
  hm.sound.noDangling.vertEdge v e h fun h0 => hm.sound.zeroOutside.vertEdge v (h0 ▸ h)

theorem CurvMesh.hasVert (hm : CurvMesh m) {v e : Int} (h : EdgeVert m e v) : HasVert m v :=
  hm.sound.noDangling.edgeVert e v h fun h0 => hm.sound.zeroOutside.edgeVert e (h0 ▸ h)

theorem CurvMesh.pair (hm : CurvMesh m) {e : Edge} (he : e ∈ m.edges) : ∃ a b, e.vertind = [a, b] := by
  match h : e.vertind, hm.two e he with
  | [a, b], _ => exact ⟨a, b, rfl⟩

omit [LinearOrder K] [IsStrictOrderedRing K] in
theorem edgeStep_ok (hm : CurvMesh m) {C : Int → K} {deg : Int → Nat} (hd : ∀ v ∈ m.verts, deg v.index = v.edgeind.length) :
    edgeStep m (m.verts.map fun v => C v.index) =
      .ok (m.edges.map fun e => (e.vertind.map fun v => C v / (deg v : K)).sum / 2) := by
  unfold edgeStep
  refine mapM_map _ fun e he => ?_
  have hall : ∀ v ∈ e.vertind, HasVert m v := fun v hv => hm.hasVert ⟨e, he, rfl, hv⟩
  rw [foldlM_sum (g := fun v => C v / (deg v : K)) e.vertind (fun v hv s => ?_) 0]
  · simp [Except.map]
  · have hv' := hall v hv
    rw [vecGet_map C hv']
    obtain ⟨x, h1, h2, h3⟩ := Spawn.isearch_ok (ix := Vert.index) hv'
    simp only [Except.bind]
    rw [h1, ← h3, hd x h2]
    rfl

omit [LinearOrder K] [IsStrictOrderedRing K] in
theorem vertStep_ok (hm : CurvMesh m) (again : Bool) {C F : Int → K} :
    vertStep m again (m.verts.map fun v => C v.index) (m.edges.map fun e => F e.index) =
      .ok (m.verts.map fun v => (C v.index + (v.edgeind.map F).sum) / (if again then 2 else 1)) := by
  unfold vertStep
  have hz : m.verts.zip (m.verts.map fun v => C v.index) = m.verts.map fun v => (v, C v.index) := by
    apply List.ext_getElem (by simp)
    intro i h1 h2
    simp
  rw [hz, mapM_map (g := fun vx : Vert × K => (vx.2 + (vx.1.edgeind.map F).sum) / (if again then 2 else 1))]
  · rw [List.map_map]; rfl
  · intro vx hvx
    obtain ⟨v, hv, rfl⟩ := List.mem_map.mp hvx
    rw [foldlM_sum (g := F) v.edgeind (fun e he s => ?_)]
    · cases again <;> simp [Except.map]
    · rw [vecGet_map F (hm.hasEdge ⟨v, hv, rfl, he⟩)]
      rfl

/-- Indices of the vertices and edges as sets. -/
def iv (m : Mesh) : Finset Int := (m.verts.map Vert.index).toFinset
def ie (m : Mesh) : Finset Int := (m.edges.map Edge.index).toFinset

omit [LinearOrder K] [IsStrictOrderedRing K] in
theorem sum_verts (hm : Sound m) (f : Int → K) : (m.verts.map fun v => f v.index).sum = ∑ v ∈ iv m, f v := by
  have : (m.verts.map fun v => f v.index) = (m.verts.map Vert.index).map f := by rw [List.map_map]; rfl
  rw [this, iv, List.sum_toFinset _ hm.unique.verts]

omit [LinearOrder K] [IsStrictOrderedRing K] in
theorem sum_edges (hm : Sound m) (f : Int → K) : (m.edges.map fun v => f v.index).sum = ∑ v ∈ ie m, f v := by
  have : (m.edges.map fun v => f v.index) = (m.edges.map Edge.index).map f := by rw [List.map_map]; rfl
  rw [this, ie, List.sum_toFinset _ hm.unique.edges]

omit [LinearOrder K] [IsStrictOrderedRing K] in
open Classical in
/-- The sum over the list of edges of a vertex. -/
theorem sum_around (hm : CurvMesh m) {v : Vert} (hv : v ∈ m.verts) (F : Int → K) :
    (v.edgeind.map F).sum = ∑ e ∈ ie m with VertEdge m v.index e, F e := by
  rw [← List.sum_toFinset _ (hm.once v hv)]
  apply Finset.sum_congr _ (fun _ _ => rfl)
  ext e
  simp only [List.mem_toFinset, Finset.mem_filter, ie, List.mem_map]
  constructor
  · intro he
    have h : VertEdge m v.index e := ⟨v, hv, rfl, he⟩
    obtain ⟨x, hx, ex⟩ := hm.hasEdge h
    exact ⟨⟨x, hx, ex⟩, h⟩
  · rintro ⟨-, x, hx, ex, hi⟩
    rw [inj_of_nodup hm.sound.unique.verts hv hx ex.symm]
    exact hi

omit [LinearOrder K] [IsStrictOrderedRing K] in
open Classical in
/-- The sum over the ends of an edge. -/
theorem sum_ends (hm : CurvMesh m) {e : Edge} (he : e ∈ m.edges) (F : Int → K) :
    (e.vertind.map F).sum = ∑ v ∈ iv m with VertEdge m v e.index, F v := by
  obtain ⟨a, b, hab⟩ := hm.pair he
  have hne : a ≠ b := by
    rintro rfl
    exact hm.loops e he a hab
  rw [← List.sum_toFinset _ (by rw [hab]; simp [hne])]
  apply Finset.sum_congr _ (fun _ _ => rfl)
  ext v
  simp only [List.mem_toFinset, Finset.mem_filter, iv, List.mem_map]
  constructor
  · intro hv
    have h : EdgeVert m e.index v := ⟨e, he, rfl, hv⟩
    obtain ⟨x, hx, ex⟩ := hm.hasVert h
    exact ⟨⟨x, hx, ex⟩, (hm.sound.sym.vertEdge _ _ (hm.hasVert h) ⟨e, he, rfl⟩).mpr h⟩
  · rintro ⟨⟨y, hy, ey⟩, h⟩
    obtain ⟨x, hx, ex, hi⟩ := (hm.sound.sym.vertEdge _ _ ⟨y, hy, ey⟩ ⟨e, he, rfl⟩).mp h
    rw [inj_of_nodup hm.sound.unique.edges he hx ex.symm]
    exact hi

omit [LinearOrder K] [IsStrictOrderedRing K] in
/-- Each edge is counted at its two ends. -/
theorem total_edges (hm : CurvMesh m) (F : Int → K) :
    (m.verts.map fun v => (v.edgeind.map F).sum).sum = 2 * (m.edges.map fun e => F e.index).sum := by
  classical
  have h1 : (m.verts.map fun v => (v.edgeind.map F).sum) =
      m.verts.map fun v => (fun i => ∑ e ∈ ie m with VertEdge m i e, F e) v.index :=
    List.map_congr_left fun v hv => sum_around hm hv F
  rw [h1, sum_verts hm.sound (fun i => ∑ e ∈ ie m with VertEdge m i e, F e), sum_edges hm.sound, Finset.mul_sum]
  simp only [Finset.sum_filter]
  rw [Finset.sum_comm]
  apply Finset.sum_congr rfl
  intro i hi
  obtain ⟨e, he, rfl⟩ := List.mem_map.mp (List.mem_toFinset.mp hi)
  have h2 := sum_ends hm he (fun _ => F e.index)
  rw [Finset.sum_filter] at h2
  rw [← h2]
  obtain ⟨a, b, hab⟩ := hm.pair he
  rw [hab]
  simp only [List.map_cons, List.map_nil, List.sum_cons, List.sum_nil]
  ring

omit [LinearOrder K] [IsStrictOrderedRing K] in
/-- Each vertex is counted at its edges. -/
theorem total_verts (hm : CurvMesh m) (G : Int → K) {deg : Int → Nat} (hd : ∀ v ∈ m.verts, deg v.index = v.edgeind.length) :
    (m.edges.map fun e => (e.vertind.map G).sum).sum = (m.verts.map fun v => (deg v.index : K) * G v.index).sum := by
  classical
  have h1 : (m.edges.map fun e => (e.vertind.map G).sum) =
      m.edges.map fun e => (fun i => ∑ v ∈ iv m with VertEdge m v i, G v) e.index :=
    List.map_congr_left fun e he => sum_ends hm he G
  rw [h1, sum_edges hm.sound (fun i => ∑ v ∈ iv m with VertEdge m v i, G v), sum_verts hm.sound (fun i => (deg i : K) * G i)]
  simp only [Finset.sum_filter]
  rw [Finset.sum_comm]
  apply Finset.sum_congr rfl
  intro i hi
  obtain ⟨v, hv, rfl⟩ := List.mem_map.mp (List.mem_toFinset.mp hi)
  have h2 := sum_around hm hv (fun _ => G v.index)
  rw [Finset.sum_filter] at h2
  rw [← h2, hd v hv]
  simp [List.map_const', List.sum_replicate]

/-- A pass of smoothing keeps the sum, what is not negative, and zeros at vertices without edges. -/
theorem smooth_once (hm : CurvMesh m) {deg : Int → Nat} (hd : ∀ v ∈ m.verts, deg v.index = v.edgeind.length) {C : Int → K}
    (h0 : ∀ v ∈ m.verts, v.edgeind = [] → C v.index = 0) :
    ∃ D : Int → K, (edgeStep m (m.verts.map fun v => C v.index)).bind (fun ec => vertStep m true (m.verts.map fun v => C v.index) ec) =
        .ok (m.verts.map fun v => D v.index) ∧
      (∀ v ∈ m.verts, v.edgeind = [] → D v.index = 0) ∧
      (m.verts.map fun v => D v.index).sum = (m.verts.map fun v => C v.index).sum ∧
      ((∀ v ∈ m.verts, 0 ≤ C v.index) → ∀ v ∈ m.verts, 0 ≤ D v.index) := by
  have : Inhabited K := ⟨0⟩
  obtain ⟨F, hF⟩ := exists_fun' hm.sound.unique.edges (fun e : Edge => (e.vertind.map fun v => C v / (deg v : K)).sum / 2)
  have hmap : (m.edges.map fun e => (e.vertind.map fun v => C v / (deg v : K)).sum / 2) = m.edges.map fun e => F e.index :=
    List.map_congr_left fun e he => (hF e he).symm
  obtain ⟨D, hD⟩ := exists_fun' hm.sound.unique.verts (fun v : Vert => (C v.index + (v.edgeind.map F).sum) / 2)
  have hmap' : (m.verts.map fun v => (C v.index + (v.edgeind.map F).sum) / (if true then 2 else 1)) = m.verts.map fun v => D v.index :=
    List.map_congr_left fun e he => by rw [hD e he]; rfl
  refine ⟨D, ?_, ?_, ?_, ?_⟩
  · rw [edgeStep_ok hm hd, hmap]
    simp only [Except.bind]
    rw [vertStep_ok hm true]
    exact congrArg _ hmap'
  · intro v hv he
    rw [hD v hv, he, h0 v hv he]; simp
  · have h1 : (m.verts.map fun v => D v.index) = m.verts.map fun v => C v.index / 2 + (v.edgeind.map F).sum / 2 :=
      List.map_congr_left fun v hv => by rw [hD v hv]; ring
    rw [h1, List.sum_map_add]
    have h2 : (m.verts.map fun v => (v.edgeind.map F).sum / 2).sum = (m.verts.map fun v => (v.edgeind.map F).sum).sum / 2 := by
      simp only [div_eq_mul_inv]
      rw [← List.sum_map_mul_right]
    have h3 : (m.verts.map fun v => C v.index / 2).sum = (m.verts.map fun v => C v.index).sum / 2 := by
      simp only [div_eq_mul_inv]
      rw [← List.sum_map_mul_right]
    rw [h2, h3, total_edges hm F, ← hmap]
    have h4 : (m.edges.map fun e => (e.vertind.map fun v => C v / (deg v : K)).sum / 2).sum =
        (m.edges.map fun e => (e.vertind.map fun v => C v / (deg v : K)).sum).sum / 2 := by
      simp only [div_eq_mul_inv]
      rw [← List.sum_map_mul_right]
    rw [h4, total_verts hm _ hd]
    have h5 : (m.verts.map fun v => (deg v.index : K) * (C v.index / (deg v.index : K))) = m.verts.map fun v => C v.index := by
      apply List.map_congr_left
      intro v hv
      rw [hd v hv]
      by_cases he : v.edgeind = []
      · rw [h0 v hv he]; simp
      · have : (v.edgeind.length : K) ≠ 0 := by
          rw [Nat.cast_ne_zero]
          exact fun h => he (List.eq_nil_of_length_eq_zero h)
        field_simp
    rw [h5]; ring
  · intro hC v hv
    rw [hD v hv]
    have hs : 0 ≤ (v.edgeind.map F).sum := by
      apply List.sum_nonneg
      intro x hx
      obtain ⟨i, hi, rfl⟩ := List.mem_map.mp hx
      obtain ⟨e, he, rfl⟩ := hm.hasEdge ⟨v, hv, rfl, hi⟩
      rw [hF e he]
      apply div_nonneg _ (by norm_num)
      apply List.sum_nonneg
      intro y hy
      obtain ⟨w, hw, rfl⟩ := List.mem_map.mp hy
      obtain ⟨u, hu, rfl⟩ := hm.hasVert ⟨e, he, rfl, hw⟩
      exact div_nonneg (hC u hu) (Nat.cast_nonneg _)
    exact div_nonneg (add_nonneg (hC v hv) hs) (by norm_num)

theorem smooth_all (hm : CurvMesh m) {deg : Int → Nat} (hd : ∀ v ∈ m.verts, deg v.index = v.edgeind.length) : ∀ (n : Nat) {C : Int → K},
    (∀ v ∈ m.verts, v.edgeind = [] → C v.index = 0) →
    ∃ D : Int → K, smoothLoop m n (m.verts.map fun v => C v.index) = .ok (m.verts.map fun v => D v.index) ∧
      (m.verts.map fun v => D v.index).sum = (m.verts.map fun v => C v.index).sum ∧
      ((∀ v ∈ m.verts, 0 ≤ C v.index) → ∀ v ∈ m.verts, 0 ≤ D v.index)
  | 0, C, _ => ⟨C, rfl, rfl, fun h => h⟩
  | n + 1, C, h0 => by
    obtain ⟨D, h1, h2, h3, h4⟩ := smooth_once hm hd h0
    obtain ⟨D', k1, k2, k3⟩ := smooth_all hm hd n h2
    refine ⟨D', ?_, k2.trans h3, fun h => k3 (h4 h)⟩
    unfold smoothLoop
    obtain ⟨ec, e1, e2⟩ := RSVS.bind_ok_iff.mp h1
    rw [e1]
    simp only [Except.bind]
    rw [e2]
    exact k1

/-! ### Angles -/

omit [LinearOrder K] [IsStrictOrderedRing K] in
theorem dot_div (a b : P3 K) (x y : K) : dot (fun i => a i / x) (fun i => b i / y) = dot a b / (x * y) := by
  unfold dot
  simp only [div_eq_mul_inv, mul_inv]
  ring

theorem dot_sq_le (a b : P3 K) : dot a b ^ 2 ≤ dot a a * dot b b := by
  unfold dot
  nlinarith [sq_nonneg (a 0 * b 1 - a 1 * b 0), sq_nonneg (a 0 * b 2 - a 2 * b 0), sq_nonneg (a 1 * b 2 - a 2 * b 1)]

/-- The product of unit vectors is between -1 and 1. -/
theorem planesDot_range {len : P3 K → K} (hl : IsLen len) {p1 p2 p3 p4 p5 p6 : P3 K} {x : K}
    (h : planesDot len p1 p2 p3 p4 p5 p6 = some x) : -1 ≤ x ∧ x ≤ 1 := by
  unfold planesDot at h
  split at h
  · cases h
  · rename_i hne
    rw [not_or] at hne
    obtain ⟨ha, hb⟩ := hne
    cases h
    generalize planeNormal p1 p2 p3 = a at *
    generalize planeNormal p4 p5 p6 = b at *
    obtain ⟨a1, a2⟩ := hl a
    obtain ⟨b1, b2⟩ := hl b
    rw [← dot_eq] at a2 b2
    have hab : 0 < len a * len b := mul_pos (lt_of_le_of_ne a1 (Ne.symm ha)) (lt_of_le_of_ne b1 (Ne.symm hb))
    rw [dot_div]
    have hsq : dot a b ^ 2 ≤ (len a * len b) ^ 2 := by
      have := dot_sq_le a b
      rw [← a2, ← b2] at this
      nlinarith
    have habs := abs_le_of_sq_le_sq' hsq hab.le
    constructor
    · rw [le_div_iff₀ hab]; linarith [habs.1]
    · rw [div_le_one hab]; exact habs.2

/-- The curvature between two surfaces is between 0 and 1. -/
theorem pseudoAngle_range {len : P3 K → K} (hl : IsLen len) {near : Int → Int → Bool} {co : Int → P3 K} {s t : Int} {x : K}
    (h : pseudoAngle m near co len s t = .ok (some x)) : 0 ≤ x ∧ x ≤ 1 := by
  unfold pseudoAngle at h
  obtain ⟨a, -, h⟩ := RSVS.bind_ok_iff.mp h
  obtain ⟨b, -, h⟩ := RSVS.bind_ok_iff.mp h
  split at h
  · cases h; norm_num
  · obtain ⟨p, -, h⟩ := RSVS.bind_ok_iff.mp h
    split at h
    · cases h; norm_num
    · obtain ⟨q, -, h⟩ := RSVS.bind_ok_iff.mp h
      split at h
      · cases h; norm_num
      · have h := Except.ok.inj h
        obtain ⟨y, hy, rfl⟩ := Option.map_eq_some_iff.mp h
        obtain ⟨h1, h2⟩ := planesDot_range hl hy
        constructor <;> linarith

end RSVS.Curv
