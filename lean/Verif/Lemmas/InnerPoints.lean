import Mathlib.Tactic.FieldSimp
import Verif.Lemmas.Curvature
import Verif.Lemmas.EdgeMetric
import Verif.Lemmas.OrderMesh
import Verif.Model.InnerPoints
import Verif.Spec.InnerPoints

/-!
# Lemmas about points in cells
-/

namespace RSVS.Inner

open RSVS.Mesh RSVS.Geo RSVS.Spec

theorem foldlM_append {α : Type} {f : List Int → α → Res (List Int)} {P : α → Int → Prop} : ∀ (l : List α),
    (∀ a ∈ l, ∃ r, (∀ acc, f acc a = .ok (acc ++ r)) ∧ ∀ v, v ∈ r ↔ P a v) →
    ∃ r, (∀ acc, l.foldlM (m := Except Fault) f acc = .ok (acc ++ r)) ∧ ∀ v, v ∈ r ↔ ∃ a ∈ l, P a v
  | [], _ => ⟨[], fun acc => by simp [pure, Except.pure], by simp⟩
  | a :: l, h => by
    obtain ⟨r, h1, h2⟩ := h a (by simp)
    obtain ⟨r', h3, h4⟩ := foldlM_append l (fun b hb => h b (by simp [hb]))
    refine ⟨r ++ r', fun acc => ?_, fun v => ?_⟩
    · rw [List.foldlM_cons, h1 acc]
      simp only [bind, Except.bind]
      rw [h3, List.append_assoc]
    · rw [List.mem_append, h2, h4]
      simp

variable {m : Mesh}

theorem ends_append (hm : Sound m) {l : List Int} (hl : ∀ e ∈ l, HasEdge m e) :
    ∃ r, (∀ acc, l.foldlM (m := Except Fault) (fun acc e => (isearch Edge.index m.edges e).map fun x => acc ++ x.vertind) acc =
      .ok (acc ++ r)) ∧ ∀ v, v ∈ r ↔ ∃ e ∈ l, EdgeVert m e v := by
  refine foldlM_append (P := EdgeVert m) l fun e he => ?_
  obtain ⟨x, h1, h2, h3⟩ := Spawn.isearch_ok (ix := Edge.index) (hl e he)
  refine ⟨x.vertind, fun acc => by rw [h1]; rfl, fun v => ⟨fun hv => ⟨x, h2, h3, hv⟩, ?_⟩⟩
  rintro ⟨y, hy, h4, hv⟩
  rw [inj_of_nodup hm.unique.edges h2 hy (h3.trans h4.symm)]
  exact hv

theorem cornersOf_ok (hm : Sound m) {c : Volu} (hc : c ∈ m.volus) :
    ∃ l, cornersOf m c = .ok l ∧ ∀ v, v ∈ l ↔ VoluCorner m c v := by
  have hs : ∀ s ∈ c.surfind, HasSurf m s := fun s hs =>
    hm.noDangling.voluSurf c.index s ⟨c, hc, rfl, hs⟩ fun h0 => hm.zeroOutside.voluSurf c.index ⟨c, hc, rfl, h0 ▸ hs⟩
  obtain ⟨r, h1, h2⟩ := foldlM_append (f := fun acc s => (isearch Surf.index m.surfs s).bind fun f =>
    f.edgeind.foldlM (m := Except Fault) (fun acc e => (isearch Edge.index m.edges e).map fun x => acc ++ x.vertind) acc)
    (P := fun s v => ∃ e, SurfEdge m s e ∧ EdgeVert m e v) c.surfind (fun s h => by
      obtain ⟨f, h1, h2, h3⟩ := Spawn.isearch_ok (ix := Surf.index) (hs s h)
      obtain ⟨r, h4, h5⟩ := ends_append hm (l := f.edgeind) (fun e he => hm.noDangling.surfEdge s e ⟨f, h2, h3, he⟩)
      refine ⟨r, fun acc => by rw [h1]; exact h4 acc, fun v => ?_⟩
      rw [h5]
      constructor
      · rintro ⟨e, he, hv⟩; exact ⟨e, ⟨f, h2, h3, he⟩, hv⟩
      · rintro ⟨e, ⟨g, hg, h6, he⟩, hv⟩
        rw [inj_of_nodup hm.unique.surfs hg h2 (h6.trans h3.symm)] at he
        exact ⟨e, he, hv⟩)
  exact ⟨r, by unfold cornersOf; rw [h1]; rfl, h2⟩

theorem corner_has (hm : Sound m) {c : Volu} {v : Int} (h : VoluCorner m c v) : HasVert m v := by
  obtain ⟨s, -, e, -, h⟩ := h
  exact hm.noDangling.edgeVert e v h fun h0 => hm.zeroOutside.edgeVert e (h0 ▸ h)

variable {K : Type} [Field K]

omit [Field K] in
theorem coordOf_all {co : Int → P3 K} {l : List Int} (hl : ∀ v ∈ l, HasVert m v) :
    l.mapM (m := Except Fault) (coordOf m co) = .ok (l.map co) := by
  refine Curv.mapM_map l fun v hv => ?_
  obtain ⟨x, h1, -, -⟩ := Spawn.isearch_ok (ix := Vert.index) (hl v hv)
  unfold coordOf
  rw [h1]; rfl

theorem coordFold (ps : List (P3 K)) : ∀ s : P3 K × Nat, ps.foldl coordStep s =
    (fun j => s.1 j + (ps.map fun p => p j).sum, s.2 + 3 * ps.length) := by
  induction ps with
  | nil => intro s; simp
  | cons p ps ih =>
    intro s
    rw [List.foldl_cons, ih]
    simp only [coordStep, List.map_cons, List.sum_cons, List.length_cons]
    ext1
    · funext j; ring
    · ring

theorem layersOf_ok {co : Int → P3 K} {l : List Int} (hl : ∀ v ∈ l, HasVert m v) (n : Nat) (c : P3 K) :
    layersOf m co n c l = .ok (l.flatMap fun v => (List.range n).map fun j => layerPoint n j c (co v)) := by
  unfold layersOf
  rw [coordOf_all hl]
  simp only [Except.map, List.flatMap_map]

variable [LinearOrder K] [IsStrictOrderedRing K]

/-- The mean of points is in their hull. -/
theorem inHull_mean {ps : List (P3 K)} (hne : ps ≠ []) {S : P3 K → Prop} (hS : ∀ p ∈ ps, S p) :
    InHull S fun j => (ps.map fun p => p j).sum / (ps.length : K) := by
  intro n d h
  have hpos : (0 : K) < (ps.length : K) := by
    rw [Nat.cast_pos]; exact List.length_pos_iff.mpr hne
  have key : ∀ l : List (P3 K), (∀ p ∈ l, inner n p ≤ d) → (inner n fun j => (l.map fun p => p j).sum) ≤ l.length * d := by
    intro l
    induction l with
    | nil => intro _; simp [inner_eq]
    | cons p l ih =>
      intro hl
      have h1 := ih fun q hq => hl q (by simp [hq])
      have h2 := hl p (by simp)
      rw [inner_eq] at h1 h2 ⊢
      simp only [List.map_cons, List.sum_cons, List.length_cons]
      push_cast
      linarith
  have h1 := key ps fun p hp => h p (hS p hp)
  rw [inner_eq] at h1 ⊢
  have : n 0 * ((ps.map fun p => p 0).sum / (ps.length : K)) + n 1 * ((ps.map fun p => p 1).sum / (ps.length : K)) +
      n 2 * ((ps.map fun p => p 2).sum / (ps.length : K)) =
      (n 0 * (ps.map fun p => p 0).sum + n 1 * (ps.map fun p => p 1).sum + n 2 * (ps.map fun p => p 2).sum) / (ps.length : K) := by
    field_simp
  rw [this, div_le_iff₀ hpos, mul_comm d]
  exact h1

/-- The points of a layer are between the centre and the corner. -/
theorem inHull_layer {n j : Nat} (hj : j < n) {c p : P3 K} {S : P3 K → Prop} (hc : InHull S c) (hp : S p) :
    InHull S (layerPoint n j c p) := by
  intro u d h
  have h1 := hc u d h
  have h2 := h p hp
  have hn : (0 : K) < ((n + 1 : Nat) : K) := by rw [Nat.cast_pos]; omega
  have e : ((n - j : Nat) : K) / ((n + 1 : Nat) : K) = 1 - ((j + 1 : Nat) : K) / ((n + 1 : Nat) : K) := by
    rw [eq_sub_iff_add_eq, ← add_div, div_eq_one_iff_eq (ne_of_gt hn), ← Nat.cast_add]
    congr 1
    omega
  have t0 : 0 ≤ ((j + 1 : Nat) : K) / ((n + 1 : Nat) : K) := div_nonneg (Nat.cast_nonneg _) hn.le
  have t1 : ((j + 1 : Nat) : K) / ((n + 1 : Nat) : K) ≤ 1 := by
    rw [div_le_one hn, Nat.cast_le]; omega
  rw [inner_eq] at h1 h2 ⊢
  unfold layerPoint
  rw [e]
  generalize ((j + 1 : Nat) : K) / ((n + 1 : Nat) : K) = t at t0 t1
  nlinarith [mul_le_mul_of_nonneg_left h1 t0, mul_le_mul_of_nonneg_left h2 (sub_nonneg.mpr t1)]

end RSVS.Inner
