import Mathlib.Tactic.FinCases
import Mathlib.Tactic.Linarith
import Mathlib.Tactic.NormNum
import Verif.Lemmas.OrientBlock
import Verif.Props.Geometry
import Verif.Props.PointCell

/-!
# The orientation of the surfaces of a mesh
-/

namespace RSVS.Props

open RSVS RSVS.Mesh RSVS.Spec RSVS.Orient RSVS.Geo

variable {K : Type} [Field K] [LinearOrder K] [IsStrictOrderedRing K]

/-- C125: in a mesh of volumes which can be oriented, `OrientRelativeSurfaceVolume` exchanges the volumes of some surfaces so that
the orientation is coherent.  `surfOrient` has a number from 1 to the number of blocks for each surface, up to the sign: the same
number for two surfaces exactly if they are joined through volumes. -/
theorem C125_relative_partial {m : Mesh} {w : Int → Nat → Int} {σ : Int → Bool} (hm : SolidMesh m w) (hσ : Orientable m w σ) :
    ∃ τ lab nB, orientRelative m = .ok (m.surfs.map fun f => swapIf (τ f.index) f, lab, nB) ∧ Orientable m w τ ∧
      lab.length = m.surfs.length ∧ (∀ o ∈ lab, 1 ≤ |o| ∧ |o| ≤ nB) ∧ (∀ k, 1 ≤ k → k ≤ nB → ∃ o ∈ lab, |o| = k) ∧
      ∀ (i j : Nat) (f g : Surf) (o p : Int), m.surfs[i]? = some f → m.surfs[j]? = some g → lab[i]? = some o → lab[j]? = some p →
        (|o| = |p| ↔ Joined m f.index g.index) := by
  obtain ⟨τ, lab, nB, h1, h2, h3⟩ := relative_ok hm hσ
  exact ⟨τ, lab, nB, h1, h2, h3⟩

/-- C125: if the dot products tell the side of the volumes (where they are not too small), `mesh::OrientSurfaceVolume` gives a coherent
orientation, and each block with a dot product which is not too small gets the orientation which they tell. -/
theorem C125_mesh_partial {m : Mesh} {w : Int → Nat → Int} {σ : Int → Bool} (hm : SolidMesh m w) (hσ : Orientable m w σ) {eps : K}
    (he : 0 < eps) {dotProd : Int → Int → Option K} (ht : TellsSide m σ eps dotProd) :
    ∃ τ, orientSurfaceVolume m eps dotProd = .ok { m with surfs := m.surfs.map fun f => swapIf (τ f.index) f } ∧ Orientable m w τ ∧
      ∀ f ∈ m.surfs, Decided m eps dotProd f.index → τ f.index = σ f.index :=
  orientSurfaceVolume_ok hm hσ he ht

/-- C125: the same for `snake::OrientSurfaceVolume`. -/
theorem C125_snake_partial {m : Mesh} {w : Int → Nat → Int} {σ : Int → Bool} (hm : SolidMesh m w) (hσ : Orientable m w σ) {eps : K}
    (he : 0 < eps) {dotProd : Int → Option K} (ht : TellsSide m σ eps fun s _ => dotProd s) :
    ∃ τ, orientSnake m eps dotProd = .ok { m with surfs := m.surfs.map fun f => swapIf (τ f.index) f } ∧ Orientable m w τ ∧
      ∀ f ∈ m.surfs, Decided m eps (fun s _ => dotProd s) f.index → τ f.index = σ f.index :=
  orientSnake_ok hm hσ he ht

/-- The conditions as a check. -/
theorem solid_of_checked {m : Mesh} {w : Int → Nat → Int} (hs : Sound m)
    (h : ∀ f ∈ m.surfs, 3 ≤ f.edgeind.length ∧
      (∀ k < f.edgeind.length, ∃ x ∈ m.edges, x.index = f.edgeind.getD k 0 ∧
        (x.vertind = [w f.index k, w f.index (k + 1)] ∨ x.vertind = [w f.index (k + 1), w f.index k])) ∧
      w f.index f.edgeind.length = w f.index 0 ∧
      (∀ i < f.edgeind.length, ∀ j < f.edgeind.length, w f.index i = w f.index j → i = j) ∧
      f.voluind = [f.voluind.getD 0 0, f.voluind.getD 1 0] ∧ f.voluind.getD 0 0 ≠ f.voluind.getD 1 0)
    (h0 : ∀ e ∈ m.edges, 0 ∉ e.surfind) (hd : 3 ≤ m.meshDim) : SolidMesh m w := by
  refine ⟨hs, fun f hf => ?_, fun f hf => ⟨_, _, (h f hf).2.2.2.2.1, (h f hf).2.2.2.2.2⟩, h0, hd⟩
  obtain ⟨h3, k2, k3, k4, -⟩ := h f hf
  refine ⟨h3, fun k e hk => ?_, k3, fun i j hi hj => k4 i hi j hj⟩
  obtain ⟨hlt, rfl⟩ := List.getElem?_eq_some_iff.1 hk
  obtain ⟨x, hx, g1, g2⟩ := k2 k hlt
  rw [List.getD_eq_getElem?_getD, List.getElem?_eq_getElem hlt] at g1
  exact ⟨x, hx, g1, g2⟩

theorem coherent_of_checked {edges : List Edge} {surfs : List Surf} {w : Int → Nat → Int}
    (h : ∀ f ∈ surfs, ∀ g ∈ surfs, ∀ e ∈ edges, ∀ c ∈ f.voluind, f.index ≠ g.index → e.index ∈ f.edgeind → e.index ∈ g.edgeind →
      c ≠ 0 → c ∈ g.voluind → ((f.voluind.head? = some c ↔ g.voluind.head? = some c) ↔
        ((∃ k < f.edgeind.length, w f.index k = e.vertind.getD 0 0 ∧ w f.index (k + 1) = e.vertind.getD 1 0) ↔
          ∃ k < g.edgeind.length, w g.index k = e.vertind.getD 1 0 ∧ w g.index (k + 1) = e.vertind.getD 0 0))) :
    Coherent edges surfs w := by
  rintro f hf g hg e he a b c hv ⟨h1, h2, h3, h4, h5, h6⟩
  have := h f hf g hg e he c h5 h1 h2 h3 h4 h6
  rw [hv] at this
  exact this

/-- The two tetrahedra with the volumes of some surfaces exchanged. -/
def mixedTwin : Mesh :=
  { twinTet fun _ => false with surfs := (twinTet fun _ => false).surfs.map fun f => swapIf (decide (f.index = 2 ∨ f.index = 4 ∨ f.index = 7)) f }

theorem mixedTwin_solid : SolidMesh mixedTwin twinW :=
  solid_of_checked (sound_of_checked (by decide +kernel)) (by decide +kernel) (by decide +kernel) (by decide +kernel)

theorem mixedTwin_orientable : Orientable mixedTwin twinW (fun s => decide (s = 2 ∨ s = 4 ∨ s = 7)) :=
  coherent_of_checked (by decide +kernel)

/-- The flooding of `mixedTwin` starts from a surface which is right: all surfaces are right afterwards. -/
example : orientRelative mixedTwin = .ok ((twinTet fun _ => false).surfs, [1, 1, 1, 1, -1, -1, -1], 1) := by decide +kernel

example : ∃ τ lab nB, orientRelative mixedTwin = .ok (mixedTwin.surfs.map fun f => swapIf (τ f.index) f, lab, nB) ∧
    Orientable mixedTwin twinW τ := by
  obtain ⟨τ, lab, nB, h1, h2, -⟩ := C125_relative_partial mixedTwin_solid mixedTwin_orientable
  exact ⟨τ, lab, nB, h1, h2⟩

/-- A dot product is known only for surface 5, where volume 2 is at the first place. -/
example : ∃ τ : Int → Bool, orientSurfaceVolume mixedTwin (1 / 100 : ℚ) (fun s _ => if s = 5 then some 1 else none) =
      .ok { mixedTwin with surfs := mixedTwin.surfs.map fun f => swapIf (τ f.index) f } ∧ τ 2 = true ∧ τ 1 = false := by
  have ht : TellsSide mixedTwin (fun s => decide (s = 2 ∨ s = 4 ∨ s = 7)) (1 / 100 : ℚ) (fun s _ => if s = 5 then some 1 else none) := by
    intro f hf c hc hc0 d hd _
    simp only at hd
    split at hd
    · rename_i h5
      cases hd
      have : ∀ f ∈ mixedTwin.surfs, f.index = 5 → ∀ c ∈ f.voluind, c ≠ 0 →
          (swapIf (decide (f.index = 2 ∨ f.index = 4 ∨ f.index = 7)) f).voluind.head? = some c := by decide +kernel
      simpa using this f hf h5 c hc hc0
    · cases hd
  obtain ⟨τ, h1, -, h3⟩ := C125_mesh_partial mixedTwin_solid mixedTwin_orientable (by norm_num) ht
  have next : ∀ s t : Int, (∃ f ∈ mixedTwin.surfs, ∃ g ∈ mixedTwin.surfs, f.index = s ∧ g.index = t ∧ ∃ e ∈ mixedTwin.edges,
      f.index ≠ g.index ∧ e.index ∈ f.edgeind ∧ e.index ∈ g.edgeind ∧ ∃ c ∈ f.voluind, c ≠ 0 ∧ c ∈ g.voluind) → SideNext mixedTwin s t := by
    rintro s t ⟨f, hf, g, hg, k1, k2, e, he, k3, k4, k5, c, k6, k7, k8⟩
    exact ⟨f, hf, g, hg, k1, k2, e, he, c, k3, k4, k5, k7, k6, k8⟩
  have j15 : SideNext mixedTwin 1 5 := next 1 5 (by decide +kernel)
  have j21 : SideNext mixedTwin 2 1 := next 2 1 (by decide +kernel)
  have dec : ∀ s, Joined mixedTwin s 5 → Decided mixedTwin (1 / 100 : ℚ) (fun s _ => if s = 5 then some 1 else none) s := fun s hs =>
    ⟨{ index := 5, edgeind := [7, 9, 1], voluind := [2, 0], isordered := true }, by decide +kernel, hs,
      fun _ _ _ => ⟨1, if_pos rfl, by norm_num⟩⟩
  have f1 : ∃ f ∈ mixedTwin.surfs, f.index = 1 := by decide +kernel
  have f2 : ∃ f ∈ mixedTwin.surfs, f.index = 2 := by decide +kernel
  obtain ⟨f, hf, hf1⟩ := f1
  obtain ⟨g, hg, hg2⟩ := f2
  refine ⟨τ, h1, ?_, ?_⟩
  · rw [← hg2, h3 g hg (hg2 ▸ dec 2 (.head j21 (.single j15))), hg2]
    decide
  · rw [← hf1, h3 f hf (hf1 ▸ dec 1 (.single j15)), hf1]
    decide

/-- The same mesh as a snake. -/
example : orientSnake mixedTwin (1 / 100 : ℚ) (fun s => if s = 5 then some 1 else none) = .ok (twinTet fun _ => false) := by
  decide +kernel

/-- A tetrahedron away from the origin. -/
def farTet : Mesh where
  verts := [⟨1, [2, 3, 6], [10, 10, 10], true⟩, ⟨2, [1, 2, 5], [11, 10, 10], true⟩, ⟨3, [1, 3, 4], [10, 11, 10], true⟩,
    ⟨4, [4, 5, 6], [10, 10, 11], true⟩]
  edges := [⟨1, [2, 3], [1, 4], true⟩, ⟨2, [1, 2], [2, 4], true⟩, ⟨3, [1, 3], [3, 4], true⟩, ⟨4, [3, 4], [1, 3], true⟩,
    ⟨5, [4, 2], [1, 2], true⟩, ⟨6, [1, 4], [2, 3], true⟩]
  surfs := [{ index := 1, edgeind := [1, 4, 5], voluind := [1, 0], isordered := true },
    { index := 2, edgeind := [2, 5, 6], voluind := [1, 0], isordered := true },
    { index := 3, edgeind := [6, 4, 3], voluind := [1, 0], isordered := true },
    { index := 4, edgeind := [3, 1, 2], voluind := [1, 0], isordered := true }]
  volus := [{ index := 1, surfind := [1, 2, 3, 4] }]
  meshDim := 3

def farRing : Int → List Int
  | 1 => [2, 3, 4, 2]
  | 2 => [1, 2, 4, 1]
  | 3 => [1, 4, 3, 1]
  | _ => [1, 3, 2, 1]

def farW (s : Int) (k : Nat) : Int := (farRing s).getD k 0

def awayCo (K : Type) [Field K] : Int → P3 K
  | 2 => ![11, 10, 10]
  | 3 => ![10, 11, 10]
  | 4 => ![10, 10, 11]
  | _ => ![10, 10, 10]

theorem farTet_solid : SolidMesh farTet farW :=
  solid_of_checked (sound_of_checked (by decide +kernel)) (by decide +kernel) (by decide +kernel) (by decide +kernel)

theorem farTet_orientable : Orientable farTet farW fun _ => false := coherent_of_checked (by decide +kernel)

theorem centre_total {len : P3 K → K} (hl : IsLen len) : ∀ (es : List (P3 K × P3 K)) (s : P3 K × K), 0 < s.2 →
    0 < (es.foldl (centreStep len) s).2
  | [], _, h => h
  | e :: es, s, h => centre_total hl es _ (by
    unfold centreStep
    have := (hl (fun i => 0 + e.1 i - e.2 i)).1
    simp only
    linarith)

theorem awayCo_bounds (a : Int) (i : Fin 3) : 10 ≤ awayCo K a i ∧ awayCo K a i ≤ 11 := by
  have h10 : (10 : K) ≤ 11 := by norm_num
  unfold awayCo
  split <;> fin_cases i <;> simp [h10]

/-- The dot product for the first surface, which should be positive. -/
theorem far_prod {len : P3 K → K} (hl : IsLen len) : ∃ d, sideProd farTet len (awayCo K) 1 1 = some d ∧ d ≤ -1 := by
  have h1 : isearch Surf.index farTet.surfs 1 = .ok { index := 1, edgeind := [1, 4, 5], voluind := [1, 0], isordered := true } := by
    decide +kernel
  have h2 : Order.orderedVerts farTet [1, 4, 5] = .ok [2, 3, 4] := by decide +kernel
  have h3 : (vecGet [(1 : Int), 4, 5] 0).bind (isearch Edge.index farTet.edges) = .ok ⟨1, [2, 3], [1, 4], true⟩ := by decide +kernel
  have hE : ∃ es, voluEdges farTet (awayCo K) 1 = (awayCo K 2, awayCo K 3) :: es := ⟨_, rfl⟩
  have hb : ∀ (i : Fin 3), ∀ e ∈ voluEdges farTet (awayCo K) 1, 10 ≤ e.1 i ∧ e.1 i ≤ 11 ∧ 10 ≤ e.2 i ∧ e.2 i ≤ (11 : K) := by
    intro i e he
    unfold voluEdges at he
    simp only [List.mem_flatMap, List.mem_map] at he
    obtain ⟨-, -, -, -, x, -, rfl⟩ := he
    exact ⟨(awayCo_bounds _ i).1, (awayCo_bounds _ i).2, (awayCo_bounds _ i).1, (awayCo_bounds _ i).2⟩
  have hin := C29_half_inside_partial hl (voluEdges farTet (awayCo K) 1)
    ⟨(awayCo K 2, awayCo K 3), by obtain ⟨es, h⟩ := hE; rw [h]; simp, fun h => by have := congrFun h 0; simp [awayCo] at this⟩
  have hc : ∀ i, 20 ≤ centreVolu len (voluEdges farTet (awayCo K) 1) i := fun i => by
    have := (hin i 10 11 (hb i)).1
    linarith
  have htot : ((voluEdges farTet (awayCo K) 1).foldl (centreStep len) (fun _ => 0, 0)).2 ≠ 0 := by
    obtain ⟨es, h⟩ := hE
    rw [h, List.foldl_cons]
    refine (centre_total hl es _ ?_).ne'
    unfold centreStep
    simp only [zero_add]
    have h0 := hl (fun i => awayCo K 2 i - awayCo K 3 i)
    refine lt_of_le_of_ne h0.1 fun e => ?_
    rw [← e] at h0
    have := h0.2
    simp [Spec.inner, Fin.sum_univ_three, awayCo] at this
    norm_num at this
  have hterm : ∀ j < 3, normalTerm (fun k => ([2, 3, 4].map (awayCo K)).getD k fun _ => 0) 3 j = fun _ => 1 := by
    intro j hj
    have : j = 0 ∨ j = 1 ∨ j = 2 := by omega
    rcases this with rfl | rfl | rfl <;> funext i <;> fin_cases i <;> simp [normalTerm, cross, awayCo] <;> norm_num
  have hsums : normalSums len (fun k => ([2, 3, 4].map (awayCo K)).getD k fun _ => 0) 3 = (fun _ => 3, 3 * len fun _ => 1) := by
    rw [normalSums_eq]
    have e : List.range 3 = [0, 1, 2] := rfl
    rw [e]
    have e1 : ([0, 1, 2].map fun j => len (normalTerm (fun k => ([2, 3, 4].map (awayCo K)).getD k fun _ => 0) 3 j)) =
        [len fun _ => 1, len fun _ => 1, len fun _ => 1] := by
      simp only [List.map_cons (l := [1, 2]), List.map_cons (l := [2]), List.map_cons (l := ([] : List Nat)), List.map_nil (α := Nat),
        hterm 0 (by omega), hterm 1 (by omega), hterm 2 (by omega)]
    have e2 : ∀ i, ([0, 1, 2].map fun j => normalTerm (fun k => ([2, 3, 4].map (awayCo K)).getD k fun _ => 0) 3 j i) = [1, 1, 1] := by
      intro i
      simp only [List.map_cons (l := [1, 2]), List.map_cons (l := [2]), List.map_cons (l := ([] : List Nat)), List.map_nil (α := Nat),
        hterm 0 (by omega), hterm 1 (by omega), hterm 2 (by omega)]
    simp only [e1, e2, List.sum_cons, List.sum_nil]
    refine Prod.ext ?_ ?_
    · funext i; norm_num
    · simp only; ring
  have hone := hl (fun _ => (1 : K))
  have h3l : len (fun _ => (1 : K)) * len (fun _ => (1 : K)) = 3 := by
    rw [hone.2]
    simp [Spec.inner]
  have hpos : 0 < len (fun _ => (1 : K)) := lt_of_le_of_ne hone.1 fun e => by rw [← e] at h3l; simp at h3l
  have hle : len (fun _ => (1 : K)) ≤ 3 := by nlinarith
  unfold sideProd
  simp only [h1, h2, h3]
  rw [if_neg (by
    rw [not_or]
    refine ⟨htot, ?_⟩
    show ¬ (normalSums len (fun k => ([2, 3, 4].map (awayCo K)).getD k fun _ => 0) 3).2 = 0
    rw [hsums]
    simp [hpos.ne'])]
  refine ⟨_, rfl, ?_⟩
  have hn : pseudoNormal len ([2, 3, 4].map (awayCo K)) = fun _ => 1 / len fun _ => 1 := by
    unfold pseudoNormal
    show (fun i => (normalSums len (fun k => ([2, 3, 4].map (awayCo K)).getD k fun _ => 0) 3).1 i * (1 /
      (normalSums len (fun k => ([2, 3, 4].map (awayCo K)).getD k fun _ => 0) 3).2)) = _
    rw [hsums]
    funext i
    field_simp
  rw [hn]
  unfold dot
  have g : ∀ i, awayCo K (List.getD [2, 3] 0 0) i - centreVolu len (voluEdges farTet (awayCo K) 1) i ≤ -9 := fun i => by
    have := (awayCo_bounds (K := K) (List.getD [2, 3] 0 0) i).2
    have := hc i
    linarith
  have q : 0 < 1 / len (fun _ => (1 : K)) := by positivity
  have q2 : 1 / 3 ≤ 1 / len (fun _ => (1 : K)) := one_div_le_one_div_of_le hpos hle
  have g0 := mul_le_mul_of_nonneg_right (g 0) q.le
  have g1 := mul_le_mul_of_nonneg_right (g 1) q.le
  have g2 := mul_le_mul_of_nonneg_right (g 2) q.le
  simp only at g0 g1 g2 ⊢
  linarith

/-- C125 fails for the dot product of `mesh::OrientSurfaceVolume` itself, where the centre of a volume is twice what it should be
(C29): all surfaces of a tetrahedron are right, with the normals out of the volume at the first place, and all are exchanged. -/
theorem C125_centre_violated {len : P3 K → K} (hl : IsLen len) : ∃ (m : Mesh) (co : Int → P3 K) (w : Int → Nat → Int),
    SolidMesh m w ∧ Orientable m w (fun _ => false) ∧ (∀ f ∈ m.surfs, f.voluind = [1, 0] ∧
      (∀ v ∈ m.verts, beyond co (w f.index) f 1 (co v.index) ≤ 0) ∧ ∃ v ∈ m.verts, beyond co (w f.index) f 1 (co v.index) < 0) ∧
      ∀ eps : K, 0 < eps → eps ≤ 1 → orientSurfaceVolume m eps (sideProd m len co) =
        .ok { m with surfs := m.surfs.map fun f => { f with voluind := [0, 1] } } := by
  refine ⟨farTet, awayCo K, farW, farTet_solid, farTet_orientable, ?_, ?_⟩
  · intro f hf
    simp only [farTet, List.mem_cons, List.not_mem_nil, or_false] at hf
    rcases hf with rfl | rfl | rfl | rfl
    all_goals refine ⟨rfl, ?_, ?_⟩
    all_goals try
      intro v hv
      simp only [farTet, List.mem_cons, List.not_mem_nil, or_false] at hv
      rcases hv with rfl | rfl | rfl | rfl <;> simp [beyond, sixVol, farW, farRing, awayCo] <;> norm_num
    · exact ⟨⟨1, [2, 3, 6], [10, 10, 10], true⟩, by simp [farTet], by simp [beyond, sixVol, farW, farRing, awayCo]; norm_num⟩
    · exact ⟨⟨3, [1, 3, 4], [10, 11, 10], true⟩, by simp [farTet], by simp [beyond, sixVol, farW, farRing, awayCo]; norm_num⟩
    · exact ⟨⟨2, [1, 2, 5], [11, 10, 10], true⟩, by simp [farTet], by simp [beyond, sixVol, farW, farRing, awayCo]; norm_num⟩
    · exact ⟨⟨4, [4, 5, 6], [10, 10, 11], true⟩, by simp [farTet], by simp [beyond, sixVol, farW, farRing, awayCo]; norm_num⟩
  · intro eps h0 h1
    obtain ⟨d, hd, hd1⟩ := far_prod hl
    have hrel : orientRelative farTet = .ok (farTet.surfs, [1, 1, 1, 1], 1) := by decide +kernel
    have hd2 : ¬ |d| < eps := by
      rw [abs_of_neg (by linarith)]
      linarith
    have hd3 : d < 0 := by linarith
    have hfl : allFlips eps (sideProd farTet len (awayCo K)) (farTet.surfs, [1, 1, 1, 1], 1) = .ok [true] := by
      have : findFlip eps (sideProd farTet len (awayCo K)) 1 (farTet.surfs.zip [1, 1, 1, 1]) = .ok true := by
        simp only [farTet, List.zip_cons_cons, findFlip]
        simp only [farTet] at hd
        rw [if_neg (by decide)]
        simp [sides, vecGet, Except.bind, Except.map, hd, hd2, hd3]
      unfold allFlips
      simp only [Int.toNat_one, List.range_one, List.mapM_cons, List.mapM_nil, Nat.cast_zero, zero_add, this]
      rfl
    unfold orientSurfaceVolume
    rw [hrel]
    simp only [Except.bind, hfl]
    rfl

example : ∃ len : P3 ℝ → ℝ, IsLen len := ⟨_, realLen_isLen⟩

/-- C125 fails if all dot products of a block are small: a mesh and the same mesh with all volumes exchanged both stay as they are. -/
theorem C125_small_violated : ∃ m m' : Mesh, SolidMesh m twinW ∧ SolidMesh m' twinW ∧
    m' = { m with surfs := m.surfs.map (swapIf true) } ∧ m' ≠ m ∧
    orientSurfaceVolume m (1 / 100 : ℚ) (fun _ _ => some (1 / 1000)) = .ok m ∧
    orientSurfaceVolume m' (1 / 100 : ℚ) (fun _ _ => some (1 / 1000)) = .ok m' :=
  ⟨twinTet fun _ => false, { twinTet (fun _ => false) with surfs := (twinTet fun _ => false).surfs.map (swapIf true) },
    solid_of_checked (twinTet_sound false) (by decide +kernel) (by decide +kernel) (by decide +kernel),
    solid_of_checked (sound_of_checked (by decide +kernel)) (by decide +kernel) (by decide +kernel) (by decide +kernel), rfl,
    by decide +kernel, by decide +kernel, by decide +kernel⟩

/-- One volume of two tetrahedra with a common edge. -/
def pinched : Mesh where
  verts := [⟨1, [1, 2, 3, 7, 8], [0, 0, 0], true⟩, ⟨2, [1, 4, 5, 9, 10], [0, 0, 1], true⟩, ⟨3, [2, 4, 6], [1, 0, 0], true⟩,
    ⟨4, [3, 5, 6], [0, 1, 0], true⟩, ⟨5, [7, 9, 11], [-1, 0, 0], true⟩, ⟨6, [8, 10, 11], [0, -1, 0], true⟩]
  edges := [⟨1, [1, 2], [1, 2, 5, 6], true⟩, ⟨2, [1, 3], [1, 3], true⟩, ⟨3, [1, 4], [2, 3], true⟩, ⟨4, [2, 3], [1, 4], true⟩,
    ⟨5, [2, 4], [2, 4], true⟩, ⟨6, [3, 4], [3, 4], true⟩, ⟨7, [1, 5], [5, 7], true⟩, ⟨8, [1, 6], [6, 7], true⟩,
    ⟨9, [2, 5], [5, 8], true⟩, ⟨10, [2, 6], [6, 8], true⟩, ⟨11, [5, 6], [7, 8], true⟩]
  surfs := [{ index := 1, edgeind := [2, 4, 1], voluind := [1, 0], isordered := true },
    { index := 2, edgeind := [1, 5, 3], voluind := [1, 0], isordered := true },
    { index := 3, edgeind := [3, 6, 2], voluind := [1, 0], isordered := true },
    { index := 4, edgeind := [4, 6, 5], voluind := [1, 0], isordered := true },
    { index := 5, edgeind := [7, 9, 1], voluind := [1, 0], isordered := true },
    { index := 6, edgeind := [1, 10, 8], voluind := [1, 0], isordered := true },
    { index := 7, edgeind := [8, 11, 7], voluind := [1, 0], isordered := true },
    { index := 8, edgeind := [9, 11, 10], voluind := [1, 0], isordered := true }]
  volus := [{ index := 1, surfind := [1, 2, 3, 4, 5, 6, 7, 8] }]
  meshDim := 3

def pinchedRing : Int → List Int
  | 1 => [1, 3, 2, 1]
  | 2 => [1, 2, 4, 1]
  | 3 => [1, 4, 3, 1]
  | 4 => [2, 3, 4, 2]
  | 5 => [1, 5, 2, 1]
  | 6 => [1, 2, 6, 1]
  | 7 => [1, 6, 5, 1]
  | _ => [2, 5, 6, 2]

def pinchedCo : Int → P3 ℚ
  | 2 => ![0, 0, 1]
  | 3 => ![1, 0, 0]
  | 4 => ![0, 1, 0]
  | 5 => ![-1, 0, 0]
  | 6 => ![0, -1, 0]
  | _ => ![0, 0, 0]

/-- C125 fails for a volume which touches itself along an edge: all surfaces of two tetrahedra are right, and some of them are
exchanged and some not. -/
theorem C125_pinched_violated : ∃ (m : Mesh) (co : Int → P3 ℚ) (w : Int → Nat → Int), SolidMesh m w ∧
    (∀ f ∈ m.surfs, f.voluind = [1, 0] ∧ ∀ v ∈ if f.index ≤ 4 then [1, 2, 3, 4] else [1, 2, 5, (6 : Int)],
      beyond co (w f.index) f 1 (co v) ≤ 0) ∧
    ∃ s, (orientRelative m).map (fun r => r.1) = .ok s ∧ (∃ f ∈ s, f.voluind = [1, 0]) ∧ ∃ f ∈ s, f.voluind = [0, 1] :=
  ⟨pinched, pinchedCo, fun s k => (pinchedRing s).getD k 0,
    solid_of_checked (sound_of_checked (by decide +kernel)) (by decide +kernel) (by decide +kernel) (by decide +kernel),
    by decide +kernel, pinched.surfs.map fun f => swapIf (decide (f.index = 5 ∨ f.index = 7 ∨ f.index = 8)) f, by decide +kernel, by decide +kernel, by decide +kernel⟩

omit [IsStrictOrderedRing K] in
/-- C125 fails for `mesh::OrientSurfaceVolume` of a mesh with surfaces but without volumes: `isFlip` is read before its start.
(`mesh::OrientFaces` calls it only for three dimensions.) -/
theorem C125_flat_violated {m : Mesh} (hd : m.meshDim < 3) (hs : m.surfs ≠ []) {ov : List (List Int)}
    (ho : m.surfs.mapM (m := Except Fault) (fun f => Order.orderedVerts m f.edgeind) = .ok ov) (eps : K) (dotProd : Int → Int → Option K) :
    orientSurfaceVolume m eps dotProd = .error .ub := by
  have hr : orientRelative m = .ok (m.surfs, m.surfs.map fun _ => 0, 0) := by
    unfold orientRelative
    rw [ho]
    simp only [Except.bind]
    rw [if_pos hd]
  unfold orientSurfaceVolume
  rw [hr]
  cases h : m.surfs with
  | nil => exact absurd h hs
  | cons f l => rfl

end RSVS.Props
