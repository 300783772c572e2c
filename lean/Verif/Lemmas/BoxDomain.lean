import Mathlib.Tactic.FieldSimp
import Mathlib.Tactic.Linarith
import Mathlib.Tactic.NormNum
import Mathlib.Tactic.Positivity
import Mathlib.Tactic.Ring
import Verif.Lemmas.GeometryScale
import Verif.Lemmas.MeshCheck
import Verif.Lemmas.MeshShift
import Verif.Model.BoxDomain
import Verif.Spec.BoxDomain

/-!
# Lemmas about boxes around the geometry
-/

namespace RSVS.BoxDomain

open RSVS.Mesh RSVS.Geo RSVS.Spec

/-! ### Moving and renumbering -/

theorem coordOf_setCoord (v : Vert) (p : P3 ℚ) : coordOf (setCoord v p) = p := by
  funext i
  fin_cases i <;> rfl

theorem setCoord_setCoord (v : Vert) (p q : P3 ℚ) : setCoord (setCoord v p) q = setCoord v q := rfl

theorem moveVerts_moveVerts (f g : P3 ℚ → P3 ℚ) (m : Mesh) : moveVerts f (moveVerts g m) = moveVerts (f ∘ g) m := by
  unfold moveVerts
  simp only [List.map_map]
  congr 1
  apply List.map_congr_left
  intro v _
  simp only [Function.comp, coordOf_setCoord, setCoord_setCoord]

theorem moveVerts_change (f : P3 ℚ → P3 ℚ) (m : Mesh) (a b c d : Int) :
    moveVerts f (m.changeIndices a b c d) = (moveVerts f m).changeIndices a b c d := by
  simp [moveVerts, changeIndices, Function.comp_def, setCoord, Vert.shift, coordOf]

theorem shiftPos_shiftPos {a b x : Int} (hb : 0 ≤ b) : shiftPos a (shiftPos b x) = shiftPos (b + a) x := by
  unfold shiftPos
  split_ifs <;> omega

theorem change_change (m : Mesh) {a b c d a' b' c' d' : Int} (hc : 0 ≤ c) (hd : 0 ≤ d) :
    (m.changeIndices a b c d).changeIndices a' b' c' d' = m.changeIndices (a + a') (b + b') (c + c') (d + d') := by
  have h1 : ∀ l : List Int, (l.map (shiftPos c)).map (shiftPos c') = l.map (shiftPos (c + c')) := fun l => by
    rw [List.map_map]; exact List.map_congr_left fun x _ => shiftPos_shiftPos hc
  have h2 : ∀ l : List Int, (l.map (shiftPos d)).map (shiftPos d') = l.map (shiftPos (d + d')) := fun l => by
    rw [List.map_map]; exact List.map_congr_left fun x _ => shiftPos_shiftPos hd
  have h3 : ∀ (l : List Int) (x y : Int), (l.map (· + x)).map (· + y) = l.map (· + (x + y)) := fun l x y => by
    rw [List.map_map]; exact List.map_congr_left fun z _ => by simp only [Function.comp]; ring
  simp only [changeIndices, List.map_map]
  congr 1 <;> · apply List.map_congr_left; intro x _; simp only [Function.comp, Vert.shift, Edge.shift, Surf.shift, Volu.shift, h1, h2, h3, add_assoc]

theorem moveVerts_sound {m : Mesh} (f : P3 ℚ → P3 ℚ) (h : Sound m) : Sound (moveVerts f m) := by
  have hv : ∀ i, HasVert (moveVerts f m) i ↔ HasVert m i := by
    intro i
    simp only [HasVert, moveVerts, List.mem_map]
    constructor
    · rintro ⟨_, ⟨x, hx, rfl⟩, rfl⟩; exact ⟨x, hx, rfl⟩
    · rintro ⟨x, hx, rfl⟩; exact ⟨_, ⟨x, hx, rfl⟩, rfl⟩
  have hve : ∀ v e, VertEdge (moveVerts f m) v e ↔ VertEdge m v e := by
    intro v e
    simp only [VertEdge, moveVerts, List.mem_map]
    constructor
    · rintro ⟨_, ⟨x, hx, rfl⟩, rfl, he⟩; exact ⟨x, hx, rfl, he⟩
    · rintro ⟨x, hx, rfl, he⟩; exact ⟨_, ⟨x, hx, rfl⟩, rfl, he⟩
  refine ⟨⟨?_, h.unique.edges, h.unique.surfs, h.unique.volus⟩, ⟨fun i k => h.pos.verts i ((hv i).mp k), h.pos.edges, h.pos.surfs, h.pos.volus⟩,
    ⟨fun v e k => h.noDangling.vertEdge v e ((hve v e).mp k), fun e v k k0 => (hv v).mpr (h.noDangling.edgeVert e v k k0), h.noDangling.edgeSurf,
      h.noDangling.surfEdge, h.noDangling.surfVolu, h.noDangling.voluSurf⟩,
    ⟨fun v k => h.zeroOutside.vertEdge v ((hve v 0).mp k), h.zeroOutside.edgeVert, h.zeroOutside.surfEdge, h.zeroOutside.voluSurf⟩,
    ⟨fun v e k1 k2 => (hve v e).trans (h.sym.vertEdge v e ((hv v).mp k1) k2), h.sym.edgeSurf, h.sym.surfVolu⟩⟩
  have : (moveVerts f m).verts.map Vert.index = m.verts.map Vert.index := by
    simp [moveVerts, Function.comp_def, setCoord]
  rw [this]
  exact h.unique.verts

theorem change_sound {m : Mesh} (h : Sound m) {a b c d : Int} (ha : 0 ≤ a) (hb : 0 ≤ b) (hc : 0 ≤ c) (hd : 0 ≤ d) :
    Sound (m.changeIndices a b c d) := by
  have nn := nonNegRefs_of_noDangling h.noDangling h.pos
  refine ⟨changeIndices_unique h.unique, ⟨?_, ?_, ?_, ?_⟩, ⟨?_, ?_, ?_, ?_, ?_, ?_⟩, ⟨?_, ?_, ?_, ?_⟩, ⟨?_, ?_, ?_⟩⟩
  · intro i k; have := h.pos.verts _ ((shift_hasVert i).mp k); omega
  · intro i k; have := h.pos.edges _ ((shift_hasEdge i).mp k); omega
  · intro i k; have := h.pos.surfs _ ((shift_hasSurf i).mp k); omega
  · intro i k; have := h.pos.volus _ ((shift_hasVolu i).mp k); omega
  · intro v e k _
    have k := (shift_vertEdge v e).mp k
    rw [shift_hasEdge]
    exact h.noDangling.vertEdge _ _ k fun h0 => h.zeroOutside.vertEdge _ (h0 ▸ k)
  · intro e v k _
    have k := (shift_edgeVert e v).mp k
    rw [shift_hasVert]
    exact h.noDangling.edgeVert _ _ k fun h0 => h.zeroOutside.edgeVert _ (h0 ▸ k)
  · intro e s k k0
    rw [shift_hasSurf]
    rcases (shift_edgeSurf hc e s).mp k with ⟨k1, k2⟩ | ⟨k1, k2⟩
    · have := h.pos.surfs _ (h.noDangling.edgeSurf _ _ k2 k0); omega
    · exact h.noDangling.edgeSurf _ _ k2 (by omega)
  · intro s e k
    have k := (shift_surfEdge s e).mp k
    rw [shift_hasEdge]
    exact h.noDangling.surfEdge _ _ k
  · intro s x k k0
    rw [shift_hasVolu]
    rcases (shift_surfVolu hd s x).mp k with ⟨k1, k2⟩ | ⟨k1, k2⟩
    · have := h.pos.volus _ (h.noDangling.surfVolu _ _ k2 k0); omega
    · exact h.noDangling.surfVolu _ _ k2 (by omega)
  · intro x s k k0
    rw [shift_hasSurf]
    rcases (shift_voluSurf hc x s).mp k with ⟨k1, k2⟩ | ⟨k1, k2⟩
    · have := h.pos.surfs _ (h.noDangling.voluSurf _ _ k2 k0); omega
    · exact h.noDangling.voluSurf _ _ k2 (by omega)
  · intro v k
    have k := (shift_vertEdge v 0).mp k
    by_cases h0 : (0 : Int) - b = 0
    · rw [h0] at k; exact h.zeroOutside.vertEdge _ k
    · have := h.pos.edges _ (h.noDangling.vertEdge _ _ k h0); omega
  · intro e k
    have k := (shift_edgeVert e 0).mp k
    by_cases h0 : (0 : Int) - a = 0
    · rw [h0] at k; exact h.zeroOutside.edgeVert _ k
    · have := h.pos.verts _ (h.noDangling.edgeVert _ _ k h0); omega
  · intro s k
    have k := (shift_surfEdge s 0).mp k
    have := h.pos.edges _ (h.noDangling.surfEdge _ _ k); omega
  · intro x k
    rcases (shift_voluSurf hc x 0).mp k with ⟨k1, k2⟩ | ⟨k1, k2⟩
    · exact h.zeroOutside.voluSurf _ k2
    · omega
  · intro v e k1 k2
    rw [shift_vertEdge, shift_edgeVert]
    exact h.sym.vertEdge _ _ ((shift_hasVert v).mp k1) ((shift_hasEdge e).mp k2)
  · intro e s k1 k2
    rw [shift_edgeSurf hc, shift_surfEdge]
    have k2 := (shift_hasSurf s).mp k2
    have := h.pos.surfs _ k2
    have e := h.sym.edgeSurf _ _ ((shift_hasEdge e).mp k1) k2
    constructor
    · rintro (⟨k3, -⟩ | ⟨-, k3⟩)
      · omega
      · exact e.mp k3
    · exact fun k3 => Or.inr ⟨by omega, e.mpr k3⟩
  · intro s x k1 k2
    rw [shift_surfVolu hd, shift_voluSurf hc]
    have k1 := (shift_hasSurf s).mp k1
    have k2 := (shift_hasVolu x).mp k2
    have := h.pos.volus _ k2
    have := h.pos.surfs _ k1
    have e := h.sym.surfVolu _ _ k1 k2
    constructor
    · rintro (⟨k3, -⟩ | ⟨-, k3⟩)
      · omega
      · exact Or.inr ⟨by omega, e.mp k3⟩
    · rintro (⟨k3, -⟩ | ⟨-, k3⟩)
      · omega
      · exact Or.inr ⟨by omega, e.mpr k3⟩

theorem maxIdx_cases {α : Type} (ix : α → Int) (l : List α) : maxIdx ix l = 0 ∨ ∃ a ∈ l, ix a = maxIdx ix l := by
  induction l with
  | nil => exact Or.inl rfl
  | cons b l ih =>
    have : maxIdx ix (b :: l) = if maxIdx ix l < ix b then ix b else maxIdx ix l := rfl
    rw [this]
    split
    · exact Or.inr ⟨b, by simp, rfl⟩
    · rcases ih with h | ⟨a, ha, h⟩
      · exact Or.inl h
      · exact Or.inr ⟨a, by simp [ha], h⟩

theorem maxIdx_append {α : Type} {ix : α → Int} {l b : List α} {N : Int} (h1 : maxIdx ix l ≤ N) (h2 : ∀ a ∈ b, ix a ≤ N) (h3 : ∃ a ∈ b, ix a = N) :
    maxIdx ix (l ++ b) = N := by
  apply le_antisymm
  · rcases maxIdx_cases ix (l ++ b) with h | ⟨a, ha, h⟩
    · rw [h]; exact le_trans (maxIdx_spec ix l).1 h1
    · rw [← h]
      rcases List.mem_append.mp ha with k | k
      · exact le_trans ((maxIdx_spec ix l).2 a k) h1
      · exact h2 a k
  · obtain ⟨a, ha, rfl⟩ := h3
    exact (maxIdx_spec ix (l ++ b)).2 a (by simp [ha])

/-! ### The box -/

/-- The unit box. -/
abbrev cube : Mesh := Voxel.blockGrid ![1, 1, 1]

theorem cube_sound : Sound cube := sound_of_checked (by decide +kernel)

theorem cube_lengths : cube.verts.length = 8 ∧ cube.edges.length = 12 ∧ cube.surfs.length = 6 ∧ cube.volus.length = 1 := by
  decide +kernel

theorem cube_coords : cube.verts.map coordOf = [![0, 0, 0], ![1, 0, 0], ![0, 1, 0], ![1, 1, 0], ![0, 0, 1], ![1, 0, 1], ![0, 1, 1], ![1, 1, 1]] := by
  decide +kernel

/-- The box from `lb` to `ub`. -/
def boxAt (lb ub : P3 ℚ) : Mesh := moveVerts (fun p j => p j * (ub j - lb j) + lb j) cube

theorem boxAt_sound (lb ub : P3 ℚ) : Sound (boxAt lb ub) := moveVerts_sound _ cube_sound

/-- The coordinates of the box are those of its corners. -/
theorem boxAt_coords (lb ub : P3 ℚ) : (boxAt lb ub).verts.map coordOf =
    [![lb 0, lb 1, lb 2], ![ub 0, lb 1, lb 2], ![lb 0, ub 1, lb 2], ![ub 0, ub 1, lb 2],
      ![lb 0, lb 1, ub 2], ![ub 0, lb 1, ub 2], ![lb 0, ub 1, ub 2], ![ub 0, ub 1, ub 2]] := by
  have h : (boxAt lb ub).verts.map coordOf = (cube.verts.map coordOf).map fun p j => p j * (ub j - lb j) + lb j := by
    simp only [boxAt, moveVerts, List.map_map]
    exact List.map_congr_left fun v _ => coordOf_setCoord _ _
  have e : ∀ x y z : ℚ, (fun j => (![x, y, z] : P3 ℚ) j * (ub j - lb j) + lb j) =
      ![x * (ub 0 - lb 0) + lb 0, y * (ub 1 - lb 1) + lb 1, z * (ub 2 - lb 2) + lb 2] := by
    intro x y z; funext j; fin_cases j <;> rfl
  rw [h, cube_coords]
  simp only [List.map_cons, List.map_nil, e]
  simp

theorem boxAt_isBox {lb ub : P3 ℚ} (h : ∀ i, lb i < ub i) (i : Fin 3) : IsBox ((boxAt lb ub).verts.map coordOf) i (lb i) (ub i) := by
  rw [boxAt_coords]
  have h0 := (h 0).le
  have h1 := (h 1).le
  have h2 := (h 2).le
  refine ⟨⟨![lb 0, lb 1, lb 2], by simp, ?_⟩, ⟨![ub 0, ub 1, ub 2], by simp, ?_⟩, ?_⟩
  · fin_cases i <;> rfl
  · fin_cases i <;> rfl
  · intro v hv
    simp only [List.mem_cons, List.not_mem_nil, or_false] at hv
    rcases hv with rfl | rfl | rfl | rfl | rfl | rfl | rfl | rfl <;> fin_cases i <;> simp [h0, h1, h2]

/-- Scaling a renumbered box gives a renumbered box. -/
theorem scaleMesh_box {lb ub : P3 ℚ} (h : ∀ i, lb i < ub i) (lb' ub' : P3 ℚ) (a b c d : Int) :
    scaleMesh lb' ub' ((boxAt lb ub).changeIndices a b c d) = (boxAt lb' ub').changeIndices a b c d := by
  unfold scaleMesh
  have hc : ((boxAt lb ub).changeIndices a b c d).verts.map coordOf = (boxAt lb ub).verts.map coordOf := by
    simp [changeIndices, Function.comp_def, Vert.shift, coordOf]
  rw [hc, moveVerts_change]
  congr 1
  unfold boxAt
  rw [moveVerts_moveVerts]
  congr 1
  funext p i
  have hb := boundingBox_eq (boxAt_isBox h i)
  unfold boxAt at hb
  have hne : ub i - lb i ≠ 0 := by have := h i; linarith
  simp only [Function.comp, scale, hb, Option.getD_some, scaleTrans, Trans.app, if_neg hne]
  field_simp
  ring

theorem buildDomain_eq (lower upper : P3 ℚ) (tol : ℚ) : buildDomain lower upper tol = boxAt (fun j => lower j - tol) (fun j => upper j + tol) := rfl

theorem boxAt_lengths (lb ub : P3 ℚ) (a b c d : Int) : ((boxAt lb ub).changeIndices a b c d).verts.length = 8 := by
  have := cube_lengths.1
  simp [changeIndices, boxAt, moveVerts, this]

/-! ### The loop -/

variable (outerL outerU innerL innerU : P3 ℚ) (n : Nat)

/-- The lower corner of box `k`. -/
def lowerOf (k : Nat) (j : Fin 3) : ℚ := if k = 0 then innerL j - 1 / 10 else domInter ((k : ℚ) / ((n : ℚ) - 1)) (innerL j) (outerL j)

/-- The upper corner of box `k`. -/
def upperOf (k : Nat) (j : Fin 3) : ℚ := if k = 0 then innerU j + 1 / 10 else domInter ((k : ℚ) / ((n : ℚ) - 1)) (innerU j) (outerU j)

/-- Box `k` with its indices. -/
def blockOf (k : Nat) : Mesh := (boxAt (lowerOf outerL innerL n k) (upperOf outerU innerU n k)).changeIndices
  (8 * (2 ^ k - 1)) (12 * (2 ^ k - 1)) (6 * (2 ^ k - 1)) (2 ^ k - 1)

theorem proper {outerL outerU innerL innerU : P3 ℚ} (hi : ∀ j, innerL j < innerU j) (ho : ∀ j, outerL j < outerU j) {n k : Nat} (hk : k < n) (j : Fin 3) :
    lowerOf outerL innerL n k j < upperOf outerU innerU n k j := by
  unfold lowerOf upperOf
  split_ifs with h
  · have := hi j; linarith
  · unfold domInter
    have hn : (1 : ℚ) ≤ (n : ℚ) - 1 := by
      have : (2 : ℚ) ≤ n := by exact_mod_cast (by omega : 2 ≤ n)
      linarith
    have h0 : (0 : ℚ) ≤ (k : ℚ) / ((n : ℚ) - 1) := by positivity
    have h1 : (k : ℚ) / ((n : ℚ) - 1) ≤ 1 := by
      rw [div_le_one (by linarith)]
      have : (k : ℚ) + 1 ≤ n := by exact_mod_cast hk
      linarith
    generalize (k : ℚ) / ((n : ℚ) - 1) = x at h0 h1
    have a1 := hi j
    have a2 := ho j
    rcases eq_or_lt_of_le h0 with rfl | h0
    · linarith
    · nlinarith [mul_nonneg (sub_nonneg.mpr h1) (sub_nonneg.mpr a1.le), mul_pos h0 (sub_pos.mpr a2)]

/-- What is known after `k` turns. -/
structure After (k : Nat) (s : State) : Prop where
  temp : s.temp = blockOf outerL outerU innerL innerU n k
  verts : s.domain.verts = (List.range (k + 1)).flatMap fun i => (blockOf outerL outerU innerL innerU n i).verts
  edges : s.domain.edges = (List.range (k + 1)).flatMap fun i => (blockOf outerL outerU innerL innerU n i).edges
  surfs : s.domain.surfs = (List.range (k + 1)).flatMap fun i => (blockOf outerL outerU innerL innerU n i).surfs
  volus : s.domain.volus = (List.range (k + 1)).flatMap fun i => (blockOf outerL outerU innerL innerU n i).volus
  maxVert : maxIdx Vert.index s.domain.verts = 8 * 2 ^ k
  maxEdge : maxIdx Edge.index s.domain.edges = 12 * 2 ^ k
  maxSurf : maxIdx Surf.index s.domain.surfs = 6 * 2 ^ k
  maxVolu : maxIdx Volu.index s.domain.volus = 2 ^ k
  vertPer : s.vertPer = List.replicate (k + 1) 8
  sound : Sound s.domain

theorem block_sound (k : Nat) : Sound (blockOf outerL outerU innerL innerU n k) := by
  have : (1 : Int) ≤ 2 ^ k := one_le_pow₀ (by norm_num)
  exact change_sound (boxAt_sound _ _) (by omega) (by omega) (by omega) (by omega)

theorem block_max (k : Nat) :
    ((∀ x ∈ (blockOf outerL outerU innerL innerU n k).verts, x.index ≤ 8 * 2 ^ k) ∧ ∃ x ∈ (blockOf outerL outerU innerL innerU n k).verts, x.index = 8 * 2 ^ k) ∧
    ((∀ x ∈ (blockOf outerL outerU innerL innerU n k).edges, x.index ≤ 12 * 2 ^ k) ∧ ∃ x ∈ (blockOf outerL outerU innerL innerU n k).edges, x.index = 12 * 2 ^ k) ∧
    ((∀ x ∈ (blockOf outerL outerU innerL innerU n k).surfs, x.index ≤ 6 * 2 ^ k) ∧ ∃ x ∈ (blockOf outerL outerU innerL innerU n k).surfs, x.index = 6 * 2 ^ k) ∧
    ((∀ x ∈ (blockOf outerL outerU innerL innerU n k).volus, x.index ≤ 2 ^ k) ∧ ∃ x ∈ (blockOf outerL outerU innerL innerU n k).volus, x.index = 2 ^ k) := by
  have key : ∀ {α β : Type} (ix : β → Int) (ix0 : α → Int) (l : List α) (f : α → β) (s N : Int), (∀ a, ix (f a) = ix0 a + s) →
      (∀ a ∈ l, ix0 a ≤ N - s) → (∃ a ∈ l, ix0 a = N - s) → (∀ x ∈ l.map f, ix x ≤ N) ∧ ∃ x ∈ l.map f, ix x = N := by
    intro α β ix ix0 l f s N h1 h2 ⟨a, h3, h4⟩
    refine ⟨?_, f a, List.mem_map_of_mem h3, by rw [h1, h4]; ring⟩
    intro x hx
    obtain ⟨b, hb, rfl⟩ := List.mem_map.mp hx
    rw [h1]
    have := h2 b hb
    omega
  have e1 : (8 : Int) * 2 ^ k - 8 * (2 ^ k - 1) = 8 := by ring
  have e2 : (12 : Int) * 2 ^ k - 12 * (2 ^ k - 1) = 12 := by ring
  have e3 : (6 : Int) * 2 ^ k - 6 * (2 ^ k - 1) = 6 := by ring
  have e4 : (2 : Int) ^ k - (2 ^ k - 1) = 1 := by ring
  refine ⟨?_, ?_, ?_, ?_⟩
  · have : (blockOf outerL outerU innerL innerU n k).verts = cube.verts.map fun v => Vert.shift (8 * (2 ^ k - 1)) (12 * (2 ^ k - 1)) (6 * (2 ^ k - 1)) (2 ^ k - 1)
        (setCoord v fun j => coordOf v j * (upperOf outerU innerU n k j - lowerOf outerL innerL n k j) + lowerOf outerL innerL n k j) := by
      simp [blockOf, boxAt, moveVerts, changeIndices, Function.comp_def]
    rw [this]
    exact key Vert.index Vert.index _ _ (8 * (2 ^ k - 1)) _ (fun _ => rfl) (by rw [e1]; decide +kernel) (by rw [e1]; decide +kernel)
  · exact key Edge.index Edge.index cube.edges _ (12 * (2 ^ k - 1)) _ (fun _ => rfl) (by rw [e2]; decide +kernel) (by rw [e2]; decide +kernel)
  · exact key Surf.index Surf.index cube.surfs _ (6 * (2 ^ k - 1)) _ (fun _ => rfl) (by rw [e3]; decide +kernel) (by rw [e3]; decide +kernel)
  · exact key Volu.index Volu.index cube.volus _ (2 ^ k - 1) _ (fun _ => rfl) (by rw [e4]; decide +kernel) (by rw [e4]; decide +kernel)

theorem after_turns {outerL outerU innerL innerU : P3 ℚ} (hi : ∀ j, innerL j < innerU j) (ho : ∀ j, outerL j < outerU j) {n : Nat} :
    ∀ k : Nat, k < n → After outerL outerU innerL innerU n k (turns outerL outerU innerL innerU n k)
  | 0, hk => by
    have hb : blockOf outerL outerU innerL innerU n 0 = buildDomain innerL innerU (1 / 10) := by
      rw [buildDomain_eq]
      have h0 : ∀ m : Mesh, m.changeIndices 0 0 0 0 = m := by
        intro m
        have hp : ∀ l : List Int, l.map (shiftPos 0) = l := fun l => by
          conv_rhs => rw [← List.map_id l]
          exact List.map_congr_left fun x _ => by simp [shiftPos]
        have hi : ∀ {α : Type} (l : List α) (f : α → α), (∀ a, f a = a) → l.map f = l := fun l f hf => by
          conv_rhs => rw [← List.map_id l]
          exact List.map_congr_left fun x _ => hf x
        unfold changeIndices
        rw [hi m.volus _ fun a => by cases a; simp [Volu.shift, hp], hi m.edges _ fun a => by cases a; simp [Edge.shift, hp],
          hi m.surfs _ fun a => by cases a; simp [Surf.shift, hp], hi m.verts _ fun a => by cases a; simp [Vert.shift]]
      unfold blockOf
      simp only [pow_zero, sub_self, mul_zero]
      rw [h0]
      rfl
    have hm := block_max outerL outerU innerL innerU n 0
    have hd : (turns outerL outerU innerL innerU n 0).domain = blockOf outerL outerU innerL innerU n 0 := by rw [hb]; rfl
    refine ⟨by rw [hb]; rfl, by rw [hd]; simp, by rw [hd]; simp, by rw [hd]; simp, by rw [hd]; simp, ?_, ?_, ?_, ?_, ?_, ?_⟩
    · rw [hd]; exact maxIdx_append (l := []) (by simp [maxIdx]) hm.1.1 hm.1.2
    · rw [hd]; exact maxIdx_append (l := []) (by simp [maxIdx]) hm.2.1.1 hm.2.1.2
    · rw [hd]; exact maxIdx_append (l := []) (by simp [maxIdx]) hm.2.2.1.1 hm.2.2.1.2
    · rw [hd]; exact maxIdx_append (l := []) (by simp [maxIdx]) hm.2.2.2.1 hm.2.2.2.2
    · have : (buildDomain innerL innerU (1 / 10)).verts.length = 8 := by rw [← hb]; exact boxAt_lengths _ _ _ _ _ _
      show [(buildDomain innerL innerU (1 / 10)).verts.length] = _
      rw [this]
      rfl
    · rw [hd]; exact block_sound _ _ _ _ _ _
  | k + 1, hk => by
    have ih := after_turns hi ho (n := n) k (by omega)
    have hm := block_max outerL outerU innerL innerU n (k + 1)
    have hp : (1 : Int) ≤ 2 ^ k := one_le_pow₀ (by norm_num)
    have hx : (2 : Int) ^ (k + 1) = 2 * 2 ^ k := by rw [pow_succ]; ring
    generalize hs : turns outerL outerU innerL innerU n k = s at ih
    have hscale : scaleMesh (fun j => domInter (((k + 1 : Nat) : ℚ) / ((n : ℚ) - 1)) (innerL j) (outerL j))
        (fun j => domInter (((k + 1 : Nat) : ℚ) / ((n : ℚ) - 1)) (innerU j) (outerU j)) s.temp =
        (boxAt (lowerOf outerL innerL n (k + 1)) (upperOf outerU innerU n (k + 1))).changeIndices
          (8 * (2 ^ k - 1)) (12 * (2 ^ k - 1)) (6 * (2 ^ k - 1)) (2 ^ k - 1) := by
      rw [ih.temp]
      unfold blockOf
      rw [scaleMesh_box (proper hi ho (by omega))]
      congr 2
    have htemp : s.domain.makeCompatible (scaleMesh (fun j => domInter (((k + 1 : Nat) : ℚ) / ((n : ℚ) - 1)) (innerL j) (outerL j))
        (fun j => domInter (((k + 1 : Nat) : ℚ) / ((n : ℚ) - 1)) (innerU j) (outerU j)) s.temp) =
        blockOf outerL outerU innerL innerU n (k + 1) := by
      rw [hscale]
      unfold makeCompatible
      rw [ih.maxVert, ih.maxEdge, ih.maxSurf, ih.maxVolu, change_change _ (by omega) (by omega)]
      unfold blockOf
      rw [hx]
      congr 1 <;> ring
    have hst : turns outerL outerU innerL innerU n (k + 1) = ⟨s.domain.concatenate (blockOf outerL outerU innerL innerU n (k + 1)),
        blockOf outerL outerU innerL innerU n (k + 1), s.vertPer ++ [(blockOf outerL outerU innerL innerU n (k + 1)).verts.length]⟩ := by
      show step outerL outerU innerL innerU n (k + 1) (turns outerL outerU innerL innerU n k) = _
      rw [hs]
      unfold step
      simp only [htemp]
    have hsnd : Sound (s.domain.concatenate (blockOf outerL outerU innerL innerU n (k + 1))) := by
      rw [← htemp, hscale]
      have hb : Sound ((boxAt (lowerOf outerL innerL n (k + 1)) (upperOf outerU innerU n (k + 1))).changeIndices
          (8 * (2 ^ k - 1)) (12 * (2 ^ k - 1)) (6 * (2 ^ k - 1)) (2 ^ k - 1)) :=
        change_sound (boxAt_sound _ _) (by omega) (by omega) (by omega) (by omega)
      exact union_sound (concat_disjoint hb.pos (nonNegRefs_of_noDangling hb.noDangling hb.pos))
        ⟨(maxIdx_spec _ _).1, (maxIdx_spec _ _).1, (maxIdx_spec _ _).1, (maxIdx_spec _ _).1⟩
        (concat_unique ih.sound.unique hb.unique hb.pos) ih.sound hb
    rw [hst]
    refine ⟨rfl, ?_, ?_, ?_, ?_, ?_, ?_, ?_, ?_, ?_, hsnd⟩
    · rw [List.range_succ, List.flatMap_append]; simp [concatenate, ih.verts]
    · rw [List.range_succ, List.flatMap_append]; simp [concatenate, ih.edges]
    · rw [List.range_succ, List.flatMap_append]; simp [concatenate, ih.surfs]
    · rw [List.range_succ, List.flatMap_append]; simp [concatenate, ih.volus]
    · exact maxIdx_append (by rw [ih.maxVert, hx]; omega) hm.1.1 hm.1.2
    · exact maxIdx_append (by rw [ih.maxEdge, hx]; omega) hm.2.1.1 hm.2.1.2
    · exact maxIdx_append (by rw [ih.maxSurf, hx]; omega) hm.2.2.1.1 hm.2.2.1.2
    · exact maxIdx_append (by rw [ih.maxVolu, hx]; omega) hm.2.2.2.1 hm.2.2.2.2
    · have : (blockOf outerL outerU innerL innerU n (k + 1)).verts.length = 8 := boxAt_lengths _ _ _ _ _ _
      simp only [ih.vertPer, this]
      exact (List.replicate_succ' ..).symm

/-- The entries of blocks of the same size. -/
theorem flatMap_get {α : Type} (f : Nat → List α) (c : Nat) (hf : ∀ i, (f i).length = c) (n k j : Nat) (hk : k < n) (hj : j < c) :
    ((List.range n).flatMap f)[c * k + j]? = (f k)[j]? := by
  induction n with
  | zero => omega
  | succ n ih =>
    have hl : ((List.range n).flatMap f).length = c * n := by
      simp [List.length_flatMap, hf, mul_comm]
    rw [List.range_succ, List.flatMap_append]
    by_cases hkn : k < n
    · rw [List.getElem?_append_left, ih hkn]
      rw [hl]
      calc c * k + j < c * k + c := by omega
        _ = c * (k + 1) := by ring
        _ ≤ c * n := Nat.mul_le_mul_left _ hkn
    · have : k = n := by omega
      subst this
      rw [List.getElem?_append_right (by rw [hl]; omega), hl, Nat.add_sub_cancel_left]
      simp

end RSVS.BoxDomain
