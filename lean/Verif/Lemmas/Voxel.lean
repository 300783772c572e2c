import Mathlib.Tactic.Ring
import Mathlib.Tactic.Linarith
import Mathlib.Tactic.FinCases
import Mathlib.Tactic.IntervalCases
import Mathlib.Tactic.Positivity
import Verif.Model.Voxel

/-!
# Lemmas on block grids: divisions, positions and numbers
-/

namespace RSVS.Voxel

/-! ### Floating point divisions -/

theorem roundDiv_ge (n d : Nat) : n / d ≤ roundDiv n d := by
  unfold roundDiv
  simp only
  split
  · exact Nat.le_refl _
  · split
    · omega
    · split <;> omega

theorem roundDiv_lt {n d M : Nat} (hd : 0 < d) (h : 2 * n + d < 2 * M * d) : roundDiv n d < M := by
  have hn := Nat.div_add_mod n d
  have hr := Nat.mod_lt n hd
  generalize hq : n / d = q at *
  generalize hrr : n % d = r at *
  have key : q + (if 2 * r < d then 0 else 1) < M := by
    by_contra hc
    have hc := not_lt.mp hc
    split at hc
    · have := Nat.mul_le_mul_right d hc
      nlinarith
    · have := Nat.mul_le_mul_right d hc
      nlinarith
  unfold roundDiv
  simp only [hq, hrr]
  split at key
  · rename_i h1
    rw [if_pos h1]; omega
  · rename_i h1
    rw [if_neg h1]
    split
    · exact key
    · split <;> omega

theorem roundDiv_one (n : Nat) : roundDiv n 1 = n := by
  unfold roundDiv
  simp [Nat.mod_one]

theorem log2_le_of_lt {p n : Nat} (h : n < 2 ^ p) : Nat.log2 n - (p - 1) = 0 := by
  by_cases h0 : n = 0
  · subst h0; simp [Nat.log2_zero]
  · have := (Nat.log2_lt h0).2 h
    omega

theorem toFl_eq {p n : Nat} (h : n < 2 ^ p) : toFl p n = n := by
  unfold toFl
  rw [log2_le_of_lt h]
  simp [roundDiv_one]

/-- Below `2^p` the floor of the rounded quotient is the exact quotient. -/
theorem flDiv_eq {p n d : Nat} (hn : n < 2 ^ p) (hd : d < 2 ^ p) (h0 : 0 < d) :
    flDiv p n d = n / d := by
  unfold flDiv
  simp only [toFl_eq hn, toFl_eq hd]
  split
  · rename_i hlt
    have h1 : roundDiv (n * 2 ^ p) d < 2 ^ p := by
      apply roundDiv_lt h0
      have : (n + 1) * 2 ^ p ≤ d * 2 ^ p := Nat.mul_le_mul_right _ hlt
      nlinarith
    rw [Nat.div_eq_of_lt h1, Nat.div_eq_of_lt hlt]
  · rename_i hge
    have hge := not_lt.mp hge
    have hk : n / d ≠ 0 := by
      have := (Nat.one_le_div_iff h0).2 hge
      omega
    have hkp : n / d < 2 ^ p := lt_of_le_of_lt (Nat.div_le_self _ _) hn
    have hL := log2_le_of_lt hkp
    have hLp : Nat.log2 (n / d) < p := (Nat.log2_lt hk).2 hkp
    have hLk : 2 ^ Nat.log2 (n / d) ≤ n / d := Nat.log2_self_le hk
    generalize Nat.log2 (n / d) = L at *
    rw [hL]
    simp only [Nat.pow_zero, Nat.mul_one]
    generalize hs : 2 ^ (p - 1 - L) = s
    have hsL : 2 * s * 2 ^ L = 2 ^ p := by
      rw [← hs, Nat.mul_assoc, ← Nat.pow_add, ← Nat.pow_succ']
      congr 1; omega
    have hs0 : 0 < s := by rw [← hs]; exact Nat.pow_pos (by decide)
    have hdn := Nat.div_add_mod n d
    have hr := Nat.mod_lt n h0
    generalize n / d = k at *
    have hd2 : d < 2 * s := by
      have h3 : d * 2 ^ L < 2 * s * 2 ^ L := by
        rw [hsL]
        have := Nat.mul_le_mul_left d hLk
        omega
      exact Nat.lt_of_mul_lt_mul_right h3
    have hup : roundDiv (n * s) d < (k + 1) * s := by
      apply roundDiv_lt h0
      have h1 : n + 1 ≤ d * (k + 1) := by rw [Nat.mul_succ]; omega
      have h2 := Nat.mul_le_mul_right (2 * s) h1
      nlinarith
    have hlo : k * s ≤ roundDiv (n * s) d := by
      refine le_trans ?_ (roundDiv_ge _ _)
      rw [Nat.le_div_iff_mul_le h0]
      have : d * k ≤ n := by omega
      have := Nat.mul_le_mul_right s this
      nlinarith
    exact Nat.div_eq_of_lt_le hlo hup

/-! ### Positions and their numbers -/

/-- The position is within the sizes. -/
def Box (m : Dims) (p : Pos) : Prop := ∀ j, 0 ≤ p j ∧ p j < m j

theorem lin_eq (m : Dims) (p : Pos) : lin m p = p 0 + m 0 * (p 1 + m 1 * p 2) := by
  simp [lin, incPos]; ring

theorem lin_nonneg {m : Dims} {p : Pos} (h : Box m p) : 0 ≤ lin m p := by
  rw [lin_eq]
  have h0 := (h 0).1; have h1 := (h 1).1; have h2 := (h 2).1
  positivity

theorem lin_lt {m : Dims} {p : Pos} (h : Box m p) : lin m p < prod3 m := by
  rw [lin_eq]
  obtain ⟨h0, h0'⟩ := h 0; obtain ⟨h1, h1'⟩ := h 1; obtain ⟨h2, h2'⟩ := h 2
  have e1 : p 1 + m 1 * p 2 + 1 ≤ m 1 * m 2 := by
    have : (m 1 : Int) * (p 2 + 1) ≤ m 1 * m 2 := Int.mul_le_mul_of_nonneg_left h2' (by omega)
    nlinarith
  have e2 : (m 0 : Int) * (p 1 + m 1 * p 2 + 1) ≤ m 0 * (m 1 * m 2) :=
    Int.mul_le_mul_of_nonneg_left e1 (by omega)
  simp only [prod3]; push_cast
  nlinarith

theorem lin_inj {m : Dims} {p q : Pos} (hp : Box m p) (hq : Box m q) (h : lin m p = lin m q) :
    p = q := by
  rw [lin_eq, lin_eq] at h
  have s1 : ∀ (a b x y c : Int), 0 ≤ a → a < c → 0 ≤ b → b < c → a + c * x = b + c * y →
      a = b ∧ x = y := by
    intro a b x y c ha ha' hb hb' e
    have e1 : (a + c * x) % c = a := by
      rw [Int.add_mul_emod_self_left]; exact Int.emod_eq_of_lt ha ha'
    have e2 : (b + c * y) % c = b := by
      rw [Int.add_mul_emod_self_left]; exact Int.emod_eq_of_lt hb hb'
    have e3 : a = b := by rw [← e1, ← e2, e]
    subst e3
    refine ⟨rfl, ?_⟩
    have : c * x = c * y := by omega
    exact mul_left_cancel₀ (by omega : c ≠ 0) this
  obtain ⟨a0, h'⟩ := s1 _ _ _ _ _ (hp 0).1 (hp 0).2 (hq 0).1 (hq 0).2 h
  obtain ⟨a1, a2⟩ := s1 _ _ _ _ _ (hp 1).1 (hp 1).2 (hq 1).1 (hq 1).2 h'
  funext j
  fin_cases j
  · exact a0
  · exact a1
  · exact a2

theorem prod3_pos {m : Dims} {n : Nat} (h : n < prod3 m) : 0 < m 0 ∧ 0 < m 1 ∧ 0 < m 2 := by
  unfold prod3 at h
  have h' : 0 < m 0 * m 1 * m 2 := by omega
  exact ⟨Nat.pos_of_mul_pos_right (Nat.pos_of_mul_pos_right h'),
    Nat.pos_of_mul_pos_left (Nat.pos_of_mul_pos_right h'), Nat.pos_of_mul_pos_left h'⟩

theorem posAt_spec {p : Nat} {m : Dims} {n : Nat} (h : n < prod3 m) (hp : prod3 m ≤ 2 ^ p)
    (hm : m 0 < 2 ^ p) (h53 : prod3 m < 2 ^ 53) :
    Box m (posAt p m n) ∧ lin m (posAt p m n) = n := by
  obtain ⟨h0, h1, h2⟩ := prod3_pos h
  have hp' : m 0 * m 1 ≤ prod3 m := Nat.le_mul_of_pos_right _ h2
  have e1 : flDiv p n (m 0) = n / m 0 := flDiv_eq (by omega) hm h0
  have e2 : flDiv 53 n (m 0 * m 1) = n / (m 0 * m 1) :=
    flDiv_eq (by omega) (by omega) (Nat.mul_pos h0 h1)
  have e3 : n / (m 0 * m 1) < m 2 := Nat.div_lt_of_lt_mul h
  have e4 : n / (m 0 * m 1) = n / m 0 / m 1 := (Nat.div_div_eq_div_mul _ _ _).symm
  constructor
  · intro j
    fin_cases j
    · exact ⟨Int.natCast_nonneg _, Int.ofNat_lt.2 (Nat.mod_lt _ h0)⟩
    · exact ⟨Int.natCast_nonneg _, Int.ofNat_lt.2 (Nat.mod_lt _ h1)⟩
    · exact ⟨Int.natCast_nonneg _, Int.ofNat_lt.2 (Nat.mod_lt _ h2)⟩
  · rw [lin_eq]
    show ((n % m 0 : Nat) : Int) + m 0 * (((flDiv p n (m 0) % m 1 : Nat) : Int) +
      m 1 * ((flDiv 53 n (m 0 * m 1) % m 2 : Nat) : Int)) = n
    rw [e1, e2, Nat.mod_eq_of_lt e3, e4]
    have a1 := Nat.mod_add_div n (m 0)
    have a2 := Nat.mod_add_div (n / m 0) (m 1)
    rw [← Int.natCast_mul, ← Int.natCast_add, a2, ← Int.natCast_mul, ← Int.natCast_add, a1]

/-! ### Three families of elements -/

/-- Number of the element of family `i` at `p`, for families with the sizes `mat`. -/
def num (mat : Fin 3 → Dims) (i : Fin 3) (p : Pos) : Int :=
  lin (mat i) p + incr (fun k => prod3 (mat k)) i + 1

theorem surfNum_eq (d : Dims) : surfNum d = num (matSurf d) := rfl
theorem edgeNum_eq (d : Dims) : edgeNum d = num (matEdge d) := rfl

theorem num_pos {mat : Fin 3 → Dims} {i : Fin 3} {p : Pos} (h : Box (mat i) p) :
    0 < num mat i p := by
  have := lin_nonneg h
  unfold num; omega

theorem num_le {mat : Fin 3 → Dims} {i : Fin 3} {p : Pos} (h : Box (mat i) p) :
    num mat i p ≤ (prod3 (mat 0) + prod3 (mat 1) + prod3 (mat 2) : Nat) := by
  have := lin_lt h
  unfold num
  fin_cases i <;> simp [incr] at * <;> omega

theorem num_inj {mat : Fin 3 → Dims} {i k : Fin 3} {p q : Pos} (hp : Box (mat i) p)
    (hq : Box (mat k) q) (h : num mat i p = num mat k q) : i = k ∧ p = q := by
  have a1 := lin_lt hp; have a2 := lin_lt hq
  have b1 := lin_nonneg hp; have b2 := lin_nonneg hq
  unfold num at h
  have hik : i = k := by
    fin_cases i <;> fin_cases k <;> simp [incr] at * <;> omega
  subst hik
  exact ⟨rfl, lin_inj hp hq (by omega)⟩

theorem num_iff {mat : Fin 3 → Dims} {i k : Fin 3} {p q : Pos} (hp : Box (mat i) p)
    (hq : Box (mat k) q) : num mat i p = num mat k q ↔ i = k ∧ p = q :=
  ⟨num_inj hp hq, fun h => by rw [h.1, h.2]⟩

/-- The sizes for which the positions are computed exactly. -/
structure Small (d : Dims) : Prop where
  x : 0 < d 0
  y : 0 < d 1
  verts : nVert d ≤ 2 ^ 24

theorem prod3_mono {m m' : Dims} (h : ∀ j, m j ≤ m' j) : prod3 m ≤ prod3 m' :=
  Nat.mul_le_mul (Nat.mul_le_mul (h 0) (h 1)) (h 2)

theorem matSurf_le (d : Dims) (i : Fin 3) : prod3 (matSurf d i) ≤ nVert d :=
  prod3_mono (fun j => by simp only [matSurf, surfProp, vDims]; split <;> omega)

theorem matEdge_le (d : Dims) (i : Fin 3) : prod3 (matEdge d i) ≤ nVert d :=
  prod3_mono (fun j => by simp only [matEdge, edgeProp, vDims]; split <;> omega)

theorem dims_le (d : Dims) : prod3 d ≤ nVert d := prod3_mono (fun j => by unfold vDims; omega)

theorem Small.x_lt {d : Dims} (h : Small d) : d 0 + 1 < 2 ^ 24 := by
  have hv := h.verts
  have hy := h.y
  unfold nVert prod3 vDims at hv
  have : (d 0 + 1) * 2 * 1 ≤ (d 0 + 1) * (d 1 + 1) * (d 2 + 1) :=
    Nat.mul_le_mul (Nat.mul_le_mul_left _ (by omega)) (by omega)
  omega

theorem volu_pos {d : Dims} (h : Small d) {ii : Nat} (hi : ii < nVolu d) :
    Box d (posAt 24 d ii) ∧ voluNum d (posAt 24 d ii) = (ii : Int) + 1 := by
  have h1 := dims_le d
  have h2 := h.verts
  have h3 := h.x_lt
  obtain ⟨a, b⟩ := posAt_spec (p := 24) (m := d) (n := ii) hi (by omega) (by omega) (by omega)
  exact ⟨a, by unfold voluNum; rw [b]⟩

theorem vert_pos {d : Dims} (h : Small d) {ii : Nat} (hi : ii < nVert d) :
    Box (vDims d) (posAt 24 (vDims d) ii) ∧
      vertNum d (posAt 24 (vDims d) ii) = (ii : Int) + 1 := by
  have h2 := h.verts
  have h3 := h.x_lt
  have hv : nVert d = prod3 (vDims d) := rfl
  obtain ⟨a, b⟩ := posAt_spec (p := 24) (m := vDims d) (n := ii) hi (by omega) h3 (by omega)
  exact ⟨a, by unfold vertNum; rw [b]⟩

/-- Family and position of a number. -/
theorem fam_pos {mat : Fin 3 → Dims} (hle : ∀ i, prod3 (mat i) ≤ 2 ^ 24) {ii : Nat} {i : Fin 3}
    (h1 : incr (fun k => prod3 (mat k)) i ≤ ii)
    (h2 : ii < incr (fun k => prod3 (mat k)) i + prod3 (mat i)) :
    Box (mat i) (posAt 53 (mat i) (ii - incr (fun k => prod3 (mat k)) i)) ∧
      num mat i (posAt 53 (mat i) (ii - incr (fun k => prod3 (mat k)) i)) = (ii : Int) + 1 := by
  have hl := hle i
  have hn : ii - incr (fun k => prod3 (mat k)) i < prod3 (mat i) := by omega
  obtain ⟨p0, p1, p2⟩ := prod3_pos hn
  have hm : mat i 0 ≤ prod3 (mat i) := by
    unfold prod3
    rw [Nat.mul_assoc]
    exact Nat.le_mul_of_pos_right _ (Nat.mul_pos p1 p2)
  obtain ⟨a, b⟩ := posAt_spec (p := 53) hn (by omega) (by omega) (by omega)
  refine ⟨a, ?_⟩
  unfold num
  rw [b]
  omega

theorem surf_pos {d : Dims} (h : Small d) {ii : Nat} (hi : ii < nSurf d) :
    Box (matSurf d (surfPlane d ii))
        (posAt 53 (matSurf d (surfPlane d ii)) (ii - incr (nSurfDim d) (surfPlane d ii))) ∧
      surfNum d (surfPlane d ii) (posAt 53 (matSurf d (surfPlane d ii))
        (ii - incr (nSurfDim d) (surfPlane d ii))) = (ii : Int) + 1 := by
  have hle : ∀ i, prod3 (matSurf d i) ≤ 2 ^ 24 := fun i => le_trans (matSurf_le d i) h.verts
  have hin : incr (fun k => prod3 (matSurf d k)) (surfPlane d ii) ≤ ii ∧
      ii < incr (fun k => prod3 (matSurf d k)) (surfPlane d ii) + prod3 (matSurf d (surfPlane d ii)) := by
    unfold nSurf nSurfDim at hi
    unfold surfPlane nSurf nSurfDim
    rw [if_neg (by omega : ¬ (prod3 (matSurf d 0) + prod3 (matSurf d 1) + prod3 (matSurf d 2) ≤ ii))]
    split
    · split
      · show prod3 (matSurf d 0) + prod3 (matSurf d 1) ≤ ii ∧
          ii < prod3 (matSurf d 0) + prod3 (matSurf d 1) + prod3 (matSurf d 2)
        omega
      · show prod3 (matSurf d 0) ≤ ii ∧ ii < prod3 (matSurf d 0) + prod3 (matSurf d 1)
        omega
    · split
      · omega
      · show 0 ≤ ii ∧ ii < 0 + prod3 (matSurf d 0)
        omega
  exact fam_pos hle hin.1 hin.2

theorem edge_pos {d : Dims} (h : Small d) {ii : Nat} (hi : ii < nEdge d) :
    Box (matEdge d (edgePlane d ii))
        (posAt 53 (matEdge d (edgePlane d ii)) (ii - incr (nEdgeDim d) (edgePlane d ii))) ∧
      edgeNum d (edgePlane d ii) (posAt 53 (matEdge d (edgePlane d ii))
        (ii - incr (nEdgeDim d) (edgePlane d ii))) = (ii : Int) + 1 := by
  have hle : ∀ i, prod3 (matEdge d i) ≤ 2 ^ 24 := fun i => le_trans (matEdge_le d i) h.verts
  have hin : incr (fun k => prod3 (matEdge d k)) (edgePlane d ii) ≤ ii ∧
      ii < incr (fun k => prod3 (matEdge d k)) (edgePlane d ii) + prod3 (matEdge d (edgePlane d ii)) := by
    unfold nEdge nEdgeDim at hi
    have e0 : incr (nEdgeDim d) 0 = 0 := rfl
    have e1 : incr (nEdgeDim d) 1 = prod3 (matEdge d 0) := rfl
    have e2 : incr (nEdgeDim d) 2 = prod3 (matEdge d 0) + prod3 (matEdge d 1) := rfl
    unfold edgePlane
    rw [e0, e1, e2, if_pos (Nat.zero_le _)]
    split
    · split
      · show prod3 (matEdge d 0) + prod3 (matEdge d 1) ≤ ii ∧
          ii < prod3 (matEdge d 0) + prod3 (matEdge d 1) + prod3 (matEdge d 2)
        omega
      · show prod3 (matEdge d 0) ≤ ii ∧ ii < prod3 (matEdge d 0) + prod3 (matEdge d 1)
        omega
    · split
      · omega
      · show 0 ≤ ii ∧ ii < 0 + prod3 (matEdge d 0)
        omega
  exact fam_pos hle hin.1 hin.2

end RSVS.Voxel
