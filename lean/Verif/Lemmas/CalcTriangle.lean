import Verif.Props.Centroid
import Verif.Lemmas.CentroidSecond
import Verif.Props.MatTools
import Mathlib.Analysis.Calculus.Deriv.Prod
import Verif.Props.TriangleArea
import Verif.Lemmas.Mesh
import Verif.Spec.Snake
import Verif.Model.CalcTriangle

/-! # The rows of `dPos` are gradients -/

namespace RSVS.Calc

open RSVS.Spec RSVS.Props RSVS.Math

theorem move_here (d : ℤ → ℝ) (vars : List ℤ) : move d vars (here d vars) = d := by
  funext s
  unfold move here
  split
  · next h => simp [List.get_eq_getElem]
  · rfl

/-- Derivative of a coordinate of a corner. -/
def cornerRow (R : Rails) (dvs : List ℤ) : Corner → Fin 3 → Nat → ℝ
  | .node _, _, _ => 0
  | .snaxel s, k, c =>
    if s ∈ dvs ∧ dvs.idxOf s = c then R.node (R.stop s) k - R.node (R.start s) k else 0

theorem corner_grad (R : Rails) (d : ℤ → ℝ) (dvs : List ℤ) (c : Corner) (k : Fin 3)
    (x : Fin dvs.length → ℝ) :
    IsGrad (fun y => c.pos R (move d dvs y) k) (fun j => cornerRow R dvs c k j) x := by
  cases c with
  | node i => exact IsGrad.const _
  | snaxel s =>
    by_cases h : s ∈ dvs
    · have e : (fun y : Fin dvs.length → ℝ => (Corner.snaxel s).pos R (move d dvs y) k) =
          fun y => R.node (R.start s) k + y ⟨dvs.idxOf s, List.idxOf_lt_length_of_mem h⟩ *
            (R.node (R.stop s) k - R.node (R.start s) k) := by
        funext y
        simp [Corner.pos, Rails.snaxel, along, move, h]
      rw [e]
      refine ((IsGrad.const _).add ((IsGrad.coord _).mul (IsGrad.const _))).congr fun j => ?_
      simp only [cornerRow, h, true_and, Fin.ext_iff]
      by_cases hj : (j : Nat) = dvs.idxOf s
      · simp [hj]
      · simp [hj, Ne.symm hj]
    · have e : (fun y : Fin dvs.length → ℝ => (Corner.snaxel s).pos R (move d dvs y) k) =
          fun _ => R.snaxel d s k := by
        funext y
        simp [Corner.pos, Rails.snaxel, along, move, h]
      rw [e]
      refine (IsGrad.const _).congr fun j => ?_
      simp [cornerRow, h]

theorem corner_hess (R : Rails) (d : ℤ → ℝ) (dvs : List ℤ) (c : Corner) (k : Fin 3)
    (x : Fin dvs.length → ℝ) :
    IsHess (fun y => c.pos R (move d dvs y) k) (fun _ _ => 0) x :=
  ⟨fun _ j => cornerRow R dvs c k j, .of_forall fun y => corner_grad R d dvs c k y,
    fun _ => IsGrad.const _⟩

/-- The code sees the edge of the snaxel. -/
structure Sees (E : Env) (R : Rails) (s : ℤ) : Prop where
  snax : E.snax s = .ok (R.start s, R.stop s)
  start : E.meshVert (R.start s) = .ok (R.node (R.start s))
  stop : E.meshVert (R.stop s) = .ok (R.node (R.stop s))

/-- The code sees the corner at its position. -/
def SeesCorner (E : Env) (R : Rails) (d : ℤ → ℝ) : Corner → Prop
  | .node i => E.meshVert i = .ok (R.node i)
  | .snaxel s => Sees E R s ∧ E.snakeVert s = .ok (R.snaxel d s)

/-- Index and type of a corner in a `trisurf`. -/
def code : Corner → Int × Int
  | .node i => (i, 1)
  | .snaxel s => (s, 2)

/-- A polygon with different neighbours, long enough for the code to calculate its centroid. -/
structure Regular (R : Rails) (d : ℤ → ℝ) {n : ℕ} (c : Fin (n + 1) → Corner) : Prop where
  four : 4 ≤ n + 1
  ne : ∀ j, (c j).pos R d ≠ (c (j + 1)).pos R d
  long : 1 / 10 ^ 15 ≤ perimeter fun k => (c k).pos R d

/-- The triangulation describes a point: its type and index lead to data that agree with it. -/
inductive Describes (E : Env) (R : Rails) (d : ℤ → ℝ) : Int → Int → Pt → Prop
  | node (i : ℤ) (h : SeesCorner E R d (.node i)) : Describes E R d 1 i (.corner (.node i))
  | snaxel (s : ℤ) (h : SeesCorner E R d (.snaxel s)) : Describes E R d 2 s (.corner (.snaxel s))
  | fixed (i q : ℤ) (p : Fin 3 → ℝ) (h : E.trivert i = .ok ⟨p, 1, q⟩) : Describes E R d 3 i (.fixed p)
  | hybrid (i q : ℤ) {n : ℕ} (c : Fin (n + 1) → Corner) (hr : Regular R d c)
      (h : E.trivert i = .ok ⟨(Pt.centre n c).pos R d, 3, q⟩)
      (hl : E.trisurf q = .ok (List.ofFn fun k => code (c k)))
      (hc : ∀ k, SeesCorner E R d (c k)) : Describes E R d 3 i (.centre n c)
  | snake (i q : ℤ) {n : ℕ} (s : Fin (n + 1) → ℤ) (l : List ℤ)
      (hr : Regular R d fun k => .snaxel (s k))
      (h : E.trivert i = .ok ⟨(Pt.centre n fun k => .snaxel (s k)).pos R d, 2, q⟩)
      (hl : E.snakeConn q = .ok (List.ofFn s)) (hl' : E.snakeSurf q = .ok l)
      (hm : ∀ x, x ∈ l ↔ x ∈ List.ofFn s)
      (hc : ∀ k, SeesCorner E R d (.snaxel (s k))) :
      Describes E R d 3 i (.centre n fun k => .snaxel (s k))

variable {E : Env} {R : Rails} {d : ℤ → ℝ}

theorem coordOf_eq {ty ind : Int} {p : Pt} (h : Describes E R d ty ind p) :
    coordOf E ty ind = .ok (p.pos R d) := by
  unfold coordOf
  cases h with
  | node i h => exact h
  | snaxel s h => exact h.2
  | fixed i q p h => simp [h, Except.map, Pt.pos]
  | hybrid i q c hr h hl hc => simp [h, Except.map]
  | snake i q s l hr h hl hl' hm hc => simp [h, Except.map]

theorem direction_eq {s : ℤ} (h : Sees E R s) :
    direction E s = .ok fun k => R.node (R.stop s) k - R.node (R.start s) k := by
  unfold direction
  rw [h.snax]
  simp only [Except.bind]
  rw [h.start]
  simp only
  rw [h.stop]
  rfl

theorem hybridCoords_eq {l : List Corner} (h : ∀ c ∈ l, SeesCorner E R d c) :
    hybridCoords E (l.map code) = .ok (l.map fun c => c.pos R d) := by
  induction l with
  | nil => rfl
  | cons c l ih =>
    have ih := ih fun c hc => h c (List.mem_cons_of_mem _ hc)
    have h0 := h c List.mem_cons_self
    cases c with
    | node i =>
      have h0 : E.meshVert i = .ok (R.node i) := h0
      simp [hybridCoords, code, h0, ih, Except.bind, Except.map, Corner.pos]
    | snaxel s =>
      have h0 : E.snakeVert s = .ok (R.snaxel d s) := h0.2
      simp [hybridCoords, code, h0, ih, Except.bind, Except.map, Corner.pos]

theorem snakeCoords_eq {l : List ℤ} (h : ∀ s ∈ l, SeesCorner E R d (.snaxel s)) :
    snakeCoords E l = .ok (l.map fun s => R.snaxel d s) := by
  induction l with
  | nil => rfl
  | cons s l ih =>
    have ih := ih fun c hc => h c (List.mem_cons_of_mem _ hc)
    have h0 := (h s List.mem_cons_self).2
    simp [snakeCoords, h0, ih, Except.bind, Except.map]

/-- What one corner adds. -/
theorem centreAdd_eq (J : Fin 3 → ℕ → ℝ) (count : ℕ) (dvs : List ℤ) (s : ℤ) (j : ℕ) (k : Fin 3)
    (c : ℕ) : centreAdd J count dvs s j
      (fun k => R.node (R.stop s) k - R.node (R.start s) k) k c =
      ∑ a : Fin 3, J k (j + count * a) * cornerRow R dvs (.snaxel s) a c := by
  simp only [centreAdd, cornerRow]
  split
  · rw [Fin.sum_univ_three]; rfl
  · simp

theorem hybridAdds_eq (J : Fin 3 → ℕ → ℝ) (count : ℕ) (dvs : List ℤ) {l : List Corner}
    (h : ∀ c ∈ l, SeesCorner E R d c) (j : ℕ) :
    ∃ r, hybridAdds E J count dvs j (l.map code) = .ok r ∧ ∀ k c, r k c =
      ∑ i : Fin l.length, ∑ a : Fin 3, J k (j + i + count * a) * cornerRow R dvs (l.get i) a c := by
  induction l generalizing j with
  | nil => exact ⟨_, rfl, fun k c => by simp⟩
  | cons x l ih =>
    obtain ⟨r, hr, he⟩ := ih (fun c hc => h c (List.mem_cons_of_mem _ hc)) (j + 1)
    have h0 := h x List.mem_cons_self
    have hs : ∀ k c, ∑ i : Fin (x :: l).length, ∑ a : Fin 3, J k (j + i + count * a) *
        cornerRow R dvs ((x :: l).get i) a c =
        ∑ a : Fin 3, J k (j + count * a) * cornerRow R dvs x a c + r k c := by
      intro k c
      rw [he]
      show ∑ i : Fin (l.length + 1), _ = _
      rw [Fin.sum_univ_succ]
      congr 1
      refine Finset.sum_congr rfl fun i _ => Finset.sum_congr rfl fun a _ => ?_
      rw [Fin.val_succ, show j + (i.val + 1) = j + 1 + i.val by omega]
      rfl
    have hz : ∀ k c, (∀ a, cornerRow R dvs x a c = 0) →
        ∑ a : Fin 3, J k (j + count * a) * cornerRow R dvs x a c = 0 := fun k c h => by simp [h]
    cases x with
    | node i =>
      refine ⟨r, ?_, fun k c => ?_⟩
      · simp [hybridAdds, code, hr]
      · rw [hs, hz k c fun a => rfl, zero_add]
    | snaxel s =>
      by_cases hm : s ∈ dvs
      · refine ⟨_, ?_, fun k c => (hs k c).symm⟩
        simp only [List.map_cons, code, hybridAdds, hm, and_self, if_true, direction_eq h0.1,
          Except.bind]
        rw [show (List.map code l) = l.map code from rfl] at *
        rw [hr]
        simp only [Except.map, centreAdd_eq]
      · refine ⟨r, ?_, fun k c => ?_⟩
        · simp [hybridAdds, code, hr, hm]
        · rw [hs, hz k c fun a => by simp [cornerRow, hm], zero_add]

theorem snakeAdds_eq (J : Fin 3 → ℕ → ℝ) (count : ℕ) (dvs : List ℤ) {l : List ℤ}
    (h : ∀ s ∈ l, SeesCorner E R d (.snaxel s)) (j : ℕ) :
    ∃ r, snakeAdds E J count dvs j l = .ok r ∧ ∀ k c, r k c =
      ∑ i : Fin l.length, ∑ a : Fin 3,
        J k (j + i + count * a) * cornerRow R dvs (.snaxel (l.get i)) a c := by
  induction l generalizing j with
  | nil => exact ⟨_, rfl, fun k c => by simp⟩
  | cons s l ih =>
    obtain ⟨r, hr, he⟩ := ih (fun c hc => h c (List.mem_cons_of_mem _ hc)) (j + 1)
    have h0 := h s List.mem_cons_self
    refine ⟨fun k c => ∑ a : Fin 3, J k (j + count * a) * cornerRow R dvs (.snaxel s) a c + r k c,
      ?_, fun k c => ?_⟩
    · simp only [snakeAdds, direction_eq h0.1, Except.bind, hr, Except.map, centreAdd_eq]
    · have hs : ∑ i : Fin (l.length + 1), ∑ a : Fin 3, J k (j + i + count * a) *
          cornerRow R dvs (.snaxel ((s :: l).get i)) a c =
          ∑ a : Fin 3, J k (j + count * a) * cornerRow R dvs (.snaxel s) a c + r k c := by
        rw [he, Fin.sum_univ_succ]
        congr 1
        refine Finset.sum_congr rfl fun i _ => Finset.sum_congr rfl fun a _ => ?_
        rw [Fin.val_succ, show j + (i.val + 1) = j + 1 + i.val by omega]
        rfl
      exact hs.symm

/-- The Jacobian of the centroid, and the gradient it leads to. -/
theorem centre_grad {n : ℕ} {c : Fin (n + 1) → Corner} (hr : Regular R d c) (dvs : List ℤ) :
    ∃ J, centreJac (List.ofFn fun k => (c k).pos R d) (n + 1) 0 0 = .ok J ∧
      ∀ k, IsGrad (fun y => (Pt.centre n c).pos R (move d dvs y) k)
        (fun col => ∑ i : Fin (n + 1), ∑ a : Fin 3, J k (i + (n + 1) * a) * cornerRow R dvs (c i) a col)
        (here d dvs) := by
  let X : Fin (n + 1) × Fin 3 → ℝ := fun kd => (c kd.1).pos R d kd.2
  obtain ⟨f, J, hJ, -, hg⟩ := C77_partial (n := n + 1) hr.four X
    (fun k => (List.ofFn fun k => (c k).pos R d).getD k 0)
    (fun k => by simp [-List.ofFn_succ, X, Nat.le_of_lt_succ k.isLt]; rfl)
    (fun j => hr.ne j) hr.long
  refine ⟨J, ?_, fun k => ?_⟩
  · unfold centreJac
    rw [if_neg (by simp), List.length_ofFn, hJ]
    rfl
  · have hX : (fun kd : Fin (n + 1) × Fin 3 =>
        (c kd.1).pos R (move d dvs (here d dvs)) kd.2) = X := by rw [move_here]
    have := IsGrad.comp (x := here d dvs) (S := fun Y => edgeCentroid (poly Y) k)
      (c := fun y kd => (c kd.1).pos R (move d dvs y) kd.2) (by rw [hX]; exact hg k)
      (fun kd => corner_grad R d dvs (c kd.1) kd.2 (here d dvs))
    refine this.congr fun col => ?_
    rw [Fintype.sum_prod_type]
    refine Finset.sum_congr rfl fun i _ => Finset.sum_congr rfl fun a _ => ?_
    rw [Nat.mul_comm]

/-- The three rows of a point are the gradients of its coordinates. -/
theorem pointRows_grad {ty ind : Int} {p : Pt} (h : Describes E R d ty ind p) (dvs : List ℤ) :
    ∃ r, pointRows E dvs true 0 0 ty ind = .ok r ∧ ∀ k,
      IsGrad (fun y => p.pos R (move d dvs y) k) (fun c => r k c) (here d dvs) := by
  cases h with
  | node i h =>
    refine ⟨_, ?_, fun k => corner_grad R d dvs (.node ind) k _⟩
    simp [pointRows]
    rfl
  | snaxel s h =>
    refine ⟨_, ?_, fun k => corner_grad R d dvs (.snaxel ind) k _⟩
    by_cases hm : ind ∈ dvs
    · simp only [pointRows, hm, and_self, if_true, direction_eq h.1, Except.map]
      congr 1
      funext k c
      simp only [cornerRow, hm, true_and]
    · simp [pointRows, hm]
      funext k c
      simp only [cornerRow, hm, false_and, if_false]
  | fixed i q p h =>
    refine ⟨fun _ _ => 0, ?_, fun k => IsGrad.const _⟩
    simp [pointRows, h, Except.bind]
  | @hybrid i q n c hr h hl hc =>
    obtain ⟨J, hJ, hg⟩ := centre_grad hr dvs
    have e1 : (List.ofFn fun k => code (c k)) = (List.ofFn c).map code := by
      rw [List.map_ofFn]; rfl
    have e2 : (List.ofFn fun k => (c k).pos R d) = (List.ofFn c).map fun c => c.pos R d := by
      rw [List.map_ofFn]; rfl
    have hc' : ∀ x ∈ List.ofFn c, SeesCorner E R d x := by
      intro x hx
      obtain ⟨k, rfl⟩ := (List.mem_ofFn' ..).mp hx
      exact hc k
    obtain ⟨r, hr', he⟩ := hybridAdds_eq J (n + 1) dvs hc' 0
    refine ⟨r, ?_, fun k => (hg k).congr fun col => ?_⟩
    · have hl4 := hr.four
      have hp : hybridPoints E ((List.ofFn c).map code) = .ok (List.ofFn fun k => (c k).pos R d) := by
        unfold hybridPoints
        rw [if_neg (by simp; omega), hybridCoords_eq hc', e2]
      simp only [pointRows, h, Except.bind, hl]
      simp only [e1, hp, List.length_map, List.length_ofFn, hJ, hr']
      simp
    · rw [he]
      refine (Fintype.sum_equiv (finCongr (List.length_ofFn (f := c)).symm) _ _ fun i => ?_)
      simp [-List.ofFn_succ]
  | @snake i q n s l hr h hl hl' hm hc =>
    obtain ⟨J, hJ, hg⟩ := centre_grad hr dvs
    have e2 : (List.ofFn fun k => (Corner.snaxel (s k)).pos R d) =
        (List.ofFn s).map fun s => R.snaxel d s := by
      rw [List.map_ofFn]; rfl
    have hc' : ∀ x ∈ List.ofFn s, SeesCorner E R d (.snaxel x) := by
      intro x hx
      obtain ⟨k, rfl⟩ := (List.mem_ofFn' ..).mp hx
      exact hc k
    obtain ⟨r, hr', he⟩ := snakeAdds_eq J (n + 1) dvs hc' 0
    refine ⟨r, ?_, fun k => (hg k).congr fun col => ?_⟩
    · have hl4 := hr.four
      have hp : snakePoints E (List.ofFn s) =
          .ok (List.ofFn fun k => (Corner.snaxel (s k)).pos R d) := by
        unfold snakePoints
        rw [if_neg (by simp; omega), snakeCoords_eq hc', e2]
      simp only [pointRows, h, Except.bind, hl]
      simp only [hp, List.length_ofFn, hJ, hr']
      simp
    · rw [he]
      refine (Fintype.sum_equiv (finCongr (List.length_ofFn (f := s)).symm) _ _ fun i => ?_)
      simp [-List.ofFn_succ]

theorem vec3_eta (p : Fin 3 → ℝ) : ![p 0, p 1, p 2] = p := by
  funext i
  fin_cases i <;> rfl

/-- The nine coordinates of three points. -/
def nine (p : Fin 3 → Fin 3 → ℝ) (a : Fin 9) : ℝ := p (Fin.ofNat 3 (a / 3)) (Fin.ofNat 3 a)

theorem q0_nine (p : Fin 3 → Fin 3 → ℝ) : q0 (nine p) = p 0 := vec3_eta _

theorem q1_nine (p : Fin 3 → Fin 3 → ℝ) : q1 (nine p) = p 1 := vec3_eta _

theorem q2_nine (p : Fin 3 → Fin 3 → ℝ) : q2 (nine p) = p 2 := vec3_eta _

theorem rowMat_entries (g : Fin 9 → ℝ) : Entries (rowMat g) (fun _ : Fin 1 => g) :=
  ⟨rfl, rfl, fun _ j => congrArg g (by simp)⟩

theorem sqMat_entries (h : Fin 9 → Fin 9 → ℝ) : Entries (sqMat h) h :=
  ⟨rfl, rfl, fun i j => by simp [sqMat]⟩

/-- Three points described by the triangulation. -/
def DescribesTri (E : Env) (R : Rails) (d : ℤ → ℝ) (t : Tri) (P : Fin 3 → Pt) : Prop :=
  ∀ i, Describes E R d (t.pointtype i) (t.pointind i) (P i)

theorem dPos_grad {t : Tri} {P : Fin 3 → Pt} (h : DescribesTri E R d t P) (dvs : List ℤ) :
    ∃ (D : DMat ℝ) (C : Fin 9 → Fin dvs.length → ℝ), dPos E dvs true 0 0 t = .ok D ∧ Entries D C ∧
      ∀ a, IsGrad (fun y => nine (fun i => (P i).pos R (move d dvs y)) a) (C a) (here d dvs) := by
  obtain ⟨r0, e0, g0⟩ := pointRows_grad (h 0) dvs
  obtain ⟨r1, e1, g1⟩ := pointRows_grad (h 1) dvs
  obtain ⟨r2, e2, g2⟩ := pointRows_grad (h 2) dvs
  refine ⟨{ rows := 9, cols := dvs.length, val := fun i c =>
      (![r0, r1, r2] (Fin.ofNat 3 (i / 3))) (Fin.ofNat 3 i) c },
    fun a c => (![r0, r1, r2] (Fin.ofNat 3 (a / 3))) (Fin.ofNat 3 a) c, ?_,
    ⟨rfl, rfl, fun _ _ => rfl⟩, fun a => ?_⟩
  · unfold dPos
    rw [e0, e1, e2]
    rfl
  · unfold nine
    simp only
    generalize Fin.ofNat 3 (a : ℕ) = k
    generalize Fin.ofNat 3 ((a : ℕ) / 3) = i
    match i with
    | 0 => exact g0 k
    | 1 => exact g1 k
    | 2 => exact g2 k

/-- The chain rule with the rows of `dPos`. -/
theorem chain_ok {n : ℕ} (c : ℝ × (Fin 9 → ℝ) × (Fin 9 → Fin 9 → ℝ)) (S : (Fin 9 → ℝ) → ℝ)
    (p : (Fin n → ℝ) → Fin 9 → ℝ) (x : Fin n → ℝ) (C : Fin 9 → Fin n → ℝ) {D : DMat ℝ}
    (hD : Entries D C) (hC : ∀ a, IsGrad (fun y => p y a) (C a) x) (hs : IsGrad S c.2.1 (p x)) :
    ∃ G H, chain c D (hPos n) = .ok (c.1, G, H) ∧ G.rows = 1 ∧ G.cols = n ∧ H.rows = n ∧ H.cols = n ∧
      IsGrad (fun y => S (p y)) (fun k => G.val 0 k) x ∧
      (∀ K : Fin 9 → Fin n → Fin n → ℝ, (∀ a, IsHess (fun y => p y a) (K a) x) → IsHess S c.2.2 (p x) →
        IsHess (fun y => S (p y)) (fun i j => ∑ a, c.2.1 a * K a i j + H.val i j) x) := by
  obtain ⟨G, g, hG, eG, gG⟩ := C51_grad S p x c.2.1 C hs hC _ D (rowMat_entries _) hD
  have hok : ∃ H, DMat.deriv2nd (rowMat c.2.1) D (sqMat c.2.2) (hPos n) = .ok H := by
    have hq : n * 9 / 9 = n := Nat.mul_div_cancel _ (by norm_num)
    unfold DMat.deriv2nd DMat.vecBy3Dim
    rw [if_neg (by simp [rowMat]), if_neg (by simp [rowMat, hPos, hq, Nat.mul_comm]),
      if_neg (by simp [rowMat])]
    simp only [Except.bind]
    rw [if_neg (by simp [rowMat, hPos, sqMat, hD.rows, hD.cols])]
    unfold DMat.mul
    rw [if_pos (show D.transpose.cols = (sqMat c.2.2).rows from hD.rows)]
    simp only
    rw [if_pos (show (sqMat c.2.2).cols = D.rows from hD.rows.symm)]
    simp only
    unfold DMat.add
    rw [if_pos ⟨show (hPos n).rows = D.cols from hD.cols.symm,
      show (hPos n).cols / (rowMat c.2.1).cols = D.cols from hq.trans hD.cols.symm⟩]
    exact ⟨_, rfl⟩
  obtain ⟨H, hH⟩ := hok
  obtain ⟨-, e1, e2, e3⟩ := deriv2nd_ok (m := 9) (n := n) (by norm_num) rfl hD.rows
    (Nat.mul_comm n 9) hH
  refine ⟨G, H, ?_, eG.rows, eG.cols, e1, e2, gG.congr fun k => (eG.val 0 k).symm, fun K h1 h2 => ?_⟩
  · unfold chain
    rw [hG]
    simp only [Except.bind]
    rw [hH]
    rfl
  · have e : (fun i j : Fin n => ∑ a, c.2.1 a * K a i j + H.val i j) = fun i j =>
        ∑ a, c.2.1 a * K a i j + ∑ a, ∑ b, C a i * c.2.2 a b * C b j := by
      funext i j
      rw [e3]
      congr 1
      simp only [hPos, zero_mul, Finset.sum_const_zero, zero_add]
      rw [Finset.sum_comm]
      refine Finset.sum_congr rfl fun b _ => ?_
      rw [Finset.sum_mul]
      refine Finset.sum_congr rfl fun a _ => ?_
      rw [hD.val b j, hD.val a i, (sqMat_entries c.2.2).val a b]
    rw [e]
    exact IsHess.comp hs h2 hC h1

/-- The coordinates of a point have second derivatives. -/
theorem point_hess {ty ind : Int} {p : Pt} (h : Describes E R d ty ind p) (dvs : List ℤ) (k : Fin 3) :
    ∃ K, IsHess (fun y => p.pos R (move d dvs y) k) K (here d dvs) := by
  have hc : ∀ {n : ℕ} (c : Fin (n + 1) → Corner), Regular R d c →
      ∃ K, IsHess (fun y => (Pt.centre n c).pos R (move d dvs y) k) K (here d dvs) := by
    intro n c hr
    have hX : (fun kd : Fin (n + 1) × Fin 3 =>
        (c kd.1).pos R (move d dvs (here d dvs)) kd.2) = fun kd => (c kd.1).pos R d kd.2 := by
      rw [move_here]
    obtain ⟨H, hH, -, -⟩ := centroid_hess (n := n + 1) (by have := hr.four; omega)
      (fun kd => (c kd.1).pos R d kd.2) (fun j => hr.ne j) k
    obtain ⟨G, hG, hG2⟩ := hH
    exact ⟨_, IsHess.comp (x := here d dvs) (S := fun Y => edgeCentroid (poly Y) k)
      (c := fun y kd => (c kd.1).pos R (move d dvs y) kd.2)
      (by rw [hX]; exact hG.self_of_nhds) (by rw [hX]; exact ⟨G, hG, hG2⟩)
      (fun kd => corner_grad R d dvs (c kd.1) kd.2 (here d dvs))
      (fun kd => corner_hess R d dvs (c kd.1) kd.2 (here d dvs))⟩
  cases h with
  | node i h => exact ⟨_, corner_hess R d dvs (.node ind) k _⟩
  | snaxel s h => exact ⟨_, corner_hess R d dvs (.snaxel ind) k _⟩
  | fixed i q p h => exact ⟨fun _ _ => 0, fun _ _ => 0, .of_forall fun y => IsGrad.const _,
      fun _ => IsGrad.const _⟩
  | hybrid i q c hr h hl hc' => exact hc c hr
  | snake i q s l hr h hl hl' hm hc' => exact hc _ hr

theorem candidates_eq {ty ind : Int} {p : Pt} (h : Describes E R d ty ind p) (dvMap : List ℤ) :
    ∃ l, candidates E dvMap true ty ind = .ok l ∧ ∀ s, s ∈ l ↔ s ∈ dvMap ∧ p.Uses s := by
  cases h with
  | node i h => exact ⟨[], by simp [candidates], fun s => by simp [Pt.Uses]⟩
  | snaxel s h =>
    by_cases hm : ind ∈ dvMap
    · refine ⟨[ind], by simp [candidates, hm], fun s => ?_⟩
      simp only [List.mem_singleton, Pt.Uses, Corner.snaxel.injEq]
      constructor
      · rintro rfl; exact ⟨hm, rfl⟩
      · exact fun h => h.2.symm
    · refine ⟨[], by simp [candidates, hm], fun s => ?_⟩
      simp only [List.not_mem_nil, false_iff, Pt.Uses, Corner.snaxel.injEq, not_and]
      rintro h rfl
      exact hm h
  | fixed i q p h => exact ⟨[], by simp [candidates, h, Except.bind], fun s => by simp [Pt.Uses]⟩
  | @hybrid i q n c hr h hl hc =>
    refine ⟨_, by simp [-List.ofFn_succ, candidates, h, Except.bind, hl, Except.map]; rfl, fun s => ?_⟩
    rw [List.mem_map]
    constructor
    · rintro ⟨⟨a, b⟩, hx, rfl⟩
      rw [List.mem_filter] at hx
      obtain ⟨h1, h2⟩ := hx
      obtain ⟨k, hk⟩ := (List.mem_ofFn' ..).mp h1
      simp only [Bool.and_eq_true, decide_eq_true_eq] at h2
      refine ⟨h2.2, k, ?_⟩
      have h2 := h2.1
      simp only at hk
      cases hck : c k with
      | node j =>
        rw [hck] at hk
        simp only [code, Prod.mk.injEq] at hk
        rw [← hk.2] at h2
        exact absurd h2 (by norm_num)
      | snaxel j => rw [hck] at hk; simp only [code, Prod.mk.injEq] at hk; rw [hk.1]
    · rintro ⟨h1, k, hk⟩
      refine ⟨(s, 2), ?_, rfl⟩
      rw [List.mem_filter]
      refine ⟨(List.mem_ofFn' ..).mpr ⟨k, by simp only [hk, code]⟩, by simpa using h1⟩
  | @snake i q n s l hr h hl hl' hm hc =>
    refine ⟨l.filter (· ∈ dvMap), by simp [candidates, h, Except.bind, hl', Except.map], fun x => ?_⟩
    rw [List.mem_filter, hm]
    constructor
    · rintro ⟨h1, h2⟩
      obtain ⟨k, hk⟩ := (List.mem_ofFn' ..).mp h1
      exact ⟨by simpa using h2, k, congrArg _ hk⟩
    · rintro ⟨h1, k, hk⟩
      refine ⟨(List.mem_ofFn' ..).mpr ⟨k, by simpa using hk⟩, by simpa using h1⟩

theorem activeDvs_eq {t : Tri} {P : Fin 3 → Pt} (h : DescribesTri E R d t P) (dvMap : List ℤ) :
    ∃ l, activeDvs E dvMap true t = .ok l ∧ l.Nodup ∧
      ∀ s, s ∈ l ↔ s ∈ dvMap ∧ ∃ i, (P i).Uses s := by
  obtain ⟨l0, e0, g0⟩ := candidates_eq (h 0) dvMap
  obtain ⟨l1, e1, g1⟩ := candidates_eq (h 1) dvMap
  obtain ⟨l2, e2, g2⟩ := candidates_eq (h 2) dvMap
  refine ⟨sortUnique (l0 ++ l1 ++ l2), ?_, ?_, fun s => ?_⟩
  · simp only [activeDvs, e0, e1, e2, Except.bind, Except.map]
  · exact (sortUnique_strict _).imp fun h => ne_of_lt h
  · rw [mem_sortUnique, List.mem_append, List.mem_append, g0, g1, g2]
    constructor
    · rintro ((⟨h, h'⟩ | ⟨h, h'⟩) | ⟨h, h'⟩)
      · exact ⟨h, 0, h'⟩
      · exact ⟨h, 1, h'⟩
      · exact ⟨h, 2, h'⟩
    · rintro ⟨h, i, h'⟩
      match i with
      | 0 => exact .inl (.inl ⟨h, h'⟩)
      | 1 => exact .inl (.inr ⟨h, h'⟩)
      | 2 => exact .inr ⟨h, h'⟩

theorem isGrad_of_eq {ι : Type} [Fintype ι] {f f' : (ι → ℝ) → ℝ} {g x : ι → ℝ} (h : IsGrad f g x)
    (e : ∀ y, f y = f' y) : IsGrad f' g x := by
  rwa [show f' = f from funext fun y => (e y).symm]

theorem isHess_of_eq {ι : Type} [Fintype ι] {f f' : (ι → ℝ) → ℝ} {H : ι → ι → ℝ} {x : ι → ℝ}
    (h : IsHess f H x) (e : ∀ y, f y = f' y) : IsHess f' H x := by
  rwa [show f' = f from funext fun y => (e y).symm]

theorem isHess_unique {ι : Type} [Fintype ι] {f : (ι → ℝ) → ℝ} {H K : ι → ι → ℝ} {x : ι → ℝ}
    (h : IsHess f H x) (k : IsHess f K x) : H = K := by
  obtain ⟨G, hG, hG2⟩ := h
  obtain ⟨L, hL, hL2⟩ := k
  funext i
  refine (hG2 i).unique ?_
  refine HasFDerivAt.congr_of_eventuallyEq (hL2 i) ?_
  filter_upwards [hG, hL] with y h1 h2
  rw [h1.unique h2]

/-- A second derivative in one variable. -/
theorem isHess_one {f : (Fin 1 → ℝ) → ℝ} {H : Fin 1 → Fin 1 → ℝ} {t c : ℝ} {f1 : ℝ → ℝ}
    (h : IsHess f H fun _ => t) (h1 : ∀ᶠ s in nhds t, HasDerivAt (fun s => f fun _ => s) (f1 s) s)
    (h2 : HasDerivAt f1 c t) : H 0 0 = c := by
  obtain ⟨G, hG, hG2⟩ := h
  have hl : ∀ s : ℝ, HasDerivAt (fun s : ℝ => (fun _ : Fin 1 => s)) (fun _ => 1) s :=
    fun s => hasDerivAt_pi.mpr fun _ => hasDerivAt_id' s
  have hg : ∀ {F : (Fin 1 → ℝ) → ℝ} {g : Fin 1 → ℝ} {s : ℝ}, IsGrad F g (fun _ => s) →
      HasDerivAt (fun s => F fun _ => s) (g 0) s := by
    intro F g s h
    have := HasFDerivAt.comp_hasDerivAt (f := fun s : ℝ => (fun _ : Fin 1 => s)) s h (hl s)
    exact this.congr_deriv (by simp)
  have hc : Continuous fun s : ℝ => (fun _ : Fin 1 => s) := continuous_pi fun _ => continuous_id
  have he : f1 =ᶠ[nhds t] fun s => G (fun _ => s) 0 := by
    filter_upwards [h1, hc.continuousAt.eventually hG] with s a b
    exact a.unique (hg b)
  exact (hg (hG2 0)).unique (h2.congr_of_eventuallyEq he.symm)

theorem eq_singleton_of {l : List ℤ} {x : ℤ} (hn : l.Nodup) (hx : x ∈ l) (h : ∀ s ∈ l, s = x) :
    l = [x] := by
  match l with
  | [] => cases hx
  | [a] => rw [h a (by simp)]
  | a :: b :: l =>
    have e : a = b := by rw [h a (by simp), h b (by simp)]
    simp [e] at hn

end RSVS.Calc
