import Verif.Lemmas.Centroid

/-! # The generated Jacobians of the centroid -/

namespace RSVS.Math

open RSVS.Spec

/-- Edge lengths as used by the generated code. -/
noncomputable def autoL {n : ℕ} [NeZero n] (P : Fin n → Fin 3 → ℝ) (eps2 : ℝ) (j : Fin n) : ℝ :=
  Real.sqrt (sqd (P j) (P (j + 1)) + eps2)

/-- Inverse edge lengths as used by the generated code. -/
noncomputable def autoR {n : ℕ} [NeZero n] (P : Fin n → Fin 3 → ℝ) (eps eps2 : ℝ) (j : Fin n) : ℝ :=
  1 / Real.sqrt (eps + (sqd (P j) (P (j + 1)) + eps2))

theorem selfDf_eq (P : Fin 3 → Fin 3 → ℝ) (S : ℝ) (M : Fin 3 → ℝ) (eps : ℝ) (a d : Fin 3) :
    selfDf (fun i => P i 0) (fun i => P i 1) (fun i => P i 2) S (M 0) (M 1) (M 2) eps a d =
      cj P (autoL P 0) (autoR P eps 0) S M a 1 d := by
  simp only [selfDf, sqd_def, cj, autoL, autoR, add_zero]
  have e1 : (1 : Fin 3) + 1 = 2 := rfl
  have e2 : (1 : Fin 3) - 1 = 0 := rfl
  have e3 : (0 : Fin 3) + 1 = 1 := rfl
  simp only [e1, e2, e3]
  match a, d with
  | 0, 0 | 0, 1 | 0, 2 | 1, 0 | 1, 1 | 1, 2 | 2, 0 | 2, 1 | 2, 2 =>
    simp only [Matrix.cons_val]
    simp
    ring

set_option maxHeartbeats 1000000 in
theorem centroid4Df_row0 (P : Fin 4 → Fin 3 → ℝ) (S : ℝ) (M : Fin 3 → ℝ) (eps eps2 : ℝ)
    (k : Fin 4) (d : Fin 3) (h : k.val + d.val * 4 < 12) :
    centroid4Df (fun i => P i 0) (fun i => P i 1) (fun i => P i 2) S (M 0) (M 1) (M 2) eps eps2 0
      ⟨k.val + d.val * 4, h⟩ =
      cj P (autoL P eps2) (autoR P eps eps2) S M 0 k d := by
  simp only [centroid4Df, sqd_def, cj, autoL, autoR]
  rw [sqd_comm (P 0) (P 3)]
  have e : (-1 : Fin 4) = 3 := rfl
  match k, d with
  | 0, 0 | 0, 1 | 0, 2
  | 1, 0 | 1, 1 | 1, 2
  | 2, 0 | 2, 1 | 2, 2
  | 3, 0 | 3, 1 | 3, 2 =>
    simp [e]
    ring

set_option maxHeartbeats 1000000 in
theorem centroid4Df_row1 (P : Fin 4 → Fin 3 → ℝ) (S : ℝ) (M : Fin 3 → ℝ) (eps eps2 : ℝ)
    (k : Fin 4) (d : Fin 3) (h : k.val + d.val * 4 < 12) :
    centroid4Df (fun i => P i 0) (fun i => P i 1) (fun i => P i 2) S (M 0) (M 1) (M 2) eps eps2 1
      ⟨k.val + d.val * 4, h⟩ =
      cj P (autoL P eps2) (autoR P eps eps2) S M 1 k d := by
  simp only [centroid4Df, sqd_def, cj, autoL, autoR]
  rw [sqd_comm (P 0) (P 3)]
  have e : (-1 : Fin 4) = 3 := rfl
  match k, d with
  | 0, 0 | 0, 1 | 0, 2
  | 1, 0 | 1, 1 | 1, 2
  | 2, 0 | 2, 1 | 2, 2
  | 3, 0 | 3, 1 | 3, 2 =>
    simp [e]
    ring

set_option maxHeartbeats 1000000 in
theorem centroid4Df_row2 (P : Fin 4 → Fin 3 → ℝ) (S : ℝ) (M : Fin 3 → ℝ) (eps eps2 : ℝ)
    (k : Fin 4) (d : Fin 3) (h : k.val + d.val * 4 < 12) :
    centroid4Df (fun i => P i 0) (fun i => P i 1) (fun i => P i 2) S (M 0) (M 1) (M 2) eps eps2 2
      ⟨k.val + d.val * 4, h⟩ =
      cj P (autoL P eps2) (autoR P eps eps2) S M 2 k d := by
  simp only [centroid4Df, sqd_def, cj, autoL, autoR]
  rw [sqd_comm (P 0) (P 3)]
  have e : (-1 : Fin 4) = 3 := rfl
  match k, d with
  | 0, 0 | 0, 1 | 0, 2
  | 1, 0 | 1, 1 | 1, 2
  | 2, 0 | 2, 1 | 2, 2
  | 3, 0 | 3, 1 | 3, 2 =>
    simp [e]
    ring

theorem centroid4Df_eq (P : Fin 4 → Fin 3 → ℝ) (S : ℝ) (M : Fin 3 → ℝ) (eps eps2 : ℝ) (a : Fin 3)
    (k : Fin 4) (d : Fin 3) (h : k.val + d.val * 4 < 12) :
    centroid4Df (fun i => P i 0) (fun i => P i 1) (fun i => P i 2) S (M 0) (M 1) (M 2) eps eps2 a
      ⟨k.val + d.val * 4, h⟩ =
      cj P (autoL P eps2) (autoR P eps eps2) S M a k d :=
  match a with
  | 0 => centroid4Df_row0 P S M eps eps2 k d h
  | 1 => centroid4Df_row1 P S M eps eps2 k d h
  | 2 => centroid4Df_row2 P S M eps eps2 k d h

set_option maxHeartbeats 1000000 in
theorem centroid5Df_row0 (P : Fin 5 → Fin 3 → ℝ) (S : ℝ) (M : Fin 3 → ℝ) (eps eps2 : ℝ)
    (k : Fin 5) (d : Fin 3) (h : k.val + d.val * 5 < 15) :
    centroid5Df (fun i => P i 0) (fun i => P i 1) (fun i => P i 2) S (M 0) (M 1) (M 2) eps eps2 0
      ⟨k.val + d.val * 5, h⟩ =
      cj P (autoL P eps2) (autoR P eps eps2) S M 0 k d := by
  simp only [centroid5Df, sqd_def, cj, autoL, autoR]
  rw [sqd_comm (P 0) (P 4)]
  have e : (-1 : Fin 5) = 4 := rfl
  match k, d with
  | 0, 0 | 0, 1 | 0, 2
  | 1, 0 | 1, 1 | 1, 2
  | 2, 0 | 2, 1 | 2, 2
  | 3, 0 | 3, 1 | 3, 2
  | 4, 0 | 4, 1 | 4, 2 =>
    simp [e]
    ring

set_option maxHeartbeats 1000000 in
theorem centroid5Df_row1 (P : Fin 5 → Fin 3 → ℝ) (S : ℝ) (M : Fin 3 → ℝ) (eps eps2 : ℝ)
    (k : Fin 5) (d : Fin 3) (h : k.val + d.val * 5 < 15) :
    centroid5Df (fun i => P i 0) (fun i => P i 1) (fun i => P i 2) S (M 0) (M 1) (M 2) eps eps2 1
      ⟨k.val + d.val * 5, h⟩ =
      cj P (autoL P eps2) (autoR P eps eps2) S M 1 k d := by
  simp only [centroid5Df, sqd_def, cj, autoL, autoR]
  rw [sqd_comm (P 0) (P 4)]
  have e : (-1 : Fin 5) = 4 := rfl
  match k, d with
  | 0, 0 | 0, 1 | 0, 2
  | 1, 0 | 1, 1 | 1, 2
  | 2, 0 | 2, 1 | 2, 2
  | 3, 0 | 3, 1 | 3, 2
  | 4, 0 | 4, 1 | 4, 2 =>
    simp [e]
    ring

set_option maxHeartbeats 1000000 in
theorem centroid5Df_row2 (P : Fin 5 → Fin 3 → ℝ) (S : ℝ) (M : Fin 3 → ℝ) (eps eps2 : ℝ)
    (k : Fin 5) (d : Fin 3) (h : k.val + d.val * 5 < 15) :
    centroid5Df (fun i => P i 0) (fun i => P i 1) (fun i => P i 2) S (M 0) (M 1) (M 2) eps eps2 2
      ⟨k.val + d.val * 5, h⟩ =
      cj P (autoL P eps2) (autoR P eps eps2) S M 2 k d := by
  simp only [centroid5Df, sqd_def, cj, autoL, autoR]
  rw [sqd_comm (P 0) (P 4)]
  have e : (-1 : Fin 5) = 4 := rfl
  match k, d with
  | 0, 0 | 0, 1 | 0, 2
  | 1, 0 | 1, 1 | 1, 2
  | 2, 0 | 2, 1 | 2, 2
  | 3, 0 | 3, 1 | 3, 2
  | 4, 0 | 4, 1 | 4, 2 =>
    simp [e]
    ring

theorem centroid5Df_eq (P : Fin 5 → Fin 3 → ℝ) (S : ℝ) (M : Fin 3 → ℝ) (eps eps2 : ℝ) (a : Fin 3)
    (k : Fin 5) (d : Fin 3) (h : k.val + d.val * 5 < 15) :
    centroid5Df (fun i => P i 0) (fun i => P i 1) (fun i => P i 2) S (M 0) (M 1) (M 2) eps eps2 a
      ⟨k.val + d.val * 5, h⟩ =
      cj P (autoL P eps2) (autoR P eps eps2) S M a k d :=
  match a with
  | 0 => centroid5Df_row0 P S M eps eps2 k d h
  | 1 => centroid5Df_row1 P S M eps eps2 k d h
  | 2 => centroid5Df_row2 P S M eps eps2 k d h

set_option maxHeartbeats 1000000 in
theorem centroid6Df_row0 (P : Fin 6 → Fin 3 → ℝ) (S : ℝ) (M : Fin 3 → ℝ) (eps eps2 : ℝ)
    (k : Fin 6) (d : Fin 3) (h : k.val + d.val * 6 < 18) :
    centroid6Df (fun i => P i 0) (fun i => P i 1) (fun i => P i 2) S (M 0) (M 1) (M 2) eps eps2 0
      ⟨k.val + d.val * 6, h⟩ =
      cj P (autoL P eps2) (autoR P eps eps2) S M 0 k d := by
  simp only [centroid6Df, sqd_def, cj, autoL, autoR]
  rw [sqd_comm (P 0) (P 5)]
  have e : (-1 : Fin 6) = 5 := rfl
  match k, d with
  | 0, 0 | 0, 1 | 0, 2
  | 1, 0 | 1, 1 | 1, 2
  | 2, 0 | 2, 1 | 2, 2
  | 3, 0 | 3, 1 | 3, 2
  | 4, 0 | 4, 1 | 4, 2
  | 5, 0 | 5, 1 | 5, 2 =>
    simp [e]
    ring

set_option maxHeartbeats 1000000 in
theorem centroid6Df_row1 (P : Fin 6 → Fin 3 → ℝ) (S : ℝ) (M : Fin 3 → ℝ) (eps eps2 : ℝ)
    (k : Fin 6) (d : Fin 3) (h : k.val + d.val * 6 < 18) :
    centroid6Df (fun i => P i 0) (fun i => P i 1) (fun i => P i 2) S (M 0) (M 1) (M 2) eps eps2 1
      ⟨k.val + d.val * 6, h⟩ =
      cj P (autoL P eps2) (autoR P eps eps2) S M 1 k d := by
  simp only [centroid6Df, sqd_def, cj, autoL, autoR]
  rw [sqd_comm (P 0) (P 5)]
  have e : (-1 : Fin 6) = 5 := rfl
  match k, d with
  | 0, 0 | 0, 1 | 0, 2
  | 1, 0 | 1, 1 | 1, 2
  | 2, 0 | 2, 1 | 2, 2
  | 3, 0 | 3, 1 | 3, 2
  | 4, 0 | 4, 1 | 4, 2
  | 5, 0 | 5, 1 | 5, 2 =>
    simp [e]
    ring

set_option maxHeartbeats 1000000 in
theorem centroid6Df_row2 (P : Fin 6 → Fin 3 → ℝ) (S : ℝ) (M : Fin 3 → ℝ) (eps eps2 : ℝ)
    (k : Fin 6) (d : Fin 3) (h : k.val + d.val * 6 < 18) :
    centroid6Df (fun i => P i 0) (fun i => P i 1) (fun i => P i 2) S (M 0) (M 1) (M 2) eps eps2 2
      ⟨k.val + d.val * 6, h⟩ =
      cj P (autoL P eps2) (autoR P eps eps2) S M 2 k d := by
  simp only [centroid6Df, sqd_def, cj, autoL, autoR]
  rw [sqd_comm (P 0) (P 5)]
  have e : (-1 : Fin 6) = 5 := rfl
  match k, d with
  | 0, 0 | 0, 1 | 0, 2
  | 1, 0 | 1, 1 | 1, 2
  | 2, 0 | 2, 1 | 2, 2
  | 3, 0 | 3, 1 | 3, 2
  | 4, 0 | 4, 1 | 4, 2
  | 5, 0 | 5, 1 | 5, 2 =>
    simp [e]
    ring

theorem centroid6Df_eq (P : Fin 6 → Fin 3 → ℝ) (S : ℝ) (M : Fin 3 → ℝ) (eps eps2 : ℝ) (a : Fin 3)
    (k : Fin 6) (d : Fin 3) (h : k.val + d.val * 6 < 18) :
    centroid6Df (fun i => P i 0) (fun i => P i 1) (fun i => P i 2) S (M 0) (M 1) (M 2) eps eps2 a
      ⟨k.val + d.val * 6, h⟩ =
      cj P (autoL P eps2) (autoR P eps eps2) S M a k d :=
  match a with
  | 0 => centroid6Df_row0 P S M eps eps2 k d h
  | 1 => centroid6Df_row1 P S M eps eps2 k d h
  | 2 => centroid6Df_row2 P S M eps eps2 k d h

end RSVS.Math
