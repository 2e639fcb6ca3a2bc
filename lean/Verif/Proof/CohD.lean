import Verif.Spec.Coherent
import Mathlib.LinearAlgebra.Matrix.Trace
import Mathlib.LinearAlgebra.Matrix.NonsingularInverse
import Mathlib.Tactic.LinearCombination
import Mathlib.Tactic.FinCases
/-
The best rotation between two sets of points: the matrix part.
-/
namespace TinyMesh
open Matrix

section
variable {W : Matrix (Fin 3) (Fin 3) ℝ}

theorem orth_comm (h : Wᵀ * W = 1) : W * Wᵀ = 1 := mul_eq_one_comm.1 h

theorem orth_det (h : Wᵀ * W = 1) : W.det = 1 ∨ W.det = -1 := by
  have h1 : W.det * W.det = 1 := by
    have := congrArg Matrix.det h
    rwa [det_mul, det_transpose, det_one] at this
  have : (W.det - 1) * (W.det + 1) = 0 := by linear_combination h1
  rcases mul_eq_zero.1 this with h | h
  · left; linarith
  · right; linarith

theorem orth_col (h : Wᵀ * W = 1) (j k : Fin 3) : W 0 j * W 0 k + W 1 j * W 1 k + W 2 j * W 2 k = if j = k then 1 else 0 := by
  have := congrFun (congrFun h j) k
  simp only [mul_apply, Fin.sum_univ_three, transpose_apply, one_apply] at this
  exact this

theorem orth_diag_le (h : Wᵀ * W = 1) (i : Fin 3) : W i i ≤ 1 := by
  have := orth_col h i i
  simp only [if_true] at this
  fin_cases i <;> simp only [Fin.zero_eta, Fin.mk_one, Fin.reduceFinMk, Fin.isValue] at * <;>
    nlinarith [sq_nonneg (W 0 0), sq_nonneg (W 1 0), sq_nonneg (W 2 0), sq_nonneg (W 0 1), sq_nonneg (W 1 1), sq_nonneg (W 2 1),
      sq_nonneg (W 0 2), sq_nonneg (W 1 2), sq_nonneg (W 2 2)]

/-- the trace of an orthogonal matrix of determinant `-1` is at most one -/
theorem orth_trace (h : Wᵀ * W = 1) (hd : W.det = -1) : W 0 0 + W 1 1 + W 2 2 ≤ 1 := by
  -- the adjugate is minus the transpose
  have hadj : W.adjugate = -Wᵀ := by
    have h1 : W.adjugate * W = W.det • (1 : Matrix (Fin 3) (Fin 3) ℝ) := adjugate_mul W
    have h2 : W.adjugate * (W * Wᵀ) = W.det • Wᵀ := by
      rw [← Matrix.mul_assoc, h1, Matrix.smul_mul, Matrix.one_mul]
    rw [orth_comm h, Matrix.mul_one, hd] at h2
    rw [h2, neg_one_smul]
  have a0 := congrFun (congrFun hadj 0) 0
  have a1 := congrFun (congrFun hadj 1) 1
  have a2 := congrFun (congrFun hadj 2) 2
  rw [adjugate_fin_three] at a0 a1 a2
  simp only [of_apply, cons_val', cons_val_zero, cons_val_one, cons_val] at a0 a1 a2
  change _ = -W 0 0 at a0
  change _ = -W 1 1 at a1
  change _ = -W 2 2 at a2
  have c0 := orth_col h 0 0
  have c1 := orth_col h 1 1
  have c2 := orth_col h 2 2
  simp only [if_true] at c0 c1 c2
  have hT : (W 0 0 + W 1 1 + W 2 2 + 1) ^ 2 ≤ 4 := by
    nlinarith [sq_nonneg (W 0 1 - W 1 0), sq_nonneg (W 0 2 - W 2 0), sq_nonneg (W 1 2 - W 2 1)]
  nlinarith

end

section
variable {U V Q : Matrix (Fin 3) (Fin 3) ℝ} {s : Fin 3 → ℝ}

theorem trace_turn (Q U V : Matrix (Fin 3) (Fin 3) ℝ) (s : Fin 3 → ℝ) :
    trace (Qᵀ * (U * diagonal s * Vᵀ)) = ∑ i, (Uᵀ * Q * V) i i * s i := by
  have h : trace (Qᵀ * (U * diagonal s * Vᵀ)) = trace ((Uᵀ * Q * V)ᵀ * diagonal s) := by
    rw [← Matrix.mul_assoc, ← Matrix.mul_assoc, trace_mul_comm, ← Matrix.mul_assoc, ← Matrix.mul_assoc]
    simp only [transpose_mul, transpose_transpose, Matrix.mul_assoc]
  rw [h, trace]
  refine Finset.sum_congr rfl fun i _ => ?_
  rw [diag_apply, mul_diagonal, transpose_apply]

/-- the rotation of the code -/
noncomputable def kabsch (U V : Matrix (Fin 3) (Fin 3) ℝ) : Matrix (Fin 3) (Fin 3) ℝ :=
  U * diagonal ![1, 1, (U * Vᵀ).det] * Vᵀ

theorem kabsch_rot (hU : Uᵀ * U = 1) (hV : Vᵀ * V = 1) : IsRotation (kabsch U V) := by
  have hd : (U * Vᵀ).det * (U * Vᵀ).det = 1 := by
    have : (U * Vᵀ)ᵀ * (U * Vᵀ) = 1 := by
      rw [transpose_mul, transpose_transpose, Matrix.mul_assoc, ← Matrix.mul_assoc Uᵀ, hU, Matrix.one_mul, orth_comm hV]
    rcases orth_det this with h | h <;> rw [h] <;> norm_num
  have hD : (diagonal ![1, 1, (U * Vᵀ).det])ᵀ * diagonal ![1, 1, (U * Vᵀ).det] = 1 := by
    rw [diagonal_transpose, diagonal_mul_diagonal, ← diagonal_one]
    congr 1
    funext i
    fin_cases i
    · norm_num
    · norm_num
    · exact hd
  constructor
  · unfold kabsch
    simp only [transpose_mul, transpose_transpose]
    calc V * ((diagonal ![1, 1, (U * Vᵀ).det])ᵀ * Uᵀ) * (U * diagonal ![1, 1, (U * Vᵀ).det] * Vᵀ)
        = V * (((diagonal ![1, 1, (U * Vᵀ).det])ᵀ * (Uᵀ * U) * diagonal ![1, 1, (U * Vᵀ).det])) * Vᵀ := by
          simp only [Matrix.mul_assoc]
      _ = 1 := by rw [hU, Matrix.mul_one, hD, Matrix.mul_one, orth_comm hV]
  · unfold kabsch
    rw [det_mul, det_mul, det_diagonal, Fin.prod_univ_three]
    have : U.det * (![1, 1, (U * Vᵀ).det] 0 * ![1, 1, (U * Vᵀ).det] 1 * ![1, 1, (U * Vᵀ).det] 2) * Vᵀ.det
        = (U * Vᵀ).det * (U.det * Vᵀ.det) := by
      simp only [cons_val_zero, cons_val_one, cons_val]; ring
    rw [this, ← det_mul, hd]

/-- it maximises the trace -/
theorem kabsch_best (hU : Uᵀ * U = 1) (hV : Vᵀ * V = 1) (h10 : s 1 ≤ s 0) (h21 : s 2 ≤ s 1) (h2 : 0 ≤ s 2) (hQ : IsRotation Q) :
    trace (Qᵀ * (U * diagonal s * Vᵀ)) ≤ trace ((kabsch U V)ᵀ * (U * diagonal s * Vᵀ)) := by
  rw [trace_turn, trace_turn]
  have hW : Uᵀ * kabsch U V * V = diagonal ![1, 1, (U * Vᵀ).det] := by
    unfold kabsch
    calc Uᵀ * (U * diagonal ![1, 1, (U * Vᵀ).det] * Vᵀ) * V = (Uᵀ * U) * diagonal ![1, 1, (U * Vᵀ).det] * (Vᵀ * V) := by
          simp only [Matrix.mul_assoc]
      _ = _ := by rw [hU, hV, Matrix.one_mul, Matrix.mul_one]
  rw [hW]
  set W := Uᵀ * Q * V with hWd
  have hWo : Wᵀ * W = 1 := by
    rw [hWd]
    simp only [transpose_mul, transpose_transpose]
    calc Vᵀ * (Qᵀ * U) * (Uᵀ * Q * V) = Vᵀ * (Qᵀ * (U * Uᵀ) * Q) * V := by simp only [Matrix.mul_assoc]
      _ = 1 := by rw [orth_comm hU, Matrix.mul_one, hQ.1, Matrix.mul_one, hV]
  have hWdet : W.det = (U * Vᵀ).det := by
    rw [hWd, det_mul, det_mul, hQ.2, det_mul, det_transpose, det_transpose]; ring
  rw [Fin.sum_univ_three, Fin.sum_univ_three]
  simp only [diagonal_apply_eq, cons_val_zero, cons_val_one, cons_val]
  have d0 := orth_diag_le hWo 0
  have d1 := orth_diag_le hWo 1
  have d2 := orth_diag_le hWo 2
  rcases orth_det hWo with h | h
  · rw [← hWdet, h]
    nlinarith
  · rw [← hWdet, h]
    have ht := orth_trace hWo h
    nlinarith

end
end TinyMesh
