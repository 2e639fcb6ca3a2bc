import Verif.Proof.CohE
import Mathlib.Analysis.InnerProductSpace.Spectrum
/-
Every real 3×3 matrix has a singular value decomposition: the assumption about Eigen can be met.
-/
namespace TinyMesh
open Matrix

theorem turnBy_smul (R : Matrix (Fin 3) (Fin 3) ℝ) (c : ℝ) (x : E3) : turnBy R (c • x) = c • turnBy R x := by
  unfold turnBy
  rw [WithLp.ofLp_smul, Matrix.mulVec_smul, WithLp.toLp_smul]

/-- the linear map of a matrix -/
noncomputable def turnLin (R : Matrix (Fin 3) (Fin 3) ℝ) : E3 →ₗ[ℝ] E3 where
  toFun := turnBy R
  map_add' := turnBy_add R
  map_smul' c x := turnBy_smul R c x

theorem gram_inner (A : Matrix (Fin 3) (Fin 3) ℝ) (x y : E3) : inner ℝ (turnBy (Aᵀ * A) x) y = inner ℝ (turnBy A x) (turnBy A y) := by
  simp only [E3_inner, turnBy_apply, mul_apply, Fin.sum_univ_three, transpose_apply]
  ring

theorem gram_symm (A : Matrix (Fin 3) (Fin 3) ℝ) : (turnLin (Aᵀ * A)).IsSymmetric := by
  intro x y
  show inner ℝ (turnBy (Aᵀ * A) x) y = inner ℝ x (turnBy (Aᵀ * A) y)
  rw [gram_inner, real_inner_comm (turnBy (Aᵀ * A) y) x, gram_inner, real_inner_comm]

/-- the matrix with the given columns -/
noncomputable def colMat (b : Fin 3 → E3) : Matrix (Fin 3) (Fin 3) ℝ := fun i j => b j i

theorem colMat_orth (b : OrthonormalBasis (Fin 3) ℝ E3) : (colMat b)ᵀ * colMat b = 1 := by
  ext i j
  rw [mul_apply, Fin.sum_univ_three, one_apply]
  have h := orthonormal_iff_ite.1 b.orthonormal i j
  rw [E3_inner] at h
  exact h

theorem exists_svd (A : Matrix (Fin 3) (Fin 3) ℝ) : ∃ (U V : Matrix (Fin 3) (Fin 3) ℝ) (s : Fin 3 → ℝ),
    Uᵀ * U = 1 ∧ Vᵀ * V = 1 ∧ s 1 ≤ s 0 ∧ s 2 ≤ s 1 ∧ 0 ≤ s 2 ∧ A = U * diagonal s * Vᵀ := by
  have hn : Module.finrank ℝ E3 = 3 := by simp
  set v := (gram_symm A).eigenvectorBasis hn with hv
  set ev := (gram_symm A).eigenvalues hn with hev
  have heig : ∀ i, turnBy (Aᵀ * A) (v i) = ev i • v i := fun i => (gram_symm A).apply_eigenvectorBasis hn i
  have hin : ∀ i j, inner ℝ (turnBy A (v i)) (turnBy A (v j)) = if i = j then ev i else 0 := by
    intro i j
    rw [← gram_inner, heig, real_inner_smul_left, orthonormal_iff_ite.1 v.orthonormal i j]
    split <;> simp
  have hev0 : ∀ i, 0 ≤ ev i := by
    intro i
    have := hin i i
    rw [if_pos rfl, real_inner_self_eq_norm_sq] at this
    rw [← this]; positivity
  have hanti : ∀ i j : Fin 3, i ≤ j → ev j ≤ ev i := fun i j h => (gram_symm A).eigenvalues_antitone hn h
  let s : Fin 3 → ℝ := fun i => √(ev i)
  have hort : Orthonormal ℝ (Set.domRestrict {i | s i ≠ 0} fun i => (s i)⁻¹ • turnBy A (v i)) := by
    rw [orthonormal_iff_ite]
    rintro ⟨i, hi⟩ ⟨j, hj⟩
    change inner ℝ ((s i)⁻¹ • turnBy A (v i)) ((s j)⁻¹ • turnBy A (v j)) = _
    simp only [real_inner_smul_left, real_inner_smul_right, hin, Subtype.mk.injEq]
    by_cases h : i = j
    · subst h
      rw [if_pos rfl, if_pos rfl]
      have h2 : s i * s i = ev i := Real.mul_self_sqrt (hev0 i)
      rw [← h2]
      have hi' : s i ≠ 0 := hi
      field_simp
    · rw [if_neg h, if_neg h]; simp
  obtain ⟨b, hb⟩ := hort.exists_orthonormalBasis_extension_of_card_eq (by simp)
  have hAv : ∀ i, turnBy A (v i) = s i • b i := by
    intro i
    by_cases h : s i = 0
    · have h1 : ev i = 0 := by
        have := Real.mul_self_sqrt (hev0 i)
        have h' : √(ev i) = 0 := h
        rw [h'] at this; linarith
      have h2 := hin i i
      rw [if_pos rfl, h1, inner_self_eq_zero] at h2
      rw [h2, h, zero_smul]
    · rw [hb i h, smul_smul, mul_inv_cancel₀ h, one_smul]
  refine ⟨colMat b, colMat v, s, colMat_orth b, colMat_orth v, Real.sqrt_le_sqrt (hanti 0 1 (by decide)),
    Real.sqrt_le_sqrt (hanti 1 2 (by decide)), Real.sqrt_nonneg _, ?_⟩
  have h1 : A * colMat v = colMat b * diagonal s := by
    ext i j
    have := congrArg (fun x : E3 => x i) (hAv j)
    dsimp only at this
    rw [turnBy_apply] at this
    rw [mul_apply, Fin.sum_univ_three, mul_diagonal]
    rw [show (s j • b j) i = s j * b j i from rfl] at this
    rw [show A i 0 * colMat v 0 j + A i 1 * colMat v 1 j + A i 2 * colMat v 2 j = A i 0 * v j 0 + A i 1 * v j 1 + A i 2 * v j 2 from rfl, this]
    exact mul_comm _ _
  rw [← h1, Matrix.mul_assoc, orth_comm (colMat_orth v), Matrix.mul_one]

open Classical in
/-- a decomposition that meets the assumption -/
noncomputable def exactSvd : SvdLib XR := fun A =>
  if h : ∃ B : Matrix (Fin 3) (Fin 3) ℝ, A.Is B then
    (fun i j => .fin ((exists_svd h.choose).choose i j), fun i => .fin ((exists_svd h.choose).choose_spec.choose_spec.choose i),
      fun i j => .fin ((exists_svd h.choose).choose_spec.choose i j))
  else (A, fun _ => .nan, A)

theorem exactSvd_exact : exactSvd.Exact := by
  intro A B h
  have h' : ∃ B : Matrix (Fin 3) (Fin 3) ℝ, A.Is B := ⟨B, h⟩
  have e : h'.choose = B := by
    ext i j
    have := (h'.choose_spec i j).symm.trans (h i j)
    exact XR.fin_inj.1 this
  have sp := (exists_svd h'.choose).choose_spec.choose_spec.choose_spec
  refine ⟨(exists_svd h'.choose).choose, (exists_svd h'.choose).choose_spec.choose, (exists_svd h'.choose).choose_spec.choose_spec.choose,
    ?_, ?_, ?_, sp.1, sp.2.1, sp.2.2.1, sp.2.2.2.1, sp.2.2.2.2.1, ?_⟩
  · unfold exactSvd; rw [dif_pos h']; exact fun _ _ => rfl
  · unfold exactSvd; rw [dif_pos h']; exact fun _ => rfl
  · unfold exactSvd; rw [dif_pos h']; exact fun _ _ => rfl
  · exact e.symm.trans sp.2.2.2.2.2

end TinyMesh
