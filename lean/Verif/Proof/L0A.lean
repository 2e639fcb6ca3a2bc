import Verif.Spec.L0
import Verif.Proof.Fair
import Verif.Proof.SmoothD
/-
L0 denoising: the quadratic problem, and the matrices in exact arithmetic.
-/
namespace TinyMesh
open Matrix

/-! ### The quadratic problem -/

section
variable {ι κ : Type} [Fintype ι] [Fintype κ] [DecidableEq ι]

/-- the matrix of the system -/
noncomputable def l0Mat (R D : Matrix κ ι ℝ) (alpha beta : ℝ) : Matrix ι ι ℝ := fun i j =>
  (if i = j then 1 else 0) + ∑ e, alpha * R e i * R e j + ∑ e, beta * D e i * D e j

theorem l0Mat_mulVec (R D : Matrix κ ι ℝ) (alpha beta : ℝ) (x : ι → ℝ) (i : ι) :
    (l0Mat R D alpha beta).mulVec x i = x i + alpha * ∑ e, R e i * R.mulVec x e + beta * ∑ e, D e i * D.mulVec x e := by
  have key : ∀ (a : ℝ) (B : Matrix κ ι ℝ), ∑ j, (∑ e, a * B e i * B e j) * x j = a * ∑ e, B e i * B.mulVec x e := by
    intro a B
    simp only [Finset.sum_mul, Matrix.mulVec, dotProduct, Finset.mul_sum]
    rw [Finset.sum_comm]
    exact Finset.sum_congr rfl fun e _ => Finset.sum_congr rfl fun j _ => by ring
  change ∑ j, l0Mat R D alpha beta i j * x j = _
  unfold l0Mat
  simp only [add_mul, Finset.sum_add_distrib, key]
  simp

omit [DecidableEq ι] in
theorem sum_transpose (B : Matrix κ ι ℝ) (z : ι → ℝ) (w : κ → ℝ) : ∑ i, z i * ∑ e, B e i * w e = ∑ e, B.mulVec z e * w e := by
  simp only [Finset.mul_sum, Matrix.mulVec, dotProduct, Finset.sum_mul]
  rw [Finset.sum_comm]
  exact Finset.sum_congr rfl fun e _ => Finset.sum_congr rfl fun j _ => by ring

/-- the quadratic function -/
noncomputable def l0Quad (R D : Matrix κ ι ℝ) (alpha beta : ℝ) (b : ι → ℝ) (g : κ → ℝ) (x : ι → ℝ) : ℝ :=
  ∑ i, (x i - b i) ^ 2 + alpha * ∑ e, R.mulVec x e ^ 2 + beta * ∑ e, (D.mulVec x e - g e) ^ 2

/-- a solution of the system is the minimum, and the function grows at least like the squared distance -/
theorem l0Quad_min {R D : Matrix κ ι ℝ} {alpha beta : ℝ} (ha : 0 ≤ alpha) (hb : 0 ≤ beta) {b : ι → ℝ} {g : κ → ℝ} {x : ι → ℝ}
    (h : ∀ i, (l0Mat R D alpha beta).mulVec x i = b i + ∑ e, beta * D e i * g e) (y : ι → ℝ) :
    l0Quad R D alpha beta b g x + ∑ i, (y i - x i) ^ 2 ≤ l0Quad R D alpha beta b g y := by
  have hz : ∑ i, (y i - x i) * (x i - b i) + alpha * ∑ e, R.mulVec (y - x) e * R.mulVec x e +
      beta * ∑ e, D.mulVec (y - x) e * (D.mulVec x e - g e) = 0 := by
    rw [← sum_transpose, ← sum_transpose, Finset.mul_sum, Finset.mul_sum, ← Finset.sum_add_distrib, ← Finset.sum_add_distrib]
    refine Finset.sum_eq_zero fun i _ => ?_
    have := h i
    rw [l0Mat_mulVec] at this
    have e : ∑ e, D e i * (D.mulVec x e - g e) = ∑ e, D e i * D.mulVec x e - ∑ e, D e i * g e := by
      rw [← Finset.sum_sub_distrib]; exact Finset.sum_congr rfl fun e _ => by ring
    have e' : ∑ e, beta * D e i * g e = beta * ∑ e, D e i * g e := by
      rw [Finset.mul_sum]; exact Finset.sum_congr rfl fun e _ => by ring
    rw [e]
    rw [e'] at this
    change (y i - x i) * (x i - b i) + alpha * ((y i - x i) * _) + beta * ((y i - x i) * _) = 0
    linear_combination (y i - x i) * this
  have hR : ∀ e, R.mulVec (y - x) e = R.mulVec y e - R.mulVec x e := fun e => by rw [Matrix.mulVec_sub]; rfl
  have hD : ∀ e, D.mulVec (y - x) e = D.mulVec y e - D.mulVec x e := fun e => by rw [Matrix.mulVec_sub]; rfl
  have e1 : ∑ i, (y i - b i) ^ 2 = ∑ i, (x i - b i) ^ 2 + ∑ i, (y i - x i) ^ 2 + 2 * ∑ i, (y i - x i) * (x i - b i) := by
    rw [Finset.mul_sum, ← Finset.sum_add_distrib, ← Finset.sum_add_distrib]
    exact Finset.sum_congr rfl fun i _ => by ring
  have e2 : ∑ e, R.mulVec y e ^ 2 = ∑ e, R.mulVec x e ^ 2 + ∑ e, R.mulVec (y - x) e ^ 2 + 2 * ∑ e, R.mulVec (y - x) e * R.mulVec x e := by
    rw [Finset.mul_sum, ← Finset.sum_add_distrib, ← Finset.sum_add_distrib]
    exact Finset.sum_congr rfl fun i _ => by rw [hR]; ring
  have e3 : ∑ e, (D.mulVec y e - g e) ^ 2 = ∑ e, (D.mulVec x e - g e) ^ 2 + ∑ e, D.mulVec (y - x) e ^ 2 +
      2 * ∑ e, D.mulVec (y - x) e * (D.mulVec x e - g e) := by
    rw [Finset.mul_sum, ← Finset.sum_add_distrib, ← Finset.sum_add_distrib]
    exact Finset.sum_congr rfl fun i _ => by rw [hD]; ring
  have n2 := mul_nonneg ha (Finset.sum_nonneg fun e (_ : e ∈ Finset.univ) => sq_nonneg (R.mulVec (y - x) e))
  have n3 := mul_nonneg hb (Finset.sum_nonneg fun e (_ : e ∈ Finset.univ) => sq_nonneg (D.mulVec (y - x) e))
  unfold l0Quad
  rw [e1, e2, e3]
  nlinarith

theorem l0Mat_det {R D : Matrix κ ι ℝ} {alpha beta : ℝ} (ha : 0 ≤ alpha) (hb : 0 ≤ beta) : (l0Mat R D alpha beta).det ≠ 0 := by
  intro h
  obtain ⟨x, hx, h0⟩ := Matrix.exists_mulVec_eq_zero_iff.2 h
  refine hx ?_
  have := l0Quad_min ha hb (R := R) (D := D) (b := 0) (g := 0) (x := x) (fun i => by rw [h0]; simp) 0
  have h1 : l0Quad R D alpha beta 0 0 0 = 0 := by simp [l0Quad]
  have h2 : 0 ≤ l0Quad R D alpha beta 0 0 x := by
    unfold l0Quad
    have n1 := (Finset.sum_nonneg fun e (_ : e ∈ Finset.univ) => sq_nonneg (x e - (0 : ι → ℝ) e))
    have n2 := mul_nonneg ha (Finset.sum_nonneg fun e (_ : e ∈ Finset.univ) => sq_nonneg (R.mulVec x e))
    have n3 := mul_nonneg hb (Finset.sum_nonneg fun e (_ : e ∈ Finset.univ) => sq_nonneg (D.mulVec x e - (0 : κ → ℝ) e))
    linarith
  have h3 : ∑ i, ((0 : ι → ℝ) i - x i) ^ 2 ≤ 0 := by linarith
  have h4 := (Finset.sum_eq_zero_iff_of_nonneg fun i (_ : i ∈ Finset.univ) => sq_nonneg ((0 : ι → ℝ) i - x i)).1
    (le_antisymm h3 (Finset.sum_nonneg fun i _ => sq_nonneg _))
  funext i
  have := h4 i (Finset.mem_univ i)
  simpa using this

end

/-! ### Sums and triplets -/

theorem sumN_fin {n : Nat} {f : Nat → XR} {g : Fin n → ℝ} (h : ∀ i : Fin n, f i = XR.fin (g i)) : sumN n f = XR.fin (∑ i, g i) := by
  induction n with
  | zero => simp [sumN, R_lit0]
  | succ n ih =>
    have := ih (g := fun i => g i.castSucc) fun i => h i.castSucc
    unfold sumN at this ⊢
    rw [List.range_succ, List.foldl_append, this, Fin.sum_univ_castSucc]
    simp only [List.foldl_cons, List.foldl_nil]
    rw [← X_add]
    congr 1
    exact h (Fin.last n)

theorem coef_cons (t : Int × Int × ℝ) (ts : List (Int × Int × ℝ)) (i j : Nat) :
    coef (t :: ts) i j = (if t.1 = (i : Int) ∧ t.2.1 = (j : Int) then t.2.2 else 0) + coef ts i j := by
  unfold coef
  by_cases c : t.1 = (i : Int) ∧ t.2.1 = (j : Int)
  · rw [List.filter_cons_of_pos (by simpa using c), if_pos c]; simp
  · rw [List.filter_cons_of_neg (by simpa using c), if_neg c]; simp

/-- a row of triplets as a linear form -/
theorem coef_apply {F : Type} {m : Mesh F} (wf : m.WF) (x : Nat → ℝ) (e : Nat) : ∀ l : List (Nat × ℝ), (∀ t ∈ l, m.vAlive t.1 = true) →
    ∑ j : Fin m.vs.length, coef (l.map fun t => ((e : Int), m.vIdx t.1, t.2)) e j * x m.vs[j] = (l.map fun t => t.2 * x t.1).sum
  | [], _ => by simp [coef]
  | t :: l, h => by
    have ih := coef_apply wf x e l fun t ht => h t (by simp [ht])
    obtain ⟨k, hk⟩ := wf.vDense.exists_at (h t (by simp))
    obtain ⟨hl, hv⟩ := List.getElem?_eq_some_iff.1 hk
    have hi := wf.vDense.idx_of hk
    simp only [List.map_cons, coef_cons, add_mul, Finset.sum_add_distrib, ih, List.sum_cons, true_and, hi]
    congr 1
    rw [Finset.sum_eq_single (⟨k, hl⟩ : Fin m.vs.length)]
    · simp only [if_true]
      change t.2 * x m.vs[k] = _
      rw [hv]
    · intro j _ hj
      rw [if_neg, zero_mul]
      intro e
      exact hj (Fin.ext (by simpa using e.symm))
    · simp

theorem ofTripletsRect_fin {r c : Nat} {ts : List (Int × Int × ℝ)} (h : ∀ t ∈ ts, 0 ≤ t.1 ∧ t.1 < r ∧ 0 ≤ t.2.1 ∧ t.2.1 < c) (m : Mesh XR) :
    ∃ L, ofTripletsRect r c (ts.map finT) m = .ok L m ∧ ∀ i j, L i j = XR.fin (coef ts i j) := by
  unfold ofTripletsRect
  rw [if_pos]
  · refine ⟨_, rfl, ?_⟩
    intro i j
    rw [coef, ← sumDup_fin, List.filter_map, List.map_map, List.map_map]
    rfl
  · rw [List.all_map, List.all_eq_true]
    intro t ht
    exact decide_eq_true (h t ht)

end TinyMesh
