import Verif.Proof.CohD
import Verif.Proof.CurvG
import Verif.Proof.Fair
/-
The best rotation between two sets of points: sums of squares and the code.
-/
namespace TinyMesh
open Matrix

/-! ### real numbers -/

theorem turnBy_add (R : Matrix (Fin 3) (Fin 3) ℝ) (x y : E3) : turnBy R (x + y) = turnBy R x + turnBy R y := by
  unfold turnBy
  rw [WithLp.ofLp_add, Matrix.mulVec_add, WithLp.toLp_add]

theorem turnBy_sub (R : Matrix (Fin 3) (Fin 3) ℝ) (x y : E3) : turnBy R (x - y) = turnBy R x - turnBy R y := by
  unfold turnBy
  rw [WithLp.ofLp_sub, Matrix.mulVec_sub, WithLp.toLp_sub]

theorem turnBy_zero (R : Matrix (Fin 3) (Fin 3) ℝ) : turnBy R 0 = 0 := by
  unfold turnBy
  rw [WithLp.ofLp_zero, Matrix.mulVec_zero, WithLp.toLp_zero]

theorem turnBy_apply (R : Matrix (Fin 3) (Fin 3) ℝ) (x : E3) (i : Fin 3) : turnBy R x i = R i 0 * x 0 + R i 1 * x 1 + R i 2 * x 2 := by
  show R.mulVec x.ofLp i = _
  simp [Matrix.mulVec, dotProduct, Fin.sum_univ_three]

theorem E3_inner (x y : E3) : inner ℝ x y = x 0 * y 0 + x 1 * y 1 + x 2 * y 2 := by
  simp [PiLp.inner_apply, Fin.sum_univ_three, mul_comm]

theorem turnBy_norm {R : Matrix (Fin 3) (Fin 3) ℝ} (h : Rᵀ * R = 1) (x : E3) : ‖turnBy R x‖ ^ 2 = ‖x‖ ^ 2 := by
  rw [← real_inner_self_eq_norm_sq, ← real_inner_self_eq_norm_sq, E3_inner, E3_inner]
  simp only [turnBy_apply]
  have h00 := orth_col h 0 0
  have h11 := orth_col h 1 1
  have h22 := orth_col h 2 2
  have h01 := orth_col h 0 1
  have h02 := orth_col h 0 2
  have h12 := orth_col h 1 2
  simp only [if_true, Fin.reduceEq, if_false] at h00 h11 h22 h01 h02 h12
  linear_combination (x 0) ^ 2 * h00 + (x 1) ^ 2 * h11 + (x 2) ^ 2 * h22 + 2 * x 0 * x 1 * h01 + 2 * x 0 * x 2 * h02
    + 2 * x 1 * x 2 * h12

/-- `Σ y xᵀ` -/
noncomputable def moment (L : List (E3 × E3)) : Matrix (Fin 3) (Fin 3) ℝ := fun i j => (L.map fun q => q.2 i * q.1 j).sum

theorem moment_trace (Q : Matrix (Fin 3) (Fin 3) ℝ) (L : List (E3 × E3)) :
    (L.map fun q => inner ℝ q.2 (turnBy Q q.1)).sum = trace (Qᵀ * moment L) := by
  have h : trace (Qᵀ * moment L) = ∑ j, ∑ i, Q i j * moment L i j := by
    rw [trace]
    refine Finset.sum_congr rfl fun j _ => ?_
    rw [diag_apply, mul_apply]
    rfl
  rw [h]
  clear h
  simp only [Fin.sum_univ_three, moment]
  induction L with
  | nil => simp
  | cons q L ih =>
    rw [List.map_cons, List.sum_cons, ih, E3_inner]
    simp only [List.map_cons, List.sum_cons, turnBy_apply]
    ring

theorem cost_orth {Q : Matrix (Fin 3) (Fin 3) ℝ} (h : Qᵀ * Q = 1) (L : List (E3 × E3)) :
    fitCost L Q 0 = (L.map fun q => ‖q.2‖ ^ 2).sum + (L.map fun q => ‖q.1‖ ^ 2).sum - 2 * trace (Qᵀ * moment L) := by
  rw [← moment_trace]
  unfold fitCost
  induction L with
  | nil => simp
  | cons q L ih =>
    simp only [add_zero] at ih ⊢
    simp only [List.map_cons, List.sum_cons, ih]
    rw [norm_sub_sq_real, turnBy_norm h]
    ring

/-- moving the second points of centred pairs -/
theorem cost_shift (Q : Matrix (Fin 3) (Fin 3) ℝ) (L : List (E3 × E3)) (s : E3) :
    fitCost L Q s = fitCost L Q 0 - 2 * inner ℝ ((L.map Prod.snd).sum - turnBy Q (L.map Prod.fst).sum) s + L.length * ‖s‖ ^ 2 := by
  unfold fitCost
  induction L with
  | nil => simp [turnBy_zero]
  | cons q L ih =>
    simp only [add_zero] at ih ⊢
    simp only [List.map_cons, List.sum_cons, ih, List.length_cons, turnBy_add]
    rw [← sub_sub, norm_sub_sq_real (q.2 - turnBy Q q.1) s]
    simp only [inner_sub_left, inner_add_left]
    push_cast
    ring

/-- the centre of a list of points -/
noncomputable def centre (l : List E3) : E3 := (l.length : ℝ)⁻¹ • l.sum

/-- the pairs moved by their centres -/
noncomputable def centred (L : List (E3 × E3)) : List (E3 × E3) :=
  L.map fun q => (q.1 - centre (L.map Prod.fst), q.2 - centre (L.map Prod.snd))

theorem sum_sub_const {α : Type} (f : α → E3) (c : E3) (l : List α) :
    (l.map fun a => f a - c).sum = (l.map f).sum - (l.length : ℝ) • c := by
  induction l with
  | nil => simp
  | cons a l ih =>
    simp only [List.map_cons, List.sum_cons, ih, List.length_cons, Nat.cast_add, Nat.cast_one, add_smul, one_smul]
    abel

theorem centred_sum {L : List (E3 × E3)} (hL : L ≠ []) :
    ((centred L).map Prod.fst).sum = 0 ∧ ((centred L).map Prod.snd).sum = 0 := by
  have hn : (L.length : ℝ) ≠ 0 := by simpa using hL
  unfold centred
  constructor
  · rw [List.map_map]
    show (L.map fun q => q.1 - centre (L.map Prod.fst)).sum = 0
    rw [sum_sub_const, centre, List.length_map, smul_smul, mul_inv_cancel₀ hn, one_smul]
    exact sub_self _
  · rw [List.map_map]
    show (L.map fun q => q.2 - centre (L.map Prod.snd)).sum = 0
    rw [sum_sub_const, centre, List.length_map, smul_smul, mul_inv_cancel₀ hn, one_smul]
    exact sub_self _

theorem cost_centred (L : List (E3 × E3)) (Q : Matrix (Fin 3) (Fin 3) ℝ) (s : E3) :
    fitCost L Q s = fitCost (centred L) Q (s - (centre (L.map Prod.snd) - turnBy Q (centre (L.map Prod.fst)))) := by
  unfold fitCost centred
  rw [List.map_map]
  congr 1
  refine List.map_congr_left fun q _ => ?_
  simp only [Function.comp]
  rw [turnBy_sub]
  congr 2
  abel

/-- the motion of the code is the best one -/
theorem best_motion {L : List (E3 × E3)} (hL : L ≠ []) {U V : Matrix (Fin 3) (Fin 3) ℝ} {s : Fin 3 → ℝ} (hU : Uᵀ * U = 1)
    (hV : Vᵀ * V = 1) (h10 : s 1 ≤ s 0) (h21 : s 2 ≤ s 1) (h2 : 0 ≤ s 2) (hM : moment (centred L) = U * diagonal s * Vᵀ)
    {Q : Matrix (Fin 3) (Fin 3) ℝ} (hQ : IsRotation Q) (w : E3) :
    fitCost L (kabsch U V) (centre (L.map Prod.snd) - turnBy (kabsch U V) (centre (L.map Prod.fst))) ≤ fitCost L Q w := by
  rw [cost_centred, cost_centred L Q, sub_self, cost_shift Q, (centred_sum hL).1, (centred_sum hL).2, turnBy_zero, sub_zero,
    inner_zero_left, mul_zero, sub_zero, cost_orth (kabsch_rot hU hV).1, cost_orth hQ.1, hM]
  have := kabsch_best hU hV h10 h21 h2 hQ
  have h3 : 0 ≤ ((centred L).length : ℝ) * ‖w - (centre (L.map Prod.snd) - turnBy Q (centre (L.map Prod.fst)))‖ ^ 2 := by positivity
  linarith

/-! ### the code -/

/-- the rows of the code are the pairs of points -/
def RowsAre (l : List (Vec3 XR × Vec3 XR)) (L : List (E3 × E3)) : Prop := List.Forall₂ (fun a q => a.1.Is q.1 ∧ a.2.Is q.2) l L

theorem foldl_rows {l : List (Vec3 XR)} {L : List E3} (h : List.Forall₂ Vec3.Is l L) {a : Vec3 XR} {p : E3} (ha : a.Is p) :
    (l.foldl Vec3.add a).Is (p + L.sum) := by
  induction h generalizing a p with
  | nil => simpa using ha
  | cons h _ ih =>
    rw [List.foldl_cons, List.sum_cons, ← add_assoc]
    exact ih (ha.add h)

theorem meanOf_is {l : List (Vec3 XR)} {L : List E3} (h : List.Forall₂ Vec3.Is l L) (hL : L ≠ []) : (meanOf l).Is (centre L) := by
  have hn : (L.length : ℝ) ≠ 0 := by simpa using hL
  have h1 := foldl_rows h Vec3.Is.zero
  rw [zero_add] at h1
  obtain ⟨b, h2, h3⟩ := h1.div hn
  have hl : (Scalar.lit (l.length : Int) 1 : XR) = .fin L.length := by
    rw [h.length_eq, X_lit, R_lit]; simp
  unfold meanOf centre
  rw [hl]
  unfold Vec3.div? at h2
  split at h2
  · cases h2
  · cases h2; exact h3

theorem RowsAre.fst {l : List (Vec3 XR × Vec3 XR)} {L : List (E3 × E3)} (h : RowsAre l L) :
    List.Forall₂ Vec3.Is (l.map Prod.fst) (L.map Prod.fst) := by
  unfold RowsAre at h
  rw [List.forall₂_map_left_iff, List.forall₂_map_right_iff]
  exact h.imp fun _ _ h => h.1

theorem RowsAre.snd {l : List (Vec3 XR × Vec3 XR)} {L : List (E3 × E3)} (h : RowsAre l L) :
    List.Forall₂ Vec3.Is (l.map Prod.snd) (L.map Prod.snd) := by
  unfold RowsAre at h
  rw [List.forall₂_map_left_iff, List.forall₂_map_right_iff]
  exact h.imp fun _ _ h => h.2

theorem RowsAre.centred {l : List (Vec3 XR × Vec3 XR)} {L : List (E3 × E3)} (h : RowsAre l L) (hL : L ≠ []) :
    RowsAre (l.map fun q => (q.1.sub (meanOf (l.map Prod.fst)), q.2.sub (meanOf (l.map Prod.snd)))) (centred L) := by
  have h1 := meanOf_is h.fst (by simpa using hL)
  have h2 := meanOf_is h.snd (by simpa using hL)
  unfold RowsAre TinyMesh.centred at *
  rw [List.forall₂_map_left_iff, List.forall₂_map_right_iff]
  exact h.imp fun _ _ h => ⟨h.1.sub h1, h.2.sub h2⟩

theorem Vec3.Is.get {a : Vec3 XR} {x : E3} (h : a.Is x) (i : Fin 3) : a.get i = .fin (x i) := by
  rw [h.coords]
  fin_cases i <;> rfl

theorem momentMat_is {l : List (Vec3 XR × Vec3 XR)} {L : List (E3 × E3)} (h : RowsAre l L) : (momentMat l).Is (moment L) := by
  intro i j
  unfold momentMat moment
  rw [X_lit, R_lit0]
  have : ∀ s : ℝ, l.foldl (fun s q => s + q.2.get i * q.1.get j) (.fin s) = XR.fin (s + (L.map fun q => q.2 i * q.1 j).sum) := by
    induction h with
    | nil => intro s; simp
    | cons h _ ih =>
      intro s
      rw [List.foldl_cons, h.1.get, h.2.get, X_mul, X_add, ih, List.map_cons, List.sum_cons, add_assoc]
  rw [this, zero_add]

theorem Mat3.Is.mul {A B : Mat3 XR} {A' B' : Matrix (Fin 3) (Fin 3) ℝ} (hA : A.Is A') (hB : B.Is B') : (A.mul B).Is (A' * B') := by
  intro i j
  unfold Mat3.mul
  simp only [hA _ _, hB _ _, X_mul, X_add]
  rw [Matrix.mul_apply, Fin.sum_univ_three]

theorem Mat3.Is.tr {A : Mat3 XR} {A' : Matrix (Fin 3) (Fin 3) ℝ} (hA : A.Is A') : (A.tr).Is A'ᵀ := fun i j => hA j i

theorem Mat3.Is.det {A : Mat3 XR} {A' : Matrix (Fin 3) (Fin 3) ℝ} (hA : A.Is A') : A.det = .fin A'.det := by
  unfold Mat3.det
  simp only [hA _ _, X_mul, X_add, X_sub]
  rw [Matrix.det_fin_three]
  congr 1
  ring

theorem Mat3.Is.diag (a b c : ℝ) : (Mat3.diag (XR.fin a) (XR.fin b) (XR.fin c)).Is (diagonal ![a, b, c]) := by
  intro i j
  fin_cases i <;> fin_cases j <;> simp [Mat3.diag, R_lit0]

theorem Mat3.Is.turn {R : Mat3 XR} {A : Matrix (Fin 3) (Fin 3) ℝ} (h : R.Is A) {a : Vec3 XR} {x : E3} (ha : a.Is x) :
    (R.apply a).Is (turnBy A x) := by
  obtain ⟨w, rfl, rfl⟩ := ha
  obtain ⟨y, h1, h2⟩ := h.apply w
  exact ⟨y, h1, by unfold turnBy; rw [← h2]⟩

/-- the result of the code -/
theorem rigidFit_eq {svd : SvdLib XR} (hS : svd.Exact) {l : List (Vec3 XR × Vec3 XR)} {L : List (E3 × E3)} (h : RowsAre l L) (hL : L ≠ []) :
    ∃ (U V : Matrix (Fin 3) (Fin 3) ℝ) (s : Fin 3 → ℝ), Uᵀ * U = 1 ∧ Vᵀ * V = 1 ∧ s 1 ≤ s 0 ∧ s 2 ≤ s 1 ∧ 0 ≤ s 2 ∧
      moment (centred L) = U * diagonal s * Vᵀ ∧ (rigidFit svd l).R.Is (kabsch U V) ∧
      (rigidFit svd l).t.Is (centre (L.map Prod.snd) - turnBy (kabsch U V) (centre (L.map Prod.fst))) ∧
      (rigidFit svd l).error = .fin (fitCost (centred L) (kabsch U V)
        (centre (L.map Prod.snd) - turnBy (kabsch U V) (centre (L.map Prod.fst))) / L.length) := by
  have hn : (L.length : ℝ) ≠ 0 := by simpa using hL
  have hc := h.centred hL
  have hxm := meanOf_is h.fst (by simpa using hL)
  have hym := meanOf_is h.snd (by simpa using hL)
  obtain ⟨U, V, s, eU, -, eV, hU, hV, h10, h21, h2, hM⟩ := hS _ _ (momentMat_is hc)
  have hR : (rigidFit svd l).R.Is (kabsch U V) := by
    unfold rigidFit kabsch
    dsimp only
    have hd := (eU.mul eV.tr).det
    rw [hd, X_lit, R_lit1]
    exact (eU.mul (Mat3.Is.diag 1 1 _)).mul eV.tr
  have ht : (rigidFit svd l).t.Is (centre (L.map Prod.snd) - turnBy (kabsch U V) (centre (L.map Prod.fst))) :=
    hym.sub (hR.turn hxm)
  refine ⟨U, V, s, hU, hV, h10, h21, h2, hM, hR, ht, ?_⟩
  have he : (rigidFit svd l).error = ((l.map fun q => (q.1.sub (meanOf (l.map Prod.fst)), q.2.sub (meanOf (l.map Prod.snd)))).foldl
      (fun s q => s + (q.2.sub (((rigidFit svd l).R.apply q.1).add (rigidFit svd l).t)).dot
        (q.2.sub (((rigidFit svd l).R.apply q.1).add (rigidFit svd l).t))) (Scalar.lit 0 1)) / Scalar.lit l.length 1 := rfl
  rw [he]
  have hl : (Scalar.lit (l.length : Int) 1 : XR) = .fin L.length := by
    rw [List.Forall₂.length_eq h, X_lit, R_lit]; simp
  rw [hl, X_lit, R_lit0]
  have : ∀ (l' : List (Vec3 XR × Vec3 XR)) (L' : List (E3 × E3)), RowsAre l' L' → ∀ s : ℝ, l'.foldl
      (fun s q => s + (q.2.sub (((rigidFit svd l).R.apply q.1).add (rigidFit svd l).t)).dot
        (q.2.sub (((rigidFit svd l).R.apply q.1).add (rigidFit svd l).t))) (.fin s)
      = XR.fin (s + fitCost L' (kabsch U V) (centre (L.map Prod.snd) - turnBy (kabsch U V) (centre (L.map Prod.fst)))) := by
    intro l' L' h'
    unfold fitCost
    induction h' with
    | nil => intro s; simp
    | cons h1 _ ih =>
      intro s
      have h3 := h1.2.sub ((hR.turn h1.1).add ht)
      rw [List.foldl_cons, h3.dot h3, X_add, ih, List.map_cons, List.sum_cons, add_assoc, real_inner_self_eq_norm_sq]
  rw [this _ _ hc, zero_add, X_div _ hn]

/-- the error of the code is too large by the square of the translation -/
theorem error_eq {L : List (E3 × E3)} (hL : L ≠ []) (R : Matrix (Fin 3) (Fin 3) ℝ) (t : E3)
    (ht : t = centre (L.map Prod.snd) - turnBy R (centre (L.map Prod.fst))) :
    fitCost (centred L) R t / L.length = fitCost L R t / L.length + ‖t‖ ^ 2 := by
  have hn : (L.length : ℝ) ≠ 0 := by simpa using hL
  rw [cost_shift, (centred_sum hL).1, (centred_sum hL).2, turnBy_zero, sub_zero, inner_zero_left, mul_zero, sub_zero,
    cost_centred L, ← ht, sub_self]
  have : ((centred L).length : ℝ) = L.length := by simp [centred]
  rw [this]
  field_simp

end TinyMesh
