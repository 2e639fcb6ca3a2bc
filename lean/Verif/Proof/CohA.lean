import Verif.Spec.Coherent
import Verif.Proof.RealA
import Mathlib.Tactic.FieldSimp
import Mathlib.Tactic.Positivity
import Mathlib.Tactic.Linarith
/-
Expectation maximisation: real values of the rounds.
-/
namespace TinyMesh

theorem normalDensity_pos (μ : ℝ) {v : ℝ} (hv : 0 < v) (x : ℝ) : 0 < normalDensity μ v x := by
  unfold normalDensity
  have := Real.pi_pos
  positivity

theorem gauss_eq (μ : ℝ) {v : ℝ} (hv : 0 < v) (x : ℝ) : gauss (XR.fin μ - XR.fin x) (XR.fin v) = XR.fin (normalDensity μ v x) := by
  have hpi := Real.pi_pos
  have h2 : (0 : ℝ) < 2 * Real.pi * v := by positivity
  have hs : √(2 * Real.pi * v) ≠ 0 := (Real.sqrt_pos.2 h2).ne'
  have e2 : (Scalar.lit 2 1 : ℝ) = 2 := by rw [R_lit]; norm_num
  have e12 : (Scalar.lit 1 2 : ℝ) = 1 / 2 := by rw [R_lit]; norm_num
  unfold gauss
  simp only [X_sub, X_lit, X_neg, X_mul, X_pi, e2, e12]
  rw [X_div _ hv.ne', X_exp, X_sqrt h2.le, X_div _ hs]
  unfold normalDensity
  congr 3
  field_simp
  ring

theorem sum_foldl (f : ℝ → ℝ) (g : XR → XR) (cs : List ℝ) (h : ∀ c ∈ cs, g (.fin c) = .fin (f c)) (s : ℝ) :
    (cs.map XR.fin).foldl (fun s c => s + g c) (.fin s) = .fin (s + (cs.map f).sum) := by
  induction cs generalizing s with
  | nil => simp
  | cons c cs ih =>
    simp only [List.map_cons, List.foldl_cons, List.sum_cons]
    rw [h c (by simp), X_add, ih (fun c hc => h c (by simp [hc]))]
    rw [add_assoc]

namespace Mixture

theorem density_pos {M : Mixture} (hM : M.Proper) (x : ℝ) : 0 < M.density x :=
  Finset.sum_pos (fun k _ => mul_pos (hM.weight_pos k) (normalDensity_pos _ (hM.var_pos k) x)) Finset.univ_nonempty

theorem resp_pos {M : Mixture} (hM : M.Proper) (x : ℝ) (k : Fin 3) : 0 < M.resp x k :=
  div_pos (mul_pos (hM.weight_pos k) (normalDensity_pos _ (hM.var_pos k) x)) (density_pos hM x)

theorem resp_sum {M : Mixture} (hM : M.Proper) (x : ℝ) : ∑ k, M.resp x k = 1 := by
  unfold resp
  rw [← Finset.sum_div]
  exact div_self (density_pos hM x).ne'

theorem gamma_eq {M : Mixture} (hM : M.Proper) (x : ℝ) (k : Fin 3) : M.fin.gamma (.fin x) k = .fin (M.resp x k) := by
  unfold Gmm.gamma
  simp only [fin, gauss_eq _ (hM.var_pos _), X_mul, X_lit, R_lit0, X_add]
  have e : 0 + M.weight 0 * normalDensity (M.mean 0) (M.var 0) x + M.weight 1 * normalDensity (M.mean 1) (M.var 1) x
      + M.weight 2 * normalDensity (M.mean 2) (M.var 2) x = M.density x := by
    unfold density
    rw [Fin.sum_univ_three, zero_add]
  rw [e, X_div _ (density_pos hM x).ne']
  rfl

theorem mass_pos {M : Mixture} (hM : M.Proper) {cs : List ℝ} (hc : cs ≠ []) (k : Fin 3) : 0 < M.mass cs k := by
  unfold mass
  refine List.sum_pos _ (fun y hy => ?_) (by simpa using hc)
  obtain ⟨c, _, rfl⟩ := List.mem_map.1 hy
  exact resp_pos hM c k

theorem mass_sum {M : Mixture} (hM : M.Proper) (cs : List ℝ) : ∑ k, M.mass cs k = cs.length := by
  unfold mass
  induction cs with
  | nil => simp
  | cons c cs ih =>
    simp only [List.map_cons, List.sum_cons, Finset.sum_add_distrib, ih, resp_sum hM, List.length_cons]
    push_cast; ring

theorem sum_div' (f : ℝ → ℝ) (d : ℝ) (cs : List ℝ) : (cs.map fun c => f c / d).sum = (cs.map f).sum / d := by
  induction cs with
  | nil => simp
  | cons c cs ih => simp only [List.map_cons, List.sum_cons, ih, add_div]

/-- one round of the code -/
theorem step_eq {M : Mixture} (hM : M.Proper) {cs : List ℝ} (hc : cs ≠ []) :
    ∃ N : Mixture, Gmm.step (cs.map XR.fin) M.fin = N.fin ∧ M.Next N cs := by
  have hn : (cs.length : ℝ) ≠ 0 := by
    simpa using hc
  have hG := fun k => (mass_pos hM hc k).ne'
  let w : Fin 3 → ℝ := fun k => M.mass cs k / cs.length
  let mu : Fin 3 → ℝ := fun k => (cs.map fun c => M.resp c k * c).sum / M.mass cs k
  let va : Fin 3 → ℝ := fun k => (cs.map fun c => M.resp c k * (c - mu k) ^ 2).sum / M.mass cs k
  refine ⟨⟨w, mu, va⟩, ?_, ⟨fun _ => rfl, fun _ => rfl, fun _ => rfl⟩⟩
  have hl : (Scalar.lit ((cs.map XR.fin).length : Int) 1 : XR) = .fin cs.length := by
    rw [X_lit, R_lit]; simp
  have hpi : ∀ k, (cs.map XR.fin).foldl (fun s c => s + M.fin.gamma c k / (XR.fin cs.length)) (Scalar.lit 0 1) = .fin (w k) := by
    intro k
    rw [X_lit, R_lit0]
    rw [sum_foldl (fun c => M.resp c k / cs.length) (fun c => M.fin.gamma c k / XR.fin cs.length) cs
      (fun c _ => by rw [gamma_eq hM, X_div _ hn]), zero_add, sum_div']
    rfl
  have hw : ∀ k, (cs.length : ℝ) * w k = M.mass cs k := fun k => mul_div_cancel₀ _ hn
  have hmu : ∀ k, (cs.map XR.fin).foldl (fun s c => s + M.fin.gamma c k * c / (XR.fin cs.length * XR.fin (w k))) (Scalar.lit 0 1)
      = .fin (mu k) := by
    intro k
    rw [X_lit, R_lit0, X_mul, hw]
    rw [sum_foldl (fun c => M.resp c k * c / M.mass cs k) (fun c => M.fin.gamma c k * c / XR.fin (M.mass cs k)) cs
      (fun c _ => by rw [gamma_eq hM, X_mul, X_div _ (hG k)]), zero_add, sum_div']
  have hva : ∀ k, (cs.map XR.fin).foldl (fun s c => s + M.fin.gamma c k * (c - XR.fin (mu k)) * (c - XR.fin (mu k)) /
      (XR.fin cs.length * XR.fin (w k))) (Scalar.lit 0 1) = .fin (va k) := by
    intro k
    rw [X_lit, R_lit0, X_mul, hw]
    rw [sum_foldl (fun c => M.resp c k * (c - mu k) ^ 2 / M.mass cs k)
      (fun c => M.fin.gamma c k * (c - XR.fin (mu k)) * (c - XR.fin (mu k)) / XR.fin (M.mass cs k)) cs
      (fun c _ => by rw [gamma_eq hM, X_sub, X_mul, X_mul, X_div _ (hG k)]; congr 2; ring), zero_add, sum_div']
  unfold Gmm.step
  dsimp only
  simp only [hl, hpi, hmu, hva]
  rfl

end Mixture
end TinyMesh
