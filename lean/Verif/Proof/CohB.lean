import Verif.Proof.CohA
/-
Expectation maximisation: the rounds stay proper and do not decrease the likelihood.
-/
namespace TinyMesh
namespace Mixture

section sums
variable (cs : List ℝ) (f g : ℝ → ℝ)

theorem sum_add' : (cs.map fun c => f c + g c).sum = (cs.map f).sum + (cs.map g).sum := by
  induction cs with
  | nil => simp
  | cons c cs ih => simp only [List.map_cons, List.sum_cons, ih]; ring

theorem sum_sub' : (cs.map fun c => f c - g c).sum = (cs.map f).sum - (cs.map g).sum := by
  induction cs with
  | nil => simp
  | cons c cs ih => simp only [List.map_cons, List.sum_cons, ih]; ring

theorem sum_mul' (a : ℝ) : (cs.map fun c => f c * a).sum = (cs.map f).sum * a := by
  induction cs with
  | nil => simp
  | cons c cs ih => simp only [List.map_cons, List.sum_cons, ih]; ring

theorem sum_le' (h : ∀ c ∈ cs, f c ≤ g c) : (cs.map f).sum ≤ (cs.map g).sum := List.sum_le_sum h

theorem sum_fin (F : ℝ → Fin 3 → ℝ) : (cs.map fun c => ∑ k, F c k).sum = ∑ k, (cs.map fun c => F c k).sum := by
  induction cs with
  | nil => simp
  | cons c cs ih => simp only [List.map_cons, List.sum_cons, ih, Finset.sum_add_distrib]

theorem sum_pos' (h0 : ∀ c ∈ cs, 0 ≤ f c) {a : ℝ} (ha : a ∈ cs) (hp : 0 < f a) : 0 < (cs.map f).sum := by
  have h1 : f a ≤ (cs.map f).sum := by
    apply List.single_le_sum _ _ (List.mem_map.2 ⟨a, ha, rfl⟩)
    intro y hy
    obtain ⟨c, hc, rfl⟩ := List.mem_map.1 hy
    exact h0 c hc
  linarith

end sums

/-- all samples are equal -/
theorem next_proper {M N : Mixture} {cs : List ℝ} (hM : M.Proper) (h : M.Next N cs) {a b : ℝ} (ha : a ∈ cs) (hb : b ∈ cs) (hab : a ≠ b) :
    N.Proper := by
  have hc : cs ≠ [] := List.ne_nil_of_mem ha
  have hn : (0 : ℝ) < cs.length := by
    have := List.length_pos_of_mem ha
    exact_mod_cast this
  refine ⟨fun k => ?_, ?_, fun k => ?_⟩
  · rw [h.weight]; exact div_pos (mass_pos hM hc k) hn
  · simp only [h.weight]
    rw [← Finset.sum_div, mass_sum hM, div_self hn.ne']
  · rw [h.var]
    refine div_pos ?_ (mass_pos hM hc k)
    have hne : a ≠ N.mean k ∨ b ≠ N.mean k := by
      by_contra hh
      push Not at hh
      exact hab (hh.1.trans hh.2.symm)
    rcases hne with h1 | h1
    · exact sum_pos' cs _ (fun c _ => mul_nonneg (resp_pos hM c k).le (sq_nonneg _)) ha
        (mul_pos (resp_pos hM a k) (by have := sub_ne_zero.2 h1; positivity))
    · exact sum_pos' cs _ (fun c _ => mul_nonneg (resp_pos hM c k).le (sq_nonneg _)) hb
        (mul_pos (resp_pos hM b k) (by have := sub_ne_zero.2 h1; positivity))

/-- a mean of the next round is a weighted mean of the samples -/
theorem next_mean_gt {M N : Mixture} {cs : List ℝ} (hM : M.Proper) (h : M.Next N cs) {l : ℝ} (hl : ∀ c ∈ cs, l ≤ c) {a : ℝ}
    (ha : a ∈ cs) (hla : l < a) (k : Fin 3) : l < N.mean k := by
  have hm := mass_pos hM (List.ne_nil_of_mem ha) k
  rw [h.mean, lt_div_iff₀ hm]
  have h1 : 0 < (cs.map fun c => M.resp c k * (c - l)).sum :=
    sum_pos' cs _ (fun c hc => mul_nonneg (resp_pos hM c k).le (by linarith [hl c hc])) ha
      (mul_pos (resp_pos hM a k) (by linarith))
  have h2 : (cs.map fun c => M.resp c k * (c - l)).sum = (cs.map fun c => M.resp c k * c).sum - M.mass cs k * l := by
    unfold mass
    rw [← sum_mul', ← sum_sub']
    congr 1
    apply List.map_congr_left
    intro c _
    ring
  linarith

theorem next_mean_lt {M N : Mixture} {cs : List ℝ} (hM : M.Proper) (h : M.Next N cs) {u : ℝ} (hu : ∀ c ∈ cs, c ≤ u) {a : ℝ}
    (ha : a ∈ cs) (hua : a < u) (k : Fin 3) : N.mean k < u := by
  have hm := mass_pos hM (List.ne_nil_of_mem ha) k
  rw [h.mean, div_lt_iff₀ hm]
  have h1 : 0 < (cs.map fun c => M.resp c k * (u - c)).sum :=
    sum_pos' cs _ (fun c hc => mul_nonneg (resp_pos hM c k).le (by linarith [hu c hc])) ha
      (mul_pos (resp_pos hM a k) (by linarith))
  have h2 : (cs.map fun c => M.resp c k * (u - c)).sum = M.mass cs k * u - (cs.map fun c => M.resp c k * c).sum := by
    unfold mass
    rw [← sum_mul', ← sum_sub']
    congr 1
    apply List.map_congr_left
    intro c _
    ring
  linarith

theorem log_density {μ v : ℝ} (hv : 0 < v) (x : ℝ) :
    Real.log (normalDensity μ v x) = -(x - μ) ^ 2 / (2 * v) - Real.log (2 * Real.pi) / 2 - Real.log v / 2 := by
  have hpi := Real.pi_pos
  have h2 : (0 : ℝ) < 2 * Real.pi * v := by positivity
  unfold normalDensity
  rw [Real.log_div (Real.exp_pos _).ne' (Real.sqrt_pos.2 h2).ne', Real.log_exp, Real.log_sqrt h2.le,
    Real.log_mul (by positivity) hv.ne']
  ring

theorem log_ge {x : ℝ} (hx : 0 < x) : 1 - 1 / x ≤ Real.log x := by
  have := Real.log_le_sub_one_of_pos (x := 1 / x) (by positivity)
  rw [one_div, Real.log_inv] at this
  rw [one_div]
  linarith

/-- Jensen's inequality for one sample -/
theorem jensen {M N : Mixture} (hM : M.Proper) (hN : N.Proper) (c : ℝ) :
    ∑ k, M.resp c k * (Real.log (N.weight k * normalDensity (N.mean k) (N.var k) c)
      - Real.log (M.weight k * normalDensity (M.mean k) (M.var k) c)) ≤ Real.log (N.density c) - Real.log (M.density c) := by
  have hS := density_pos hM c
  have hS' := density_pos hN c
  have hp := fun k => mul_pos (hM.weight_pos k) (normalDensity_pos (M.mean k) (hM.var_pos k) c)
  have hp' := fun k => mul_pos (hN.weight_pos k) (normalDensity_pos (N.mean k) (hN.var_pos k) c)
  set p : Fin 3 → ℝ := fun k => M.weight k * normalDensity (M.mean k) (M.var k) c with hpd
  set p' : Fin 3 → ℝ := fun k => N.weight k * normalDensity (N.mean k) (N.var k) c with hpd'
  have key : ∀ k, M.resp c k * (Real.log (p' k) - Real.log (p k)) ≤
      M.resp c k * (Real.log (N.density c) - Real.log (M.density c)) + (p' k / N.density c - M.resp c k) := by
    intro k
    have hr : M.resp c k = p k / M.density c := rfl
    have h1 := log_ge (x := (N.density c * p k) / (M.density c * p' k)) (by have := hp k; have := hp' k; positivity)
    rw [Real.log_div (mul_pos hS' (hp k)).ne' (mul_pos hS (hp' k)).ne', Real.log_mul hS'.ne' (hp k).ne',
      Real.log_mul hS.ne' (hp' k).ne'] at h1
    have h2 : M.resp c k * (1 - 1 / ((N.density c * p k) / (M.density c * p' k))) = M.resp c k - p' k / N.density c := by
      rw [hr]
      have hp0 : p k ≠ 0 := (hp k).ne'
      have hp1 : p' k ≠ 0 := (hp' k).ne'
      field_simp
    have h3 := mul_le_mul_of_nonneg_left h1 (resp_pos hM c k).le
    rw [h2] at h3
    linarith
  calc ∑ k, M.resp c k * (Real.log (p' k) - Real.log (p k))
      ≤ ∑ k, (M.resp c k * (Real.log (N.density c) - Real.log (M.density c)) + (p' k / N.density c - M.resp c k)) :=
        Finset.sum_le_sum fun k _ => key k
    _ = Real.log (N.density c) - Real.log (M.density c) := by
        rw [Finset.sum_add_distrib, Finset.sum_sub_distrib, ← Finset.sum_mul, resp_sum hM, ← Finset.sum_div]
        have : (∑ k, p' k) / N.density c = 1 := div_self hS'.ne'
        rw [this]; ring

/-- the likelihood does not decrease -/
theorem next_logLik {M N : Mixture} {cs : List ℝ} (hM : M.Proper) (hN : N.Proper) (hc : cs ≠ []) (h : M.Next N cs) :
    M.logLik cs ≤ N.logLik cs := by
  have hn : (0 : ℝ) < cs.length := by
    have := List.length_pos_of_ne_nil hc
    exact_mod_cast this
  have h1 : (cs.map fun c => ∑ k, M.resp c k * (Real.log (N.weight k * normalDensity (N.mean k) (N.var k) c)
      - Real.log (M.weight k * normalDensity (M.mean k) (M.var k) c))).sum ≤ N.logLik cs - M.logLik cs := by
    unfold logLik
    rw [← sum_sub']
    exact sum_le' cs _ _ fun c _ => jensen hM hN c
  rw [sum_fin] at h1
  have h2 : ∀ k, (cs.length : ℝ) * (N.weight k - M.weight k) ≤
      (cs.map fun c => M.resp c k * (Real.log (N.weight k * normalDensity (N.mean k) (N.var k) c)
        - Real.log (M.weight k * normalDensity (M.mean k) (M.var k) c))).sum := by
    intro k
    have hG := mass_pos hM hc k
    have hw := hM.weight_pos k
    have hw' := hN.weight_pos k
    have hv := hM.var_pos k
    have hv' := hN.var_pos k
    have hmu : (cs.map fun c => M.resp c k * c).sum = M.mass cs k * N.mean k := by
      rw [h.mean]; field_simp
    have hva : (cs.map fun c => M.resp c k * (c - N.mean k) ^ 2).sum = M.mass cs k * N.var k := by
      rw [h.var]; field_simp
    have hva2 : (cs.map fun c => M.resp c k * (c - M.mean k) ^ 2).sum
        = M.mass cs k * N.var k + M.mass cs k * (N.mean k - M.mean k) ^ 2 := by
      have e : (fun c => M.resp c k * (c - M.mean k) ^ 2) = fun c => (M.resp c k * (c - N.mean k) ^ 2
          + M.resp c k * c * (2 * (N.mean k - M.mean k))) + M.resp c k * (M.mean k ^ 2 - N.mean k ^ 2) := by
        funext c; ring
      rw [e, sum_add', sum_add', sum_mul' cs (fun c => M.resp c k * c), sum_mul' cs (fun c => M.resp c k), hva, hmu]
      show _ + M.mass cs k * _ = _
      ring
    have e : (fun c => M.resp c k * (Real.log (N.weight k * normalDensity (N.mean k) (N.var k) c)
        - Real.log (M.weight k * normalDensity (M.mean k) (M.var k) c)))
        = fun c => (M.resp c k * (Real.log (N.weight k) - Real.log (M.weight k) - Real.log (N.var k) / 2 + Real.log (M.var k) / 2)
          + M.resp c k * (c - M.mean k) ^ 2 * (1 / (2 * M.var k))) - M.resp c k * (c - N.mean k) ^ 2 * (1 / (2 * N.var k)) := by
      funext c
      rw [Real.log_mul hw'.ne' (normalDensity_pos _ hv' c).ne', Real.log_mul hw.ne' (normalDensity_pos _ hv c).ne',
        log_density hv', log_density hv]
      field_simp
      ring
    rw [e, sum_sub', sum_add', sum_mul' cs (fun c => M.resp c k), sum_mul' cs (fun c => M.resp c k * (c - M.mean k) ^ 2),
      sum_mul' cs (fun c => M.resp c k * (c - N.mean k) ^ 2), hva, hva2]
    change _ ≤ M.mass cs k * _ + _ - _
    have hnw : (cs.length : ℝ) * N.weight k = M.mass cs k := by rw [h.weight]; field_simp
    have l1 := log_ge (x := N.weight k / M.weight k) (by positivity)
    rw [Real.log_div hw'.ne' hw.ne'] at l1
    have l2 := log_ge (x := M.var k / N.var k) (by positivity)
    rw [Real.log_div hv.ne' hv'.ne'] at l2
    have l3 : M.mass cs k * (1 - 1 / (N.weight k / M.weight k)) = cs.length * (N.weight k - M.weight k) := by
      rw [← hnw]; field_simp
    have l4 : M.mass cs k * (1 - 1 / (M.var k / N.var k)) = M.mass cs k - M.mass cs k * N.var k / M.var k := by
      field_simp
    have l5 := mul_le_mul_of_nonneg_left l1 hG.le
    have l6 := mul_le_mul_of_nonneg_left l2 hG.le
    rw [l3] at l5
    rw [l4] at l6
    have l7 : 0 ≤ M.mass cs k * (N.mean k - M.mean k) ^ 2 * (1 / (2 * M.var k)) := by positivity
    have l8 : M.mass cs k * N.var k * (1 / (2 * N.var k)) = M.mass cs k / 2 := by field_simp
    have l9 : M.mass cs k * N.var k * (1 / (2 * M.var k)) = M.mass cs k * N.var k / M.var k / 2 := by field_simp
    rw [add_mul, l8, l9]
    linarith
  have h3 : ∑ k, (cs.length : ℝ) * (N.weight k - M.weight k) = 0 := by
    rw [← Finset.mul_sum, Finset.sum_sub_distrib, hN.weight_sum, hM.weight_sum]; ring
  have h4 := Finset.sum_le_sum fun k (_ : k ∈ Finset.univ) => h2 k
  rw [h3] at h4
  linarith

end Mixture
end TinyMesh
