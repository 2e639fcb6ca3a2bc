import Verif.Proof.CohB
/-
Expectation maximisation: the rounds of the code, equal samples, the radius.
-/
namespace TinyMesh

theorem foldl_fmax (cs : List ℝ) (a : ℝ) : (cs.map XR.fin).foldl fmax (.fin a) = .fin (cs.foldl max a) := by
  induction cs generalizing a with
  | nil => rfl
  | cons c cs ih => simp only [List.map_cons, List.foldl_cons]; rw [X_fmax, R_fmax, ih]

theorem Gmm.start_eq (cs : List ℝ) : Gmm.start (cs.map XR.fin) = (Mixture.start cs).fin := by
  have e3 : (Scalar.lit 3 1 : ℝ) = 3 := by rw [R_lit]; norm_num
  have e12 : (Scalar.lit 1 2 : ℝ) = 1 / 2 := by rw [R_lit]; norm_num
  unfold Gmm.start Mixture.start Mixture.fin
  simp only [X_lit, R_lit0, R_lit1, e3, e12, foldl_fmax, X_mul]
  congr 1
  · funext k
    rw [X_div _ (by norm_num)]
  · funext k
    fin_cases k <;> rfl

theorem Mixture.start_proper (cs : List ℝ) : (Mixture.start cs).Proper :=
  ⟨fun _ => by norm_num [Mixture.start], by simp [Mixture.start], fun _ => by norm_num [Mixture.start]⟩

/-- the rounds for samples that are not all equal -/
theorem Gmm.run_eq {cs : List ℝ} {a b : ℝ} (ha : a ∈ cs) (hb : b ∈ cs) (hab : a ≠ b) :
    ∃ M : Nat → Mixture, M 0 = Mixture.start cs ∧ ∀ k, (M k).Proper ∧ (M k).Next (M (k + 1)) cs ∧
      Gmm.run (cs.map XR.fin) k = (M k).fin := by
  have hc : cs ≠ [] := List.ne_nil_of_mem ha
  have hs : ∀ M : Mixture, ∃ N : Mixture, M.Proper → Gmm.step (cs.map XR.fin) M.fin = N.fin ∧ M.Next N cs := by
    intro M
    by_cases h : M.Proper
    · obtain ⟨N, h1⟩ := Mixture.step_eq h hc
      exact ⟨N, fun _ => h1⟩
    · exact ⟨M, fun h' => absurd h' h⟩
  choose nx hnx using hs
  let M : Nat → Mixture := fun k => nx^[k] (Mixture.start cs)
  have hsucc : ∀ k, M (k + 1) = nx (M k) := fun k => Function.iterate_succ_apply' nx k _
  have hp : ∀ k, (M k).Proper ∧ Gmm.run (cs.map XR.fin) k = (M k).fin := by
    intro k
    induction k with
    | zero => exact ⟨Mixture.start_proper cs, Gmm.start_eq cs⟩
    | succ k ih =>
      obtain ⟨h1, h2⟩ := hnx (M k) ih.1
      rw [hsucc]
      refine ⟨Mixture.next_proper ih.1 h2 ha hb hab, ?_⟩
      rw [Gmm.run, ih.2, h1]
  refine ⟨M, rfl, fun k => ⟨(hp k).1, ?_, (hp k).2⟩⟩
  rw [hsucc]
  exact (hnx (M k) (hp k).1).2

/-! ### NaN -/

namespace XR
theorem nan_add (a : XR) : XR.nan + a = XR.nan := by cases a <;> rfl
theorem add_nan (a : XR) : a + XR.nan = XR.nan := by cases a <;> rfl
theorem nan_mul (a : XR) : XR.nan * a = XR.nan := by cases a <;> rfl
theorem mul_nan (a : XR) : a * XR.nan = XR.nan := by cases a <;> rfl
theorem nan_div (a : XR) : XR.nan / a = XR.nan := by cases a <;> rfl
theorem div_nan (a : XR) : a / XR.nan = XR.nan := by cases a <;> rfl
theorem nan_sub (a : XR) : XR.nan - a = XR.nan := nan_add _
theorem exp_nan : Scalar.exp XR.nan = XR.nan := rfl
end XR

theorem foldl_nan {α : Type} (g : α → XR) (l : List α) (hl : l ≠ []) (h : ∀ a ∈ l, g a = .nan) (s : XR) :
    l.foldl (fun s a => s + g a) s = .nan := by
  induction l generalizing s with
  | nil => exact absurd rfl hl
  | cons a l ih =>
    rw [List.foldl_cons, h a (by simp), XR.add_nan]
    by_cases hl' : l = []
    · subst hl'; rfl
    · exact ih hl' (fun b hb => h b (by simp [hb])) _

/-- NaN responsibilities give NaN means -/
theorem Gmm.step_nan {g : Gmm XR} {cs : List XR} (hc : cs ≠ []) (h : ∀ c ∈ cs, ∀ k, gauss (g.mu k - c) (g.var k) = .nan) (k : Fin 3) :
    (Gmm.step cs g).mu k = .nan := by
  have hg : ∀ c ∈ cs, g.gamma c k = .nan := by
    intro c hc
    unfold Gmm.gamma
    simp only [h c hc, XR.mul_nan, XR.add_nan, XR.nan_div]
  show cs.foldl (fun s c => s + g.gamma c k * c / _) _ = _
  exact foldl_nan (fun c => g.gamma c k * c / _) cs hc (fun c hc => by rw [hg c hc, XR.nan_mul, XR.nan_div]) _

theorem gauss_nan (v : XR) : gauss .nan v = .nan := by
  unfold gauss
  rw [XR.mul_nan, XR.nan_div, XR.exp_nan, XR.nan_div]

theorem gauss_zero (c : ℝ) : gauss (XR.fin c - XR.fin c) (XR.fin 0) = .nan := by
  unfold gauss
  simp only [X_sub, sub_self, X_lit, X_neg, X_mul, mul_zero]
  rw [X_div0]
  have : XR.infOf 0 = .nan := by simp [XR.infOf]
  rw [this, XR.exp_nan, XR.nan_div]

/-- equal samples: NaN from the second round on -/
theorem Gmm.run_nan {cs : List ℝ} {c : ℝ} (hc : cs ≠ []) (h : ∀ a ∈ cs, a = c) (j : Nat) (k : Fin 3) :
    (Gmm.run (cs.map XR.fin) (j + 2)).mu k = .nan := by
  have hne : cs.map XR.fin ≠ [] := by simpa using hc
  induction j generalizing k with
  | zero =>
    obtain ⟨N, h1, h2⟩ := Mixture.step_eq (Mixture.start_proper cs) hc
    have hm := fun k => Mixture.mass_pos (Mixture.start_proper cs) hc k
    have hmu : ∀ k, N.mean k = c := by
      intro k
      rw [h2.mean, div_eq_iff (hm k).ne']
      unfold Mixture.mass
      rw [mul_comm, ← Mixture.sum_mul']
      congr 1
      exact List.map_congr_left fun a ha => by rw [h a ha]
    have hva : ∀ k, N.var k = 0 := by
      intro k
      rw [h2.var, hmu]
      have : (cs.map fun a => (Mixture.start cs).resp a k * (a - c) ^ 2) = cs.map fun _ => 0 :=
        List.map_congr_left fun a ha => by rw [h a ha, sub_self]; ring
      rw [this]
      simp
    have h3 : Gmm.run (cs.map XR.fin) 1 = N.fin := by
      rw [Gmm.run, Gmm.run, Gmm.start_eq, h1]
    rw [show 0 + 2 = 1 + 1 from rfl, Gmm.run, h3]
    refine Gmm.step_nan hne (fun x hx k => ?_) k
    obtain ⟨a, ha, rfl⟩ := List.mem_map.1 hx
    rw [h a ha]
    show gauss (XR.fin (N.mean k) - _) (XR.fin (N.var k)) = _
    rw [hmu, hva, gauss_zero]
  | succ j ih =>
    rw [show j + 1 + 2 = (j + 2) + 1 from rfl, Gmm.run]
    refine Gmm.step_nan hne (fun x _ k => ?_) k
    rw [ih, XR.nan_sub, gauss_nan]

/-! ### the radius -/

theorem ceilInt_eq {r : ℝ} (hr : 0 ≤ r) :
    ceilInt (XR.fin r) = if ⌈r⌉ ≤ 2147483647 then some ⌈r⌉ else none := by
  have hfl : (0 : ℤ) ≤ ⌊r⌋ := Int.floor_nonneg.2 hr
  have hcl := Int.ceil_le_floor_add_one r
  have hlt : Scalar.lt (Scalar.lit ⌊r⌋ 1 : XR) (XR.fin r) = decide (((⌊r⌋ : ℤ) : ℝ) < r) := by
    rw [X_lit, X_lt, R_lit]
    simp [Scalar.lt]
  have hc : (if (((⌊r⌋ : ℤ) : ℝ) < r) then ⌊r⌋ + 1 else ⌊r⌋) = ⌈r⌉ := by
    split
    · rename_i h
      exact le_antisymm (Int.add_one_le_iff.2 (Int.lt_ceil.2 h)) hcl
    · rename_i h
      have : ((⌊r⌋ : ℤ) : ℝ) = r := le_antisymm (Int.floor_le r) (not_lt.1 h)
      exact le_antisymm (Int.floor_le_ceil r) (Int.ceil_le.2 this.ge)
  unfold ceilInt
  rw [X_toInt]
  have ht : (ScalarX.toInt r : Option Int) = if -2147483648 ≤ ⌊r⌋ ∧ ⌊r⌋ ≤ 2147483647 then some ⌊r⌋ else none := by
    show (if -2147483648 ≤ truncR r ∧ truncR r ≤ 2147483647 then some (truncR r) else none) = _
    have : truncR r = ⌊r⌋ := by unfold truncR; rw [if_pos hr]
    rw [this]
  rw [ht]
  by_cases h : ⌊r⌋ ≤ 2147483647
  · rw [if_pos ⟨by omega, h⟩]
    dsimp only
    rw [hlt]
    simp only [decide_eq_true_eq, hc]
  · rw [if_neg (by omega)]
    dsimp only
    rw [if_neg]
    have := Int.floor_le_ceil r
    omega

theorem patchRadius_eq {cs : List XR} {L mu : ℝ} (hL : 0 < L) (hmu : 0 < mu) (h : (Gmm.run cs 20).mu 1 = .fin mu) :
    patchRadius cs (.fin L) = if ⌈1 / (L * mu) + 1⌉ ≤ 2147483647 then .ok ⌈1 / (L * mu) + 1⌉ else .error .ub := by
  unfold patchRadius
  have hp : 0 < L * mu := mul_pos hL hmu
  simp only [h, X_mul, X_lit, R_lit1]
  rw [X_div _ hp.ne', X_add, X_mul, X_div _ hL.ne', mul_div_cancel_right₀ _ hL.ne',
    ceilInt_eq (by positivity)]
  by_cases hh : ⌈1 / (L * mu) + 1⌉ ≤ 2147483647
  · simp only [if_pos hh]
  · simp only [if_neg hh]

theorem patchRadius_nan {cs : List XR} (L : XR) (h : (Gmm.run cs 20).mu 1 = .nan) : patchRadius cs L = .error .ub := by
  unfold patchRadius
  simp only [h, XR.mul_nan, XR.div_nan, XR.nan_add, XR.nan_mul, XR.nan_div]
  rfl

end TinyMesh
