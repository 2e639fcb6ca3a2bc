import Verif.Proof.FeatC
/-
Denoising weights, heat kernel signatures, the progress bar and the two increments of the circulators.
-/
namespace TinyMesh
open Orbit

/-! ### denoising weights -/

open Classical in
theorem weightK_ok (x : ℝ) {σ : ℝ} (hσ : 0 < σ) : weightK (XR.fin x) (XR.fin σ) = .fin
    (if x < 2 * σ then 1 / (Real.sqrt (2 * Real.pi) * σ) * Real.exp (-x * x / (σ * σ))
      else if x < 4 * σ then 1 / (Real.sqrt (2 * Real.pi) * σ) * (1 / (16 * Real.exp 2)) * (4 - |x| / σ) ^ 4 else 0) := by
  have l2 : (Scalar.lit 2 1 : ℝ) = 2 := by rw [R_lit]; norm_num
  have l4 : (Scalar.lit 4 1 : ℝ) = 4 := by rw [R_lit]; norm_num
  have l16 : (Scalar.lit 16 1 : ℝ) = 16 := by rw [R_lit]; norm_num
  have hp : (0 : ℝ) ≤ 2 * Real.pi := by positivity
  have hc : Real.sqrt (2 * Real.pi) * σ ≠ 0 := by positivity
  unfold weightK
  simp only [X_lit, X_pi, X_mul, R_lit0, R_lit1, l2, l4, l16, X_sqrt hp, X_div _ hc, X_neg, X_exp, X_abs,
    X_div _ (mul_pos hσ hσ).ne', X_div _ hσ.ne', X_sub, X_div _ (show (16 : ℝ) * Real.exp 2 ≠ 0 by positivity)]
  by_cases h : x < 2 * σ
  · rw [if_pos h, if_pos (by rw [X_lt, R_lt]; exact h)]
  · rw [if_neg h, if_neg (by rw [X_lt, R_lt]; exact h)]
    by_cases h' : x < 4 * σ
    · rw [if_pos h', if_pos (by rw [X_lt, R_lt]; exact h')]
      congr 1; ring
    · rw [if_neg h', if_neg (by rw [X_lt, R_lt]; exact h')]

/-! ### heat kernel signatures -/

def Eigs.fin (e : Eigs ℝ) : Eigs XR := ⟨fun i k => .fin (e.vec i k), fun k => .fin (e.val k)⟩

theorem foldl_fin (f : Nat → ℝ) (l : List Nat) (a : ℝ) :
    l.foldl (fun b k => b + XR.fin (f k)) (XR.fin a) = .fin (a + (l.map f).sum) := by
  induction l generalizing a with
  | nil => simp
  | cons k l ih => rw [List.foldl_cons, X_add, ih, List.map_cons, List.sum_cons, add_assoc]

/-- the times, for at least two of them -/
theorem hksTime_ok (e : Eigs ℝ) (K : Nat) {n : Nat} (hn : n ≠ 1) : ∃ s d : ℝ, (e.val 1 ≤ e.val (K - 1) → 2 ≤ n → 0 ≤ d) ∧
    ∀ j, hksTime e.fin K n j = .fin (Real.exp (s + j * d)) := by
  have l4 : (Scalar.lit 4 1 : ℝ) = 4 := by rw [R_lit]; norm_num
  have l10 : (Scalar.lit 10 1 : ℝ) = 10 := by rw [R_lit]; norm_num
  have le : (Scalar.lit 1 (10 ^ 12) : ℝ) = 1 / 10 ^ 12 := by rw [R_lit]; norm_num
  have hlog : 0 < 4 * Real.log 10 := by have := Real.log_pos (by norm_num : (1 : ℝ) < 10); linarith
  have hm : ∀ r : ℝ, 0 < max (1 / 10 ^ 12) r := fun r => lt_of_lt_of_le (by positivity) (le_max_left _ _)
  have hn' : (Scalar.lit ((n : Int) - 1) 1 : ℝ) = n - 1 := by rw [R_lit]; push_cast; ring
  have hn0 : (n : ℝ) - 1 ≠ 0 := by
    intro h; apply hn; have : (n : ℝ) = 1 := by linarith
    exact_mod_cast this
  refine ⟨Real.log (4 * Real.log 10 / max (1 / 10 ^ 12) (e.val (K - 1))),
    (Real.log (4 * Real.log 10 / max (1 / 10 ^ 12) (e.val 1)) -
      Real.log (4 * Real.log 10 / max (1 / 10 ^ 12) (e.val (K - 1)))) / (n - 1), ?_, ?_⟩
  · intro hl h2
    have : (2 : ℝ) ≤ n := by exact_mod_cast h2
    apply div_nonneg _ (by linarith)
    rw [sub_nonneg]
    apply Real.log_le_log (div_pos hlog (hm _))
    exact div_le_div_of_nonneg_left hlog.le (hm _) (max_le_max le_rfl hl)
  · intro j
    unfold hksTime Eigs.fin
    simp only [X_lit, l4, l10, le, X_log (by norm_num : (0 : ℝ) < 10), X_mul, X_fmax, R_fmax, X_div _ (hm _).ne',
      X_log (div_pos hlog (hm _)), X_sub, hn', X_div _ hn0, X_add, X_exp]
    rw [R_lit]
    norm_num

theorem hksEntry_ok (e : Eigs ℝ) (K : Nat) {n : Nat} (hn : n ≠ 1) : ∃ s d : ℝ,
    (e.val 1 ≤ e.val (K - 1) → 2 ≤ n → 0 ≤ d) ∧ ∀ i j, hksEntry e.fin K n i j =
      .fin (((List.range K).map fun k => e.vec i k * e.vec i k * Real.exp (-(Real.exp (s + j * d)) * e.val k)).sum) := by
  obtain ⟨s, d, hd, ht⟩ := hksTime_ok e K hn
  refine ⟨s, d, hd, fun i j => ?_⟩
  unfold hksEntry
  rw [ht]
  simp only [Eigs.fin, X_mul, X_neg, X_exp, X_lit, R_lit0]
  rw [foldl_fin, zero_add]

/-! ### progress bar -/

theorem int32_ok {z : Int} (h1 : -2147483648 ≤ z) (h2 : z ≤ 2147483647) : int32 z = .ok z := if_pos ⟨h1, h2⟩

theorem toInt_ok {r : ℝ} (h1 : -2147483648 ≤ r) (h2 : r < 2147483648) : ∃ z, toInt? (XR.fin r) = .ok z := by
  have : -2147483648 ≤ truncR r ∧ truncR r ≤ 2147483647 := by
    unfold truncR
    split
    · refine ⟨?_, ?_⟩
      · have : 0 ≤ ⌊r⌋ := Int.floor_nonneg.2 (by assumption)
        omega
      · have : ⌊r⌋ < 2147483648 := Int.floor_lt.2 (by exact_mod_cast h2)
        omega
    · rename_i h
      refine ⟨Int.le_ceil_iff.2 (by push_cast; linarith), ?_⟩
      have : ⌈r⌉ ≤ 0 := Int.ceil_le.2 (by push_cast; linarith)
      omega
  refine ⟨truncR r, ?_⟩
  unfold toInt?
  rw [show ScalarX.toInt (XR.fin r) = some (truncR r) from if_pos this]

/-- the clock is neither too fast nor too slow for the conversions to `int` -/
structure Calm (total : Int) (t : Nat) : Prop where
  pos : 1 ≤ t
  slow : (t : Int) * total ≤ 2147483647000
  fast : 1000 * (total + 1) ≤ 2147483647 * (t : Int)

/-- a step to `st` of `total`, up to the point where the text is assembled -/
theorem stepBy_ok {b : Bar} {n st : Int} {t : Nat} (hs : b.step + n = st) (h1 : 1 ≤ st) (h2 : st ≤ b.total + 1)
    (ht : 1 ≤ b.total) (hm : 40 * (b.total + 1) ≤ 2147483647) (c : Calm b.total t) :
    b.stepBy XR n t = (do
      strN ((40 * st).tdiv b.total)
      if (40 * st).tdiv b.total ≠ 40 then
        strN (40 - (40 * st).tdiv b.total - 1)
      pure ⟨st, b.total⟩ : Except Err Bar) := by
  obtain ⟨hp, hslow, hfast⟩ := c
  have htr : (1 : ℝ) ≤ b.total := by exact_mod_cast ht
  have hstr : (1 : ℝ) ≤ st := by exact_mod_cast h1
  have hst2 : (st : ℝ) ≤ b.total + 1 := by exact_mod_cast h2
  have hpr : (1 : ℝ) ≤ t := by exact_mod_cast hp
  have hslowr : (t : ℝ) * b.total ≤ 2147483647000 := by exact_mod_cast hslow
  have hfastr : 1000 * ((b.total : ℝ) + 1) ≤ 2147483647 * t := by exact_mod_cast hfast
  have lit : ∀ z : Int, (Scalar.lit z 1 : ℝ) = z := fun z => by rw [R_lit]; simp
  have e1 : ∃ z, toInt? (XR.fin ((t : ℝ) / 1000)) = .ok z :=
    toInt_ok (by have : 0 ≤ (t : ℝ) / 1000 := by positivity
                 linarith) (by rw [div_lt_iff₀ (by norm_num)]; nlinarith)
  have e2 : ∃ z, toInt? (XR.fin ((t : ℝ) / st * ((b.total - st : Int) : ℝ) / 1000)) = .ok z := by
    have q : (t : ℝ) / st ≤ t := div_le_self (by positivity) hstr
    have q0 : 0 ≤ (t : ℝ) / st := by positivity
    apply toInt_ok
    · rw [le_div_iff₀ (by norm_num)]; push_cast; nlinarith
    · rw [div_lt_iff₀ (by norm_num)]; push_cast; nlinarith
  have e3 : ∃ z, toInt? (XR.fin (1000 / ((t : ℝ) / st))) = .ok z := by
    have q : 1000 / ((t : ℝ) / st) = 1000 * st / t := by field_simp
    rw [q]
    apply toInt_ok
    · have : 0 ≤ 1000 * (st : ℝ) / t := by positivity
      linarith
    · rw [div_lt_iff₀ (by linarith)]; nlinarith
  have e4 : ∃ z, toInt? (XR.fin (100 * (st : ℝ) / b.total)) = .ok z := by
    apply toInt_ok
    · have : 0 ≤ 100 * (st : ℝ) / b.total := by positivity
      linarith
    · rw [div_lt_iff₀ (by linarith)]; nlinarith
  obtain ⟨z1, e1⟩ := e1
  obtain ⟨z2, e2⟩ := e2
  obtain ⟨z3, e3⟩ := e3
  obtain ⟨z4, e4⟩ := e4
  have i5 : idiv (40 * st) b.total = .ok ((40 * st).tdiv b.total) := by
    unfold idiv
    rw [if_neg (by omega)]
    have h0 : 0 ≤ (40 * st).tdiv b.total := Int.tdiv_nonneg (by omega) (by omega)
    have h3 : (40 * st).tdiv b.total ≤ 40 * st := by
      rw [Int.tdiv_eq_ediv_of_nonneg (by omega)]
      exact Int.ediv_le_self _ (by omega)
    exact int32_ok (by omega) (by omega)
  have htq : (t : ℝ) / st ≠ 0 := by positivity
  unfold Bar.stepBy
  rw [hs, int32_ok (by omega) (by omega)]
  simp only [X_lit, lit, Except.bind, bind, X_mul, X_div _ (show (b.total : ℝ) ≠ 0 by linarith),
    X_div _ (show (st : ℝ) ≠ 0 by linarith), int32_ok (show -2147483648 ≤ b.total - st by omega) (by omega),
    int32_ok (show -2147483648 ≤ 40 * st by omega) (by omega), i5]
  norm_num only [Int.cast_natCast, Int.cast_ofNat]
  rw [X_div _ (by norm_num), e1]
  simp only
  rw [X_div _ (by norm_num), e2]
  simp only
  rw [X_div _ htq, e3]
  simp only
  rw [e4]
  rcases strN ((40 * st).tdiv b.total) with e | _
  · rfl
  simp only
  split
  · rcases strN (40 - (40 * st).tdiv b.total - 1) with e | _
    · rfl
    · simp only
      split <;> rfl
  · split <;> rfl

/-- a step that stays within the total, or overshoots a total above 40 by one, is shown -/
theorem stepBy_shown {b : Bar} {n st : Int} {t : Nat} (hs : b.step + n = st) (h1 : 1 ≤ st) (h2 : st ≤ b.total + 1)
    (hb : st ≤ b.total ∨ 40 < b.total) (ht : 1 ≤ b.total) (hm : 40 * (b.total + 1) ≤ 2147483647) (c : Calm b.total t) :
    b.stepBy XR n t = .ok ⟨st, b.total⟩ := by
  rw [stepBy_ok hs h1 h2 ht hm c]
  have h0 : 0 ≤ (40 * st).tdiv b.total := Int.tdiv_nonneg (by omega) (by omega)
  have h4 : (40 * st).tdiv b.total ≤ 40 := by
    rw [Int.tdiv_eq_ediv_of_nonneg (by omega)]
    rcases hb with hb | hb
    · exact Int.le_of_lt_add_one (Int.ediv_lt_of_lt_mul (by omega) (by nlinarith))
    · exact Int.le_of_lt_add_one (Int.ediv_lt_of_lt_mul (by omega) (by nlinarith))
  generalize (40 * st).tdiv b.total = k at *
  unfold strN
  rw [if_neg (by omega)]
  by_cases h : k = 40
  · simp [h]
  · simp [h]
    rw [if_neg (by omega)]; rfl

/-- a step that overshoots a total of at most 40 throws -/
theorem stepBy_throw {b : Bar} {n : Int} {t : Nat} (hs : b.step + n = b.total + 1) (hb : b.total ≤ 40) (ht : 1 ≤ b.total)
    (c : Calm b.total t) : b.stepBy XR n t = .error .throw := by
  rw [stepBy_ok hs (by omega) (by omega) ht (by omega) c]
  have h4 : 41 ≤ (40 * (b.total + 1)).tdiv b.total := by
    rw [Int.tdiv_eq_ediv_of_nonneg (by omega)]
    exact (Int.le_ediv_iff_mul_le (by omega)).2 (by nlinarith)
  generalize (40 * (b.total + 1)).tdiv b.total = k at *
  unfold strN
  rw [if_neg (by omega)]
  simp [show k ≠ 40 by omega]
  rw [if_pos (by omega)]; rfl

/-- nothing has been measured yet when the first step is reported: the number of steps per second is infinite -/
theorem stepBy_instant {b : Bar} {n st : Int} (hs : b.step + n = st) (h1 : 1 ≤ st) (h2 : st ≤ 2147483647) (h3 : 1 ≤ b.total)
    (h4 : b.total ≤ 2147483647) : b.stepBy XR n 0 = .error .ub := by
  have lit : ∀ z : Int, (Scalar.lit z 1 : ℝ) = z := fun z => by rw [R_lit]; simp
  have hst : (st : ℝ) ≠ 0 := by
    have : (1 : ℝ) ≤ st := by exact_mod_cast h1
    linarith
  have hto : (b.total : ℝ) ≠ 0 := by
    have : (1 : ℝ) ≤ b.total := by exact_mod_cast h3
    linarith
  obtain ⟨z, e0⟩ := toInt_ok (r := 0) (by norm_num) (by norm_num)
  have einf : toInt? (XR.fin 1000 / XR.fin 0) = .error .ub := by
    rw [X_div0]
    unfold XR.infOf
    rw [if_pos (by norm_num)]; rfl
  unfold Bar.stepBy
  rw [hs, int32_ok (by omega) (by omega)]
  simp only [X_lit, lit, Except.bind, bind, X_mul, X_div _ hto, X_div _ hst,
    int32_ok (show -2147483648 ≤ b.total - st by omega) (by omega)]
  norm_num only [Int.cast_natCast, Int.cast_ofNat, Nat.cast_zero, zero_div, zero_mul]
  rw [X_div _ (by norm_num), zero_div, e0]
  simp only
  rw [einf]

/-! ### circulators -/

section
variable {F : Type} {m : Mesh F} {step : Nat → M F Nat} {f : Nat → Nat} {S : Nat → Prop} {N : Nat}

theorem walk_ok (p : Perm f S N) (hstep : ∀ x, S x → step x m = .ok (f x) m) (h0 : ∀ x, S x → x ≠ 0) {s : Nat} (hs : S s) :
    ∀ (k i fuel : Nat), i + k = period f s → i < period f s → k + 1 ≤ fuel →
      Circ.walk step fuel ⟨s, f^[i] s⟩ m = .ok ((orbit f s).drop i) m := by
  have hp := p.period_spec hs
  intro k
  induction k with
  | zero => intro i fuel h1 h2; omega
  | succ k ih =>
    intro i fuel h1 h2 h3
    obtain ⟨fuel, rfl⟩ : ∃ n, fuel = n + 1 := ⟨fuel - 1, by omega⟩
    have hne : (Circ.mk s (f^[i] s)).ne Circ.fin = true := by
      simp only [Circ.ne, Circ.fin, Circ.mk1, bne_iff_ne]
      exact h0 _ (p.iter hs i)
    have hd : (orbit f s).drop i = f^[i] s :: (orbit f s).drop (i + 1) := by
      rw [List.drop_eq_getElem_cons (by rw [length_orbit]; exact h2)]
      simp [orbit]
    have hf : f (f^[i] s) = f^[i + 1] s := (Function.iterate_succ_apply' f i s).symm
    rw [Circ.walk, if_pos hne]
    simp only [Circ.pre, bind_apply, hstep _ (p.iter hs i), pure_apply, hf]
    by_cases hl : i + 1 = period f s
    · rw [hl, if_pos hp.2.1]
      obtain ⟨fuel, rfl⟩ : ∃ n, fuel = n + 1 := ⟨fuel - 1, by omega⟩
      have : Circ.walk step (fuel + 1) ⟨s, 0⟩ m = .ok [] m := by
        rw [Circ.walk, if_neg (by simp [Circ.ne, Circ.fin, Circ.mk1])]; rfl
      rw [this, hd, hl, List.drop_eq_nil_of_le (by rw [length_orbit])]
    · rw [if_neg (hp.2.2 (i + 1) (by omega) (by omega)), ih (i + 1) fuel (by omega) (by omega) (by omega), hd]

theorem rest_ok (p : Perm f S m.hFresh) (hstep : ∀ x, S x → step x m = .ok (f x) m) (h0 : ∀ x, S x → x ≠ 0) {s : Nat} (hs : S s)
    {i : Nat} (hi : i < period f s) : Circ.rest step ⟨s, f^[i] s⟩ m = .ok ((orbit f s).drop i) m := by
  have := p.period_le hs
  exact walk_ok p hstep h0 hs (period f s - i) i (m.hFresh + 1) (by omega) hi (by omega)

end

end TinyMesh
