import Mathlib.Analysis.SpecificLimits.Basic
import Mathlib.Analysis.Normed.Group.Continuity
import Mathlib.Analysis.Normed.Field.Basic
import Mathlib.Algebra.Order.BigOperators.Group.List
import Mathlib.Tactic.Linarith
import Mathlib.Tactic.FieldSimp
import Mathlib.Tactic.Positivity
/-
Repeated averaging over neighbours, for numbers.
-/
namespace TinyMesh

/-- every number that is not pinned goes the fraction `ε` of the way to the mean over the neighbours `N` -/
noncomputable def relax (N : Nat → List Nat) (Pin : Nat → Prop) [DecidablePred Pin] (ε : ℝ) (f : Nat → ℝ) (v : Nat) : ℝ :=
  if Pin v then f v else f v + ε * (((N v).length : ℝ)⁻¹ * ((N v).map f).sum - f v)

section
variable {N : Nat → List Nat} {Pin : Nat → Prop} [DecidablePred Pin] {ε : ℝ} {S : Finset Nat}

theorem map_sub_sum (l : List Nat) (f g : Nat → ℝ) : (l.map fun u => f u - g u).sum = (l.map f).sum - (l.map g).sum := by
  induction l with
  | nil => simp
  | cons a l ih => simp only [List.map_cons, List.sum_cons, ih]; ring

theorem relax_sub (f g : Nat → ℝ) : (relax N Pin ε fun u => f u - g u) = fun v => relax N Pin ε f v - relax N Pin ε g v := by
  funext v
  unfold relax
  split
  · rfl
  · rw [map_sub_sum]; ring

theorem relax_neg (f : Nat → ℝ) : (relax N Pin ε fun u => -f u) = fun v => -relax N Pin ε f v := by
  have := relax_sub (N := N) (Pin := Pin) (ε := ε) (fun _ => 0) f
  have h0 : relax N Pin ε (fun _ => (0 : ℝ)) = fun _ => 0 := by
    funext v
    unfold relax
    simp
  rw [h0] at this
  simpa using this

theorem relax_iter_sub (f g : Nat → ℝ) (n : Nat) :
    ((relax N Pin ε)^[n] fun u => f u - g u) = fun v => (relax N Pin ε)^[n] f v - (relax N Pin ε)^[n] g v := by
  induction n with
  | zero => rfl
  | succ n ih => simp only [Function.iterate_succ_apply', ih, relax_sub]

theorem relax_iter_neg (f : Nat → ℝ) (n : Nat) : ((relax N Pin ε)^[n] fun u => -f u) = fun v => -(relax N Pin ε)^[n] f v := by
  induction n with
  | zero => rfl
  | succ n ih => simp only [Function.iterate_succ_apply', ih, relax_neg]

/-- pinned numbers stay -/
theorem relax_pin (f : Nat → ℝ) {v : Nat} (h : Pin v) (n : Nat) : (relax N Pin ε)^[n] f v = f v := by
  induction n with
  | zero => rfl
  | succ n ih => rw [Function.iterate_succ_apply', relax, if_pos h, ih]

/-- the numbers on a closed set depend on the numbers there only -/
theorem relax_congr (hN : ∀ v ∈ S, ∀ u ∈ N v, u ∈ S) {f g : Nat → ℝ} (h : ∀ v ∈ S, f v = g v) :
    ∀ v ∈ S, relax N Pin ε f v = relax N Pin ε g v := by
  intro v hv
  unfold relax
  rw [h v hv, List.map_congr_left (g := g) fun u hu => h u (hN v hv u hu)]

theorem relax_iter_congr (hN : ∀ v ∈ S, ∀ u ∈ N v, u ∈ S) {f g : Nat → ℝ} (h : ∀ v ∈ S, f v = g v) (n : Nat) :
    ∀ v ∈ S, (relax N Pin ε)^[n] f v = (relax N Pin ε)^[n] g v := by
  induction n with
  | zero => exact h
  | succ n ih =>
    intro v hv
    rw [Function.iterate_succ_apply', Function.iterate_succ_apply']
    exact relax_congr hN ih v hv

theorem relax_fix_iter (hN : ∀ v ∈ S, ∀ u ∈ N v, u ∈ S) {g : Nat → ℝ} (h : ∀ v ∈ S, relax N Pin ε g v = g v) (n : Nat) :
    ∀ v ∈ S, (relax N Pin ε)^[n] g v = g v := by
  induction n with
  | zero => intro v _; rfl
  | succ n ih =>
    intro v hv
    rw [Function.iterate_succ_apply']
    exact (relax_congr hN ih v hv).trans (h v hv)

theorem sum_le_of (l : List Nat) (f : Nat → ℝ) (M : ℝ) (h : ∀ u ∈ l, f u ≤ M) : (l.map f).sum ≤ l.length * M := by
  induction l with
  | nil => simp
  | cons a l ih =>
    have h1 := h a (by simp)
    have h2 := ih fun u hu => h u (by simp [hu])
    simp only [List.map_cons, List.sum_cons, List.length_cons]
    push_cast
    linarith

theorem sum_le_of_one {l : List Nat} {f : Nat → ℝ} {M t : ℝ} (h : ∀ u ∈ l, f u ≤ M) {u : Nat} (hu : u ∈ l) (hf : f u ≤ M - t) :
    (l.map f).sum ≤ l.length * M - t := by
  induction l with
  | nil => cases hu
  | cons a l ih =>
    simp only [List.map_cons, List.sum_cons, List.length_cons]
    push_cast
    rcases List.mem_cons.1 hu with rfl | hu
    · have := sum_le_of l f M fun u hu => h u (by simp [hu])
      linarith
    · have h1 := h a (by simp)
      have := ih (fun u hu => h u (by simp [hu])) hu
      linarith

/-- one step: the bound is kept, and gets better if a neighbour is below it -/
theorem relax_le (h0 : 0 ≤ ε) (h1 : ε ≤ 1) {f : Nat → ℝ} {M : ℝ} {v : Nat} (ne : N v ≠ []) (hv : f v ≤ M) (hN : ∀ u ∈ N v, f u ≤ M) :
    relax N Pin ε f v ≤ M := by
  unfold relax
  split
  · exact hv
  · have hl : (0 : ℝ) < (N v).length := by exact_mod_cast List.length_pos_iff.2 ne
    have := sum_le_of (N v) f M hN
    have hm : ((N v).length : ℝ)⁻¹ * ((N v).map f).sum ≤ M := by
      rw [inv_mul_le_iff₀ hl]; exact this
    nlinarith

theorem relax_le_near (h0 : 0 ≤ ε) (h1 : ε ≤ 1) {f : Nat → ℝ} {M t c : ℝ} (ht : 0 ≤ t) {v : Nat} (np : ¬ Pin v) (hc : c ≤ ε / (N v).length)
    (hv : f v ≤ M) (hN : ∀ u ∈ N v, f u ≤ M) {u : Nat} (hu : u ∈ N v) (hf : f u ≤ M - t) : relax N Pin ε f v ≤ M - c * t := by
  unfold relax
  rw [if_neg np]
  have hl : (0 : ℝ) < (N v).length := by exact_mod_cast List.length_pos_of_mem hu
  have := sum_le_of_one hN hu hf
  have hm : ((N v).length : ℝ)⁻¹ * ((N v).map f).sum ≤ M - t / (N v).length := by
    rw [inv_mul_le_iff₀ hl]
    have : ((N v).length : ℝ) * (M - t / (N v).length) = (N v).length * M - t := by field_simp
    linarith
  have h3 : c * t ≤ ε / (N v).length * t := mul_le_mul_of_nonneg_right hc ht
  have h4 : ε / (N v).length * t = ε * (t / (N v).length) := by ring
  nlinarith

theorem relax_le_self (h0 : 0 ≤ ε) (h1 : ε ≤ 1) {f : Nat → ℝ} {M t c : ℝ} (ht : 0 ≤ t) {v : Nat} (np : ¬ Pin v) (hc : c ≤ 1 - ε)
    (ne : N v ≠ []) (hN : ∀ u ∈ N v, f u ≤ M) (hf : f v ≤ M - t) : relax N Pin ε f v ≤ M - c * t := by
  unfold relax
  rw [if_neg np]
  have hl : (0 : ℝ) < (N v).length := by exact_mod_cast List.length_pos_iff.2 ne
  have := sum_le_of (N v) f M hN
  have hm : ((N v).length : ℝ)⁻¹ * ((N v).map f).sum ≤ M := by
    rw [inv_mul_le_iff₀ hl]; exact this
  have h3 : c * t ≤ (1 - ε) * t := mul_le_mul_of_nonneg_right hc ht
  nlinarith

/-- after `k` steps everything that is reached in `k` steps is below the bound -/
theorem relax_reach (h0 : 0 ≤ ε) (h1 : ε ≤ 1) (hN : ∀ v ∈ S, N v ≠ [] ∧ ∀ u ∈ N v, u ∈ S) {c : ℝ} (c0 : 0 ≤ c) (c1 : c ≤ 1)
    (hc : ∀ v ∈ S, c ≤ ε / (N v).length) {f : Nat → ℝ} {M t : ℝ} (ht : 0 ≤ t) (hM : ∀ v ∈ S, f v ≤ M) {R : Nat → Nat → Prop}
    (R0 : ∀ v ∈ S, R 0 v → f v ≤ M - t)
    (Rs : ∀ k, ∀ v ∈ S, R (k + 1) v → (Pin v ∧ R k v) ∨ (¬ Pin v ∧ ∃ u ∈ N v, R k u) ∨ (¬ Pin v ∧ c ≤ 1 - ε ∧ R k v)) :
    ∀ k, ∀ v ∈ S, (relax N Pin ε)^[k] f v ≤ M ∧ (R k v → (relax N Pin ε)^[k] f v ≤ M - c ^ k * t) := by
  intro k
  induction k with
  | zero =>
    intro v hv
    refine ⟨hM v hv, fun h => ?_⟩
    have := R0 v hv h
    simpa using this
  | succ k ih =>
    intro v hv
    obtain ⟨ne, cl⟩ := hN v hv
    have hb : ∀ u ∈ N v, (relax N Pin ε)^[k] f u ≤ M := fun u hu => (ih u (cl u hu)).1
    have ct : 0 ≤ c ^ k * t := by positivity
    rw [Function.iterate_succ_apply']
    refine ⟨relax_le h0 h1 ne (ih v hv).1 hb, fun h => ?_⟩
    have e : c ^ (k + 1) * t = c * (c ^ k * t) := by ring
    rw [e]
    rcases Rs k v hv h with ⟨pv, r⟩ | ⟨np, u, hu, r⟩ | ⟨np, hc', r⟩
    · rw [relax, if_pos pv]
      have := (ih v hv).2 r
      nlinarith
    · exact relax_le_near h0 h1 ct np (hc v hv) (ih v hv).1 hb hu ((ih u (cl u hu)).2 r)
    · exact relax_le_self h0 h1 ct np hc' ne hb ((ih v hv).2 r)

/-- bounds are kept -/
theorem relax_iter_le (h0 : 0 ≤ ε) (h1 : ε ≤ 1) (hN : ∀ v ∈ S, N v ≠ [] ∧ ∀ u ∈ N v, u ∈ S) {f : Nat → ℝ} {M : ℝ}
    (hM : ∀ v ∈ S, f v ≤ M) (k : Nat) : ∀ v ∈ S, (relax N Pin ε)^[k] f v ≤ M := by
  induction k with
  | zero => exact hM
  | succ k ih =>
    intro v hv
    rw [Function.iterate_succ_apply']
    exact relax_le h0 h1 (hN v hv).1 (ih v hv) fun u hu => ih u ((hN v hv).2 u hu)

/-- steps to a set -/
def Within (N : Nat → List Nat) (T : Nat → Prop) : Nat → Nat → Prop
  | 0, v => T v
  | k + 1, v => Within N T k v ∨ ∃ u ∈ N v, Within N T k u

theorem Within.mono {T : Nat → Prop} {v j k : Nat} (h : Within N T j v) (hk : j ≤ k) : Within N T k v := by
  induction hk with
  | refl => exact h
  | step _ ih => exact Or.inl ih

theorem Within.all {T : Nat → Prop} (h : ∀ v ∈ S, ∃ k, Within N T k v) : ∃ K, 0 < K ∧ ∀ v ∈ S, Within N T K v := by
  classical
  choose! k hk using h
  exact ⟨S.sup k + 1, Nat.succ_pos _, fun v hv => (hk v hv).mono ((Finset.le_sup hv).trans (Nat.le_succ _))⟩

/-- a lower bound for the weight of a neighbour -/
theorem weight_bound (h0 : 0 < ε) (h1 : ε ≤ 1) (S : Finset Nat) (hN : ∀ v ∈ S, N v ≠ []) :
    ∃ c : ℝ, 0 < c ∧ c ≤ 1 ∧ ∀ v ∈ S, c ≤ ε / (N v).length := by
  classical
  refine ⟨ε / (S.sup (fun v => (N v).length) + 1 : ℕ), by positivity, ?_, fun v hv => ?_⟩
  · rw [div_le_one (by positivity)]
    have : (1 : ℝ) ≤ ((S.sup (fun v => (N v).length) + 1 : ℕ) : ℝ) := by exact_mod_cast Nat.succ_le_succ (Nat.zero_le _)
    linarith
  · have hl : (0 : ℝ) < (N v).length := by exact_mod_cast List.length_pos_iff.2 (hN v hv)
    refine div_le_div_of_nonneg_left h0.le hl ?_
    have : (N v).length ≤ S.sup (fun v => (N v).length) := Finset.le_sup (f := fun v => (N v).length) hv
    exact_mod_cast this.trans (Nat.le_succ _)

theorem exists_bound (S : Finset Nat) (e : Nat → ℝ) : ∃ B, 0 ≤ B ∧ ∀ v ∈ S, |e v| ≤ B := by
  refine ⟨∑ v ∈ S, |e v|, Finset.sum_nonneg fun _ _ => abs_nonneg _, fun v hv => ?_⟩
  exact Finset.single_le_sum (f := fun v => |e v|) (fun _ _ => abs_nonneg _) hv

/-- numbers that vanish where they are pinned shrink by a fixed factor in `K` steps, if pinned ones are in reach everywhere -/
theorem relax_shrink (h0 : 0 < ε) (h1 : ε ≤ 1) (hN : ∀ v ∈ S, N v ≠ [] ∧ ∀ u ∈ N v, u ∈ S) (hR : ∀ v ∈ S, ∃ k, Within N Pin k v) :
    ∃ K θ, 0 < K ∧ 0 ≤ θ ∧ θ < (1 : ℝ) ∧ ∀ (e : Nat → ℝ) (B : ℝ), (∀ v ∈ S, Pin v → e v = 0) → (∀ v ∈ S, |e v| ≤ B) →
      ∀ n, ∀ v ∈ S, |(relax N Pin ε)^[n] e v| ≤ θ ^ (n / K) * B := by
  obtain ⟨K, hK, hW⟩ := Within.all hR
  obtain ⟨c, c0, c1, hc⟩ := weight_bound h0 h1 S fun v hv => (hN v hv).1
  have cK : c ^ K ≤ 1 := pow_le_one₀ c0.le c1
  have up : ∀ (e : Nat → ℝ) (B : ℝ), 0 ≤ B → (∀ v ∈ S, Pin v → e v = 0) → (∀ v ∈ S, e v ≤ B) →
      ∀ v ∈ S, (relax N Pin ε)^[K] e v ≤ (1 - c ^ K) * B := by
    intro e B hB hp he v hv
    have := (relax_reach (Pin := Pin) h0.le h1 hN c0.le c1 hc (f := e) (M := B) (t := B) hB he (R := Within N Pin)
      (fun v hv (h : Pin v) => by rw [hp v hv h, sub_self]) (fun k v hv h => ?_) K v hv).2 (hW v hv)
    · linarith
    · by_cases pv : Pin v
      · exact Or.inl ⟨pv, Within.mono (j := 0) pv (Nat.zero_le _)⟩
      · rcases h with h | h
        · right; left
          refine ⟨pv, ?_⟩
          induction k with
          | zero => exact absurd h pv
          | succ k ih =>
            rcases h with h | ⟨u, hu, h⟩
            · obtain ⟨u, hu, h⟩ := ih h
              exact ⟨u, hu, h.mono (Nat.le_succ _)⟩
            · exact ⟨u, hu, h.mono (Nat.le_succ _)⟩
        · exact Or.inr (Or.inl ⟨pv, h⟩)
  refine ⟨K, 1 - c ^ K, hK, by linarith, by have := pow_pos c0 K; linarith, fun e B hp he => ?_⟩
  have one : ∀ (e : Nat → ℝ) (B : ℝ), (∀ v ∈ S, Pin v → e v = 0) → (∀ v ∈ S, |e v| ≤ B) →
      ∀ v ∈ S, |(relax N Pin ε)^[K] e v| ≤ (1 - c ^ K) * B := by
    intro e B hp he v hv
    have hB : 0 ≤ B := (abs_nonneg _).trans (he v hv)
    rw [abs_le]
    constructor
    · have := up (fun u => -e u) B hB (fun v hv h => by rw [hp v hv h, neg_zero]) (fun v hv => by have := (abs_le.1 (he v hv)).1; linarith) v hv
      rw [relax_iter_neg] at this
      linarith
    · exact up e B hB hp (fun v hv => (abs_le.1 (he v hv)).2) v hv
  have many : ∀ j, ∀ v ∈ S, |(relax N Pin ε)^[K * j] e v| ≤ (1 - c ^ K) ^ j * B := by
    intro j
    induction j with
    | zero => intro v hv; simpa using he v hv
    | succ j ih =>
      intro v hv
      have := one ((relax N Pin ε)^[K * j] e) _ (fun v hv h => by rw [relax_pin e h (K * j)]; exact hp v hv h) ih v hv
      rw [← Function.iterate_add_apply, ← mul_assoc, ← pow_succ'] at this
      rw [Nat.mul_succ, Nat.add_comm]
      exact this
  intro n v hv
  have e1 : n = n % K + K * (n / K) := (Nat.mod_add_div n K).symm
  have hb := many (n / K)
  conv_lhs => rw [e1, Function.iterate_add_apply]
  rw [abs_le]
  constructor
  · have := relax_iter_le (Pin := Pin) h0.le h1 hN (f := fun u => -(relax N Pin ε)^[K * (n / K)] e u) (M := (1 - c ^ K) ^ (n / K) * B)
      (fun v hv => by have := (abs_le.1 (hb v hv)).1; linarith) (n % K) v hv
    rw [relax_iter_neg] at this
    linarith
  · exact relax_iter_le h0.le h1 hN (fun v hv => (abs_le.1 (hb v hv)).2) (n % K) v hv

/-- there are numbers with the given pinned values that averaging leaves alone -/
theorem relax_harmonic (h0 : 0 < ε) (h1 : ε ≤ 1) (hN : ∀ v ∈ S, N v ≠ [] ∧ ∀ u ∈ N v, u ∈ S) (hR : ∀ v ∈ S, ∃ k, Within N Pin k v)
    (f : Nat → ℝ) : ∃ g : Nat → ℝ, (∀ v ∈ S, Pin v → g v = f v) ∧ ∀ v ∈ S, relax N Pin ε g v = g v := by
  obtain ⟨K, θ, hK, t0, t1, H⟩ := relax_shrink h0 h1 hN hR
  obtain ⟨B, hB, hb⟩ := exists_bound S fun u => (relax N Pin ε)^[K] f u - f u
  have step : ∀ j, ∀ v ∈ S, dist ((relax N Pin ε)^[K * j] f v) ((relax N Pin ε)^[K * (j + 1)] f v) ≤ B * θ ^ j := by
    intro j v hv
    have := H _ B (fun v hv h => by rw [relax_pin f h K, sub_self]) hb (K * j) v hv
    rw [relax_iter_sub, ← Function.iterate_add_apply, Nat.mul_div_cancel_left _ hK] at this
    rw [dist_comm, Real.dist_eq, Nat.mul_succ, mul_comm B]
    exact this
  have lim : ∀ v ∈ S, ∃ a, Filter.Tendsto (fun j => (relax N Pin ε)^[K * j] f v) Filter.atTop (nhds a) := fun v hv =>
    cauchySeq_tendsto_of_complete (cauchySeq_of_le_geometric θ B t1 fun j => step j v hv)
  choose! g hg using lim
  refine ⟨g, fun v hv pv => ?_, fun v hv => ?_⟩
  · refine tendsto_nhds_unique (hg v hv) ?_
    have : (fun j => (relax N Pin ε)^[K * j] f v) = fun _ => f v := funext fun j => relax_pin f pv _
    rw [this]
    exact tendsto_const_nhds
  · obtain ⟨B', hB', hb'⟩ := exists_bound S fun u => relax N Pin ε f u - f u
    have d : Filter.Tendsto (fun j => relax N Pin ε ((relax N Pin ε)^[K * j] f) v - (relax N Pin ε)^[K * j] f v) Filter.atTop (nhds 0) := by
      refine squeeze_zero_norm (a := fun j => θ ^ j * B') (fun j => ?_) ?_
      · have := H _ B' (fun v hv h => by rw [relax, if_pos h, sub_self]) hb' (K * j) v hv
        rw [relax_iter_sub, Nat.mul_div_cancel_left _ hK, ← Function.iterate_succ_apply, Function.iterate_succ_apply'] at this
        exact this
      · have := (tendsto_pow_atTop_nhds_zero_of_lt_one t0 t1).mul_const B'
        simpa using this
    have e : Filter.Tendsto (fun j => relax N Pin ε ((relax N Pin ε)^[K * j] f) v) Filter.atTop (nhds (relax N Pin ε g v)) := by
      by_cases pv : Pin v
      · simp only [relax, if_pos pv]
        exact hg v hv
      · simp only [relax, if_neg pv]
        have sm : ∀ l : List Nat, (∀ u ∈ l, u ∈ S) →
            Filter.Tendsto (fun j => (l.map ((relax N Pin ε)^[K * j] f)).sum) Filter.atTop (nhds (l.map g).sum) := by
          intro l
          induction l with
          | nil => intro _; exact tendsto_const_nhds
          | cons u l ih =>
            intro hl
            simp only [List.map_cons, List.sum_cons]
            exact (hg u (hl u (by simp))).add (ih fun x hx => hl x (by simp [hx]))
        exact (hg v hv).add (((sm _ (hN v hv).2).const_mul _ |>.sub (hg v hv)).const_mul ε)
    have := e.sub (hg v hv)
    have := tendsto_nhds_unique this d
    linarith

/-- such numbers are unique -/
theorem relax_unique (h0 : 0 < ε) (h1 : ε ≤ 1) (hN : ∀ v ∈ S, N v ≠ [] ∧ ∀ u ∈ N v, u ∈ S) (hR : ∀ v ∈ S, ∃ k, Within N Pin k v)
    {g g' : Nat → ℝ} (hp : ∀ v ∈ S, Pin v → g v = g' v) (hg : ∀ v ∈ S, relax N Pin ε g v = g v) (hg' : ∀ v ∈ S, relax N Pin ε g' v = g' v) :
    ∀ v ∈ S, g v = g' v := by
  obtain ⟨K, θ, hK, t0, t1, H⟩ := relax_shrink h0 h1 hN hR
  obtain ⟨B, hB, hb⟩ := exists_bound S fun u => g u - g' u
  intro v hv
  have key : ∀ j : Nat, |g v - g' v| ≤ θ ^ j * B := by
    intro j
    have := H _ B (fun v hv h => by rw [hp v hv h, sub_self]) hb (K * j) v hv
    rw [relax_iter_sub, Nat.mul_div_cancel_left _ hK] at this
    simp only at this
    rwa [relax_fix_iter (fun v hv => (hN v hv).2) hg _ v hv, relax_fix_iter (fun v hv => (hN v hv).2) hg' _ v hv] at this
  have lim : Filter.Tendsto (fun j : Nat => θ ^ j * B) Filter.atTop (nhds 0) := by
    simpa using (tendsto_pow_atTop_nhds_zero_of_lt_one t0 t1).mul_const B
  have := ge_of_tendsto' lim key
  exact sub_eq_zero.1 (abs_eq_zero.1 (le_antisymm this (abs_nonneg _)))

/-- all numbers approach each other if in `K` steps the number of `v0` reaches everything -/
theorem relax_spread_of (h0 : 0 < ε) (h1 : ε ≤ 1) (hN : ∀ v ∈ S, N v ≠ [] ∧ ∀ u ∈ N v, u ∈ S) {v0 K : Nat} {θ : ℝ} (t0 : 0 ≤ θ)
    (up : ∀ (f : Nat → ℝ) (M : ℝ), (∀ v ∈ S, f v ≤ M) → ∀ v ∈ S, (relax N Pin ε)^[K] f v ≤ M - (1 - θ) * (M - f v0)) :
    ∀ (f : Nat → ℝ) (lo hi : ℝ), (∀ v ∈ S, lo ≤ f v ∧ f v ≤ hi) →
      ∀ n, ∃ lo' hi', hi' - lo' ≤ θ ^ (n / K) * (hi - lo) ∧ ∀ v ∈ S, lo' ≤ (relax N Pin ε)^[n] f v ∧ (relax N Pin ε)^[n] f v ≤ hi' := by
  have one : ∀ (f : Nat → ℝ) (lo hi : ℝ), (∀ v ∈ S, lo ≤ f v ∧ f v ≤ hi) → ∃ lo' hi', hi' - lo' ≤ θ * (hi - lo) ∧
      ∀ v ∈ S, lo' ≤ (relax N Pin ε)^[K] f v ∧ (relax N Pin ε)^[K] f v ≤ hi' := by
    intro f lo hi hf
    refine ⟨lo + (1 - θ) * (f v0 - lo), hi - (1 - θ) * (hi - f v0), by nlinarith, fun v hv => ⟨?_, up f hi (fun v hv => (hf v hv).2) v hv⟩⟩
    have := up (fun u => -f u) (-lo) (fun v hv => by linarith [(hf v hv).1]) v hv
    rw [relax_iter_neg] at this
    linarith
  intro f lo hi hf n
  have many : ∀ j, ∃ lo' hi', hi' - lo' ≤ θ ^ j * (hi - lo) ∧
      ∀ v ∈ S, lo' ≤ (relax N Pin ε)^[K * j] f v ∧ (relax N Pin ε)^[K * j] f v ≤ hi' := by
    intro j
    induction j with
    | zero => exact ⟨lo, hi, by simp, hf⟩
    | succ j ih =>
      obtain ⟨lo', hi', hd, hb⟩ := ih
      obtain ⟨lo2, hi2, hd2, hb2⟩ := one _ lo' hi' hb
      refine ⟨lo2, hi2, hd2.trans ?_, fun v hv => ?_⟩
      · rw [pow_succ', mul_assoc]
        exact mul_le_mul_of_nonneg_left hd t0
      · have := hb2 v hv
        rw [← Function.iterate_add_apply] at this
        rw [Nat.mul_succ, Nat.add_comm]
        exact this
  obtain ⟨lo', hi', hd, hb⟩ := many (n / K)
  refine ⟨lo', hi', hd, fun v hv => ?_⟩
  have e1 : n = n % K + K * (n / K) := (Nat.mod_add_div n K).symm
  have e2 : (relax N Pin ε)^[n] f v = (relax N Pin ε)^[n % K] ((relax N Pin ε)^[K * (n / K)] f) v := by
    conv_lhs => rw [e1, Function.iterate_add_apply]
  rw [e2]
  constructor
  · have := relax_iter_le (Pin := Pin) h0.le h1 hN (f := fun u => -(relax N Pin ε)^[K * (n / K)] f u) (M := -lo')
      (fun v hv => by linarith [(hb v hv).1]) (n % K) v hv
    rw [relax_iter_neg] at this
    linarith
  · exact relax_iter_le h0.le h1 hN (fun v hv => (hb v hv).2) (n % K) v hv

/-- without pinned numbers, all numbers approach each other if everything is in reach of `v0` -/
theorem relax_spread (h0 : 0 < ε) (h1 : ε < 1) (hN : ∀ v ∈ S, N v ≠ [] ∧ ∀ u ∈ N v, u ∈ S) {v0 : Nat} (hv0 : v0 ∈ S)
    (hR : ∀ v ∈ S, ∃ k, Within N (· = v0) k v) (hP : ∀ v ∈ S, ¬ Pin v) :
    ∃ K θ, 0 < K ∧ 0 ≤ θ ∧ θ < (1 : ℝ) ∧ ∀ (f : Nat → ℝ) (lo hi : ℝ), (∀ v ∈ S, lo ≤ f v ∧ f v ≤ hi) →
      ∀ n, ∃ lo' hi', hi' - lo' ≤ θ ^ (n / K) * (hi - lo) ∧ ∀ v ∈ S, lo' ≤ (relax N Pin ε)^[n] f v ∧ (relax N Pin ε)^[n] f v ≤ hi' := by
  obtain ⟨K, hK, hW⟩ := Within.all hR
  obtain ⟨c', c0', c1', hc'⟩ := weight_bound h0 h1.le S fun v hv => (hN v hv).1
  obtain ⟨c, hcd⟩ : ∃ c, c = min c' (1 - ε) := ⟨_, rfl⟩
  have c0 : 0 < c := by rw [hcd]; exact lt_min c0' (by linarith)
  have cc : c ≤ c' := by rw [hcd]; exact min_le_left _ _
  have ce : c ≤ 1 - ε := by rw [hcd]; exact min_le_right _ _
  have c1 : c ≤ 1 := cc.trans c1'
  have hc : ∀ v ∈ S, c ≤ ε / (N v).length := fun v hv => cc.trans (hc' v hv)
  have cK : c ^ K ≤ 1 := pow_le_one₀ c0.le c1
  refine ⟨K, 1 - c ^ K, hK, by linarith, by have := pow_pos c0 K; linarith, relax_spread_of (v0 := v0) h0 h1.le hN (by linarith) fun f M hM v hv => ?_⟩
  rw [sub_sub_cancel]
  refine (relax_reach h0.le h1.le hN c0.le c1 hc (f := f) (M := M) (t := M - f v0) (by linarith [hM v0 hv0]) hM
    (R := Within N (· = v0)) (fun v hv h => ?_) (fun k v hv h => ?_) K v hv).2 (hW v hv)
  · have h : v = v0 := h
    rw [h]; linarith
  · rcases h with h | h
    · exact Or.inr (Or.inr ⟨hP v hv, ce, h⟩)
    · exact Or.inr (Or.inl ⟨hP v hv, h⟩)

/-- walks of an exact length to a set -/
def Walk (N : Nat → List Nat) (T : Nat → Prop) : Nat → Nat → Prop
  | 0, v => T v
  | k + 1, v => ∃ u ∈ N v, Walk N T k u

theorem Within.walk {T : Nat → Prop} : ∀ {k v : Nat}, Within N T k v → ∃ j, j ≤ k ∧ Walk N T j v
  | 0, _, h => ⟨0, le_rfl, h⟩
  | k + 1, v, h => by
    rcases h with h | ⟨u, hu, h⟩
    · obtain ⟨j, hj, h⟩ := Within.walk h
      exact ⟨j, hj.trans (Nat.le_succ _), h⟩
    · obtain ⟨j, hj, h⟩ := Within.walk h
      exact ⟨j + 1, Nat.succ_le_succ hj, u, hu, h⟩

theorem Walk.append {T T' : Nat → Prop} {b : Nat} (hb : ∀ u, T u → Walk N T' b u) : ∀ {a v : Nat}, Walk N T a v → Walk N T' (a + b) v
  | 0, v, h => by rw [Nat.zero_add]; exact hb v h
  | a + 1, v, ⟨u, hu, h⟩ => by rw [Nat.succ_add]; exact ⟨u, hu, Walk.append hb h⟩

/-- closed walks of two and three steps give closed walks of any greater length -/
theorem Walk.loops {v0 : Nat} (h2 : Walk N (· = v0) 2 v0) (h3 : Walk N (· = v0) 3 v0) : ∀ n, 2 ≤ n → Walk N (· = v0) n v0
  | 0, h | 1, h => absurd h (by omega)
  | 2, _ => h2
  | 3, _ => h3
  | n + 4, _ => by
    have := Walk.append (T' := (· = v0)) (b := n + 2) (fun u hu => by rw [hu]; exact Walk.loops h2 h3 (n + 2) (by omega)) h2
    rwa [show 2 + (n + 2) = n + 4 by omega] at this

/-- the same with steps of full size, if there are closed walks of two and three steps -/
theorem relax_spread_odd (h0 : 0 < ε) (h1 : ε ≤ 1) (hN : ∀ v ∈ S, N v ≠ [] ∧ ∀ u ∈ N v, u ∈ S) {v0 : Nat} (hv0 : v0 ∈ S)
    (hR : ∀ v ∈ S, ∃ k, Within N (· = v0) k v) (hP : ∀ v ∈ S, ¬ Pin v) (h2 : Walk N (· = v0) 2 v0) (h3 : Walk N (· = v0) 3 v0) :
    ∃ K θ, 0 < K ∧ 0 ≤ θ ∧ θ < (1 : ℝ) ∧ ∀ (f : Nat → ℝ) (lo hi : ℝ), (∀ v ∈ S, lo ≤ f v ∧ f v ≤ hi) →
      ∀ n, ∃ lo' hi', hi' - lo' ≤ θ ^ (n / K) * (hi - lo) ∧ ∀ v ∈ S, lo' ≤ (relax N Pin ε)^[n] f v ∧ (relax N Pin ε)^[n] f v ≤ hi' := by
  obtain ⟨k, hk, hW⟩ := Within.all hR
  obtain ⟨c, c0, c1, hc⟩ := weight_bound h0 h1 S fun v hv => (hN v hv).1
  have hW' : ∀ v ∈ S, Walk N (· = v0) (k + 2) v := by
    intro v hv
    obtain ⟨j, hj, w⟩ := (hW v hv).walk
    have := Walk.append (T' := (· = v0)) (b := k + 2 - j) (fun u hu => by rw [hu]; exact Walk.loops h2 h3 _ (by omega)) w
    rwa [show j + (k + 2 - j) = k + 2 by omega] at this
  have cK : c ^ (k + 2) ≤ 1 := pow_le_one₀ c0.le c1
  refine ⟨k + 2, 1 - c ^ (k + 2), by omega, by linarith, by have := pow_pos c0 (k + 2); linarith,
    relax_spread_of (v0 := v0) h0 h1 hN (by linarith) fun f M hM v hv => ?_⟩
  rw [sub_sub_cancel]
  refine (relax_reach h0.le h1 hN c0.le c1 hc (f := f) (M := M) (t := M - f v0) (by linarith [hM v0 hv0]) hM
    (R := Walk N (· = v0)) (fun v hv h => ?_) (fun k v hv h => ?_) (k + 2) v hv).2 (hW' v hv)
  · have h : v = v0 := h
    rw [h]; linarith
  · exact Or.inr (Or.inl ⟨hP v hv, h⟩)

end
end TinyMesh
