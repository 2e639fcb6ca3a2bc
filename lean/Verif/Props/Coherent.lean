import Verif.Proof.CohC
import Verif.Proof.CohG
import Verif.Proof.CohH
import Verif.Props.Tensor
/-
C69: the mixture of normal distributions. C70: the radius of the patches. C71: the rigid motion between two patches.
C72: its error. C73: descriptors. C74: candidates.
-/
namespace TinyMesh

/-! ## C69 -/

/-- C69: for finite samples that are not all equal, every round of the loop is one round of expectation maximisation for a proper mixture:
no division by zero, weights with sum one, positive variances, means strictly between the smallest and the largest sample; and no round
decreases the likelihood. -/
theorem c69_rounds {cs : List ℝ} {a b : ℝ} (ha : a ∈ cs) (hb : b ∈ cs) (hab : a ≠ b) :
    ∃ M : Nat → Mixture, M 0 = Mixture.start cs ∧ ∀ k, Gmm.run (cs.map XR.fin) k = (M k).fin ∧ (M k).Proper ∧ (M k).Next (M (k + 1)) cs ∧
      (M k).logLik cs ≤ (M (k + 1)).logLik cs ∧
      ∀ j, (∀ l, (∀ c ∈ cs, l ≤ c) → l < (M (k + 1)).mean j) ∧ ∀ u, (∀ c ∈ cs, c ≤ u) → (M (k + 1)).mean j < u := by
  obtain ⟨M, h0, h⟩ := Gmm.run_eq ha hb hab
  refine ⟨M, h0, fun k => ?_⟩
  obtain ⟨h1, h2, h3⟩ := h k
  refine ⟨h3, h1, h2, Mixture.next_logLik h1 (h (k + 1)).1 (List.ne_nil_of_mem ha) h2, fun j => ⟨fun l hl => ?_, fun u hu => ?_⟩⟩
  · rcases lt_or_eq_of_le (hl a ha) with h4 | h4
    · exact Mixture.next_mean_gt h1 h2 hl ha h4 j
    · exact Mixture.next_mean_gt h1 h2 hl hb (lt_of_le_of_ne (hl b hb) (by rw [h4]; exact hab)) j
  · rcases lt_or_eq_of_le (hu a ha) with h4 | h4
    · exact Mixture.next_mean_lt h1 h2 hu ha h4 j
    · exact Mixture.next_mean_lt h1 h2 hu hb (lt_of_le_of_ne (hu b hb) (by rw [← h4]; exact hab.symm)) j

/-- two samples -/
example : ∃ M : Mixture, Gmm.run [XR.fin 1, XR.fin 3] 20 = M.fin ∧ M.Proper ∧ (Mixture.start [1, 3]).logLik [1, 3] ≤ M.logLik [1, 3] := by
  obtain ⟨M, h0, h⟩ := c69_rounds (cs := [1, 3]) (a := 1) (b := 3) (by simp) (by simp) (by norm_num)
  refine ⟨M 20, (h 20).1, (h 20).2.1, ?_⟩
  rw [← h0]
  have : ∀ k, (M 0).logLik [1, 3] ≤ (M k).logLik [1, 3] := by
    intro k
    induction k with
    | zero => exact le_refl _
    | succ k ih => exact ih.trans (h k).2.2.2.1
  exact this 20

/-! ## C70 -/

/-- C70, as far as it holds: for non-negative curvatures that are not all equal and a positive mean edge length `L`, the radius is
`⌈1 / (L μ) + 1⌉` for the mean `μ > 0` of the second component after 20 rounds, if this fits into an `int`. -/
theorem c70_radius_partial {cs : List ℝ} {a b : ℝ} (ha : a ∈ cs) (hb : b ∈ cs) (hab : a ≠ b) (h0 : ∀ c ∈ cs, 0 ≤ c) {L : ℝ} (hL : 0 < L) :
    ∃ M : Mixture, Gmm.run (cs.map XR.fin) 20 = M.fin ∧ 0 < M.mean 1 ∧ (∀ u, (∀ c ∈ cs, c ≤ u) → M.mean 1 < u) ∧
      patchRadius (cs.map XR.fin) (.fin L) =
        if ⌈1 / (L * M.mean 1) + 1⌉ ≤ 2147483647 then .ok ⌈1 / (L * M.mean 1) + 1⌉ else .error .ub := by
  obtain ⟨M, -, h⟩ := c69_rounds ha hb hab
  have h1 := ((h 19).2.2.2.2 1).1 0 h0
  refine ⟨M 20, (h 20).1, h1, ((h 19).2.2.2.2 1).2, patchRadius_eq hL h1 ?_⟩
  rw [(h 20).1]
  rfl

/-- with curvatures 1 and 3 and edges of length 1 the radius is 2 -/
example : patchRadius [XR.fin 1, XR.fin 3] (.fin 1) = .ok 2 := by
  obtain ⟨M, h1, h2, h3, h4⟩ := c70_radius_partial (cs := [1, 3]) (a := 1) (b := 3) (by simp) (by simp) (by norm_num)
    (by intro c hc; fin_cases hc <;> norm_num) (L := 1) (by norm_num)
  obtain ⟨N, -, h⟩ := c69_rounds (cs := [1, 3]) (a := 1) (b := 3) (by simp) (by simp) (by norm_num)
  have e : M.mean 1 = (N 20).mean 1 := by
    have := congrArg (fun g : Gmm XR => g.mu 1) (h1.symm.trans (h 20).1)
    exact XR.fin_inj.1 this
  have h5 : 1 < M.mean 1 := by
    rw [e]
    exact ((h 19).2.2.2.2 1).1 1 (by intro c hc; fin_cases hc <;> norm_num)
  have h6 : 1 / (1 * M.mean 1) < 1 := by rw [one_mul, div_lt_one h2]; exact h5
  have h7 : 0 < 1 / (1 * M.mean 1) := by positivity
  have hc : ⌈1 / (1 * M.mean 1) + 1⌉ = 2 := by
    rw [Int.ceil_eq_iff]
    constructor <;> push_cast <;> linarith
  show patchRadius (List.map XR.fin [1, 3]) _ = _
  rw [h4, hc]
  rfl

section
variable {m : Mesh XR} {p : Nat → E3}

theorem sphere_curves (G : m.Good) {solve : LinSolve XR} (hS : solve.Exact) (A : m.AtE p) {c : E3} {r : ℝ} (I : m.Inscribed p c r)
    (hb : ∀ v, m.vAlive v = true → m.blurSum p v ≠ 0)
    (ha : ∀ h, m.hAlive h = true → 1 / 10 ^ 12 ≤ InnerProductGeometry.angle (m.vNormal p (m.hSrc h)) (unitOf (m.areaVec p (m.hFace h))))
    (hne : m.hes ≠ []) : ∃ ks, principalCurvatures solve false m = .ok ks m ∧ ks.length = m.vs.length ∧ ∀ k ∈ ks, maxCurve k = .fin r⁻¹ := by
  obtain ⟨ks, e, len, h⟩ := c63_sphere_partial G hS A I hb ha hne
  refine ⟨ks, e, len, fun k hk => ?_⟩
  obtain ⟨i, hi⟩ := List.mem_iff_getElem?.1 hk
  have hlt : i < m.vs.length := by rw [← len]; exact (List.getElem?_eq_some_iff.1 hi).1
  have hv : m.vs[i]? = some m.vs[i] := List.getElem?_eq_getElem hlt
  obtain ⟨k', hk', h1, h2⟩ := h i _ hv
  cases hi.symm.trans hk'
  have a := G.wf.vDense.alive_at hv
  have hr := (I.normal G.wf a).1
  have hh := G.wf.vHe_ok _ a
  have a2 := G.wf.src_alive _ (G.wf.next_alive _ hh.1)
  set l := ‖p (m.hSrc (m.hNext (m.vHe m.vs[i]))) - p m.vs[i]‖ with hl
  have hl2 : l ≤ 2 * r := by
    rw [hl]
    have e1 : p (m.hSrc (m.hNext (m.vHe m.vs[i]))) - p m.vs[i] = (p (m.hSrc (m.hNext (m.vHe m.vs[i]))) - c) - (p m.vs[i] - c) := by abel
    rw [e1]
    have := norm_sub_le (p (m.hSrc (m.hNext (m.vHe m.vs[i]))) - c) (p m.vs[i] - c)
    rw [I.sphere _ a2, I.sphere _ a] at this
    linarith
  have hl0 : 0 ≤ l := norm_nonneg _
  have q1 : l ^ 2 / (4 * r ^ 2) ≤ 1 := by
    rw [div_le_one (by positivity)]
    nlinarith
  have q0 : 0 ≤ l ^ 2 / (4 * r ^ 2) := by positivity
  have ri : 0 < r⁻¹ := inv_pos.2 hr
  unfold maxCurve
  rw [h1, h2, X_abs, X_abs, X_fmax, R_fmax, abs_of_pos ri, abs_of_nonneg (mul_nonneg ri.le (by linarith)), max_eq_left]
  nlinarith

/-- C70 does not hold: if all curvatures are equal, the variances become zero in the first round, all numbers are NaN from the second round
on, and the conversion of NaN to `int` is undefined behaviour. This is so for every closed mesh inscribed in a sphere; a regular tetrahedron
is one. -/
theorem c70_counterexample :
    (∀ (cs : List ℝ) (c : ℝ) (L : XR), cs ≠ [] → (∀ a ∈ cs, a = c) → patchRadius (cs.map XR.fin) L = .error .ub) ∧
    (∀ (m : Mesh XR) (p : Nat → E3) (c : E3) (r : ℝ) (solve : LinSolve XR), m.Good → solve.Exact → m.AtE p →
      m.Inscribed p c r → (∀ v, m.vAlive v = true → m.blurSum p v ≠ 0) →
      (∀ h, m.hAlive h = true → 1 / 10 ^ 12 ≤ InnerProductGeometry.angle (m.vNormal p (m.hSrc h)) (unitOf (m.areaVec p (m.hFace h)))) →
      m.hes ≠ [] → patchRadiusM solve m = .err .ub) ∧
    ∃ m : Mesh XR, m.Good ∧ m.vs = [1, 2, 3, 4] ∧ (m.AtE fun v => (ballAt v).E) ∧ patchRadiusM exactSolve m = .err .ub := by
  have key : ∀ (cs : List ℝ) (c : ℝ) (L : XR), cs ≠ [] → (∀ a ∈ cs, a = c) → patchRadius (cs.map XR.fin) L = .error .ub :=
    fun cs c L hc h => patchRadius_nan L (Gmm.run_nan hc h 18 1)
  have key2 : ∀ (m : Mesh XR) (p : Nat → E3) (c : E3) (r : ℝ) (solve : LinSolve XR), m.Good → solve.Exact → m.AtE p →
      m.Inscribed p c r → (∀ v, m.vAlive v = true → m.blurSum p v ≠ 0) →
      (∀ h, m.hAlive h = true → 1 / 10 ^ 12 ≤ InnerProductGeometry.angle (m.vNormal p (m.hSrc h)) (unitOf (m.areaVec p (m.hFace h)))) →
      m.hes ≠ [] → patchRadiusM solve m = .err .ub := by
    intro m p c r solve G hS A I hb ha hne
    obtain ⟨ks, e, len, h⟩ := sphere_curves G hS A I hb ha hne
    obtain ⟨L, hL⟩ := meanEdgeLength_ok G.wf
    have hks : ks ≠ [] := by
      obtain ⟨x, hx⟩ := List.exists_mem_of_ne_nil _ hne
      have := (G.wf.vDense.mem _).2 (G.wf.src_alive _ ((G.wf.hDense.mem x).1 hx))
      intro h0
      rw [h0] at len
      rw [List.length_nil] at len
      rw [List.eq_nil_of_length_eq_zero len.symm] at this
      simp at this
    have hm : ks.map maxCurve = (ks.map fun _ => r⁻¹).map XR.fin := by
      rw [List.map_map]
      exact List.map_congr_left fun k hk => h k hk
    unfold patchRadiusM
    simp only [bind_apply, hL, e]
    rw [hm, key _ r⁻¹ L (by simpa using hks) (by simp)]
    rfl
  refine ⟨key, key2, ?_⟩
  obtain ⟨m, G, vs, hne, A, I, hb, ha, -⟩ := ball_inscribed
  exact ⟨m, G, vs, A, key2 m _ _ _ _ G exactSolve_exact A I hb ha hne⟩

/-! ## C71, C72 -/

variable {hks : Nat → Option (List XR)} {d : Nat → List ℝ} {n : Nat} {svd : SvdLib XR} {tgt src : List Nat}

/-- C71: `solveRigidICP` pairs every vertex of the source patch with a vertex of the target patch of closest signature, and returns a
rotation and a translation for which the sum of the squared distances between the targets and the moved sources is smallest among all
rotations and translations. -/
theorem c71_motion (A : m.AtE p) (hS : svd.Exact) (rT : HasRows hks d n tgt) (aT : ∀ v ∈ tgt, m.vAlive v = true) (rS : HasRows hks d n src)
    (aS : ∀ v ∈ src, m.vAlive v = true) (hne : src ≠ []) (hD : ∀ s ∈ src, ∃ t ∈ tgt, rowDist (d s) (d t) < 10 ^ 20) :
    ∃ (near : Nat → Nat) (fit : RigidFit XR) (R : Matrix (Fin 3) (Fin 3) ℝ) (t : E3), (∀ s ∈ src, ClosestRow d tgt s (near s)) ∧ solveRigidICP svd hks tgt src m = .ok fit m ∧ fit.R.Is R ∧ fit.t.Is t ∧
      IsRotation R ∧ ∀ Q w, IsRotation Q → fitCost (src.map fun s => (p s, p (near s))) R t ≤ fitCost (src.map fun s => (p s, p (near s))) Q w := by
  obtain ⟨near, l, h1, h2, h3⟩ := rigidPairs_eq A rT aT src rS aS hD
  have hL : (src.map fun s => (p s, p (near s))) ≠ [] := by simpa using hne
  obtain ⟨U, V, s, hU, hV, a1, a2, a3, hM, eR, et, -⟩ := rigidFit_eq hS h3 hL
  refine ⟨near, rigidFit svd l, _, _, h1, ?_, eR, et, kabsch_rot hU hV, fun Q w hQ => best_motion hL hU hV a1 a2 a3 hM hQ w⟩
  unfold solveRigidICP
  rw [bind_apply, h2]
  rfl

/-- C71: if the target patch is empty or some source has no target with a squared distance below `1e20`, the index `-1` is used to read
the target patch. -/
theorem c71_none (rT : HasRows hks d n tgt) (aT : ∀ v ∈ tgt, m.vAlive v = true) (rS : HasRows hks d n src)
    (aS : ∀ v ∈ src, m.vAlive v = true) (h : ∃ s ∈ src, ∀ t ∈ tgt, 10 ^ 20 ≤ rowDist (d s) (d t)) :
    solveRigidICP svd hks tgt src m = .err .ub := by
  unfold solveRigidICP
  rw [bind_apply, rigidPairs_none rT aT src rS aS h]

/-- C72, as far as it holds: the returned error is the mean of the squared distances plus the square of the length of the translation. -/
theorem c72_error_partial (A : m.AtE p) (hS : svd.Exact) (rT : HasRows hks d n tgt) (aT : ∀ v ∈ tgt, m.vAlive v = true) (rS : HasRows hks d n src)
    (aS : ∀ v ∈ src, m.vAlive v = true) (hne : src ≠ []) (hD : ∀ s ∈ src, ∃ t ∈ tgt, rowDist (d s) (d t) < 10 ^ 20) :
    ∃ (near : Nat → Nat) (fit : RigidFit XR) (R : Matrix (Fin 3) (Fin 3) ℝ) (t : E3), (∀ s ∈ src, ClosestRow d tgt s (near s)) ∧ solveRigidICP svd hks tgt src m = .ok fit m ∧ fit.R.Is R ∧ fit.t.Is t ∧
      fit.error = .fin (fitCost (src.map fun s => (p s, p (near s))) R t / src.length + ‖t‖ ^ 2) := by
  obtain ⟨near, l, h1, h2, h3⟩ := rigidPairs_eq A rT aT src rS aS hD
  have hL : (src.map fun s => (p s, p (near s))) ≠ [] := by simpa using hne
  obtain ⟨U, V, s, -, -, -, -, -, -, eR, et, ee⟩ := rigidFit_eq hS h3 hL
  refine ⟨near, rigidFit svd l, _, _, h1, ?_, eR, et, ?_⟩
  · unfold solveRigidICP
    rw [bind_apply, h2]
    rfl
  · rw [ee, error_eq hL _ _ rfl, List.length_map]

/-- the corner tetrahedron with its vertices at `q` -/
theorem corner_at (q : Nat → Vec3 ℝ) : ∃ m : Mesh XR, m.Good ∧ m.vs = [1, 2, 3, 4] ∧ m.AtE fun v => (q v).E := by
  obtain ⟨m, G, C⟩ := corner_tables
  exact ⟨m.overR q, G.over _, C.vs, fun v _ => ⟨q v, rfl, rfl⟩⟩

/-- the positions `(v, v², 0)` -/
noncomputable def parabAt (v : Nat) : Vec3 ℝ := ⟨v, (v : ℝ) ^ 2, 0⟩

/-- the signature `(v)` for every vertex -/
noncomputable def ownRow (v : Nat) : Option (List XR) := some [.fin v]

theorem ownRow_has (vs : List Nat) : HasRows ownRow (fun v => [(v : ℝ)]) 1 vs := fun _ _ => ⟨rfl, rfl⟩

/-- patches of three and two vertices of a tetrahedron -/
example : ∃ (m : Mesh XR) (fit : RigidFit XR) (R : Matrix (Fin 3) (Fin 3) ℝ) (near : Nat → Nat), m.Good ∧
    solveRigidICP exactSvd ownRow [1, 2, 3] [4, 2] m = .ok fit m ∧ fit.R.Is R ∧ IsRotation R ∧ near 4 = 3 ∧ near 2 = 2 := by
  obtain ⟨m, G, vs, A⟩ := corner_at parabAt
  have al : ∀ v, v ∈ m.vs → m.vAlive v = true := fun v hv => (G.wf.vDense.mem v).1 hv
  rw [vs] at al
  obtain ⟨near, fit, R, t, h1, h2, h3, -, h4, -⟩ := c71_motion (hks := ownRow) (tgt := [1, 2, 3]) (src := [4, 2]) A exactSvd_exact (ownRow_has _)
    (fun v hv => al v (by fin_cases hv <;> simp)) (ownRow_has _) (fun v hv => al v (by fin_cases hv <;> simp)) (by simp)
    (fun s hs => ⟨2, by simp, by fin_cases hs <;> norm_num [rowDist]⟩)
  refine ⟨m, fit, R, near, G, h2, h3, h4, ?_, ?_⟩
  · obtain ⟨a, b⟩ := h1 4 (by simp)
    have := b 3 (by simp)
    generalize near 4 = x at a this
    fin_cases a <;> revert this <;> norm_num [rowDist]
  · obtain ⟨a, b⟩ := h1 2 (by simp)
    have := b 2 (by simp)
    generalize near 2 = x at a this
    fin_cases a <;> revert this <;> norm_num [rowDist]

/-- an empty target patch -/
example : ∃ m : Mesh XR, m.Good ∧ solveRigidICP exactSvd ownRow [] [4, 2] m = .err .ub := by
  obtain ⟨m, G, vs, A⟩ := corner_at parabAt
  have al : ∀ v, v ∈ m.vs → m.vAlive v = true := fun v hv => (G.wf.vDense.mem v).1 hv
  rw [vs] at al
  exact ⟨m, G, c71_none (d := fun v => [(v : ℝ)]) (ownRow_has _) (by simp) (ownRow_has _) (fun v hv => al v (by fin_cases hv <;> simp))
    ⟨4, by simp, by simp⟩⟩

/-- C72 does not hold: a patch consisting of a vertex at the origin is moved to its target exactly, but the returned error is the square of
the distance of the target from the origin. -/
theorem c72_counterexample :
    (∀ (m : Mesh XR) (p : Nat → E3) (svd : SvdLib XR) (s t : Nat), m.AtE p → svd.Exact → m.vAlive s = true → m.vAlive t = true → p s = 0 →
      ∃ fit R w, solveRigidICP svd (fun _ => some [.fin 0]) [t] [s] m = .ok fit m ∧ fit.R.Is R ∧ fit.t.Is w ∧ fitCost [(p s, p t)] R w = 0 ∧
        fit.error = .fin (‖p t‖ ^ 2)) ∧
    ∃ (m : Mesh XR) (p : Nat → E3) (fit : RigidFit XR), m.Good ∧ m.AtE p ∧ p 1 = 0 ∧ ‖p 2‖ = 1 ∧
      solveRigidICP exactSvd (fun _ => some [.fin 0]) [2] [1] m = .ok fit m ∧ fit.error = .fin 1 := by
  have key : ∀ (m : Mesh XR) (p : Nat → E3) (svd : SvdLib XR) (s t : Nat), m.AtE p → svd.Exact → m.vAlive s = true → m.vAlive t = true → p s = 0 →
      ∃ fit R w, solveRigidICP svd (fun _ => some [.fin 0]) [t] [s] m = .ok fit m ∧ fit.R.Is R ∧ fit.t.Is w ∧ fitCost [(p s, p t)] R w = 0 ∧
        fit.error = .fin (‖p t‖ ^ 2) := by
    intro m p svd s t A hS as at' h0
    have hr : ∀ vs, HasRows (fun _ => some [XR.fin 0]) (fun _ => [0]) 1 vs := fun _ _ _ => ⟨rfl, rfl⟩
    have ha : ∀ x, m.vAlive x = true → ∀ v ∈ [x], m.vAlive v = true := fun x hx v hv => by rw [List.mem_singleton.1 hv]; exact hx
    obtain ⟨near, l, h1, h2, h3⟩ := rigidPairs_eq A (hr [t]) (ha t at') [s] (hr [s]) (ha s as) (fun _ _ => ⟨t, by simp, by norm_num [rowDist]⟩)
    have hn : near s = t := by simpa using (h1 s (by simp)).1
    simp only [List.map_cons, List.map_nil, hn, h0] at h3
    obtain ⟨U, V, s', hU, hV, -, -, -, -, eR, et, ee⟩ := rigidFit_eq hS h3 (by simp)
    have c1 : centre ([((0 : E3), p t)].map Prod.fst) = 0 := by simp [centre]
    have c2 : centre ([((0 : E3), p t)].map Prod.snd) = p t := by simp [centre]
    rw [c1, c2, turnBy_zero, sub_zero] at et ee
    have z : fitCost [((0 : E3), p t)] (kabsch U V) (p t) = 0 := by simp [fitCost, turnBy_zero]
    refine ⟨rigidFit svd l, _, _, ?_, eR, et, by rw [h0]; exact z, ?_⟩
    · unfold solveRigidICP
      rw [bind_apply, h2]
      rfl
    · rw [ee, error_eq (by simp) _ _ (by rw [c1, c2, turnBy_zero, sub_zero]), z]
      simp
  refine ⟨key, ?_⟩
  obtain ⟨m, G, vs, A⟩ := corner_at fun v => if v = 2 then ⟨1, 0, 0⟩ else ⟨0, 0, 0⟩
  have al : ∀ v, v ∈ m.vs → m.vAlive v = true := fun v hv => (G.wf.vDense.mem v).1 hv
  rw [vs] at al
  have p1 : (fun v => ((if v = 2 then ⟨1, 0, 0⟩ else ⟨0, 0, 0⟩ : Vec3 ℝ)).E) 1 = (0 : E3) := by
    ext i; fin_cases i <;> simp [Vec3.E]
  have p2 : ‖(fun v => ((if v = 2 then ⟨1, 0, 0⟩ else ⟨0, 0, 0⟩ : Vec3 ℝ)).E) 2‖ = (1 : ℝ) := by
    simp [Vec3.E, EuclideanSpace.norm_eq, Fin.sum_univ_three]
  obtain ⟨fit, R, w, h1, -, -, -, h2⟩ := key m _ exactSvd 1 2 A exactSvd_exact (al 1 (by simp)) (al 2 (by simp)) p1
  exact ⟨m, _, fit, G, A, p1, p2, h1, by rw [h2, p2]; norm_num⟩

/-- C72, as far as it holds: among the candidates the one of smallest returned error is chosen, if some returned error is below `1e20`;
otherwise the index stays `-1` and the motion unset. -/
theorem c72_choice_partial {fit : Int → M XR (RigidFit XR)} {e : Int → ℝ} (cs : List Int)
    (h : ∀ c ∈ cs, ∃ r, fit c m = .ok r m ∧ r.error = .fin (e c)) :
    ((∀ c ∈ cs, 10 ^ 20 ≤ e c) → bestPatch fit cs (.fin (10 ^ 20), -1, none) m = .ok (.fin (10 ^ 20), -1, none) m) ∧
    ((∃ c ∈ cs, e c < 10 ^ 20) → ∃ c r, c ∈ cs ∧ (∀ c' ∈ cs, e c ≤ e c') ∧ fit c m = .ok r m ∧
      bestPatch fit cs (.fin (10 ^ 20), -1, none) m = .ok (.fin (e c), c, some r) m) := by
  have key : ∀ (cs : List Int), (∀ c ∈ cs, ∃ r, fit c m = .ok r m ∧ r.error = .fin (e c)) → ∀ (E : ℝ) (k : Int) (o : Option (RigidFit XR)),
      ((∀ c ∈ cs, E ≤ e c) → bestPatch fit cs (.fin E, k, o) m = .ok (.fin E, k, o) m) ∧
      ((∃ c ∈ cs, e c < E) → ∃ c r, c ∈ cs ∧ (∀ c' ∈ cs, e c ≤ e c') ∧ e c < E ∧ fit c m = .ok r m ∧
        bestPatch fit cs (.fin E, k, o) m = .ok (.fin (e c), c, some r) m) := by
    intro cs
    induction cs with
    | nil => intro _ E k o; exact ⟨fun _ => rfl, fun h => by simp at h⟩
    | cons c cs ih =>
      intro H E k o
      obtain ⟨r, hr, er⟩ := H c (by simp)
      have H' := fun x (hx : x ∈ cs) => H x (List.mem_cons_of_mem _ hx)
      have e1 : bestPatch fit (c :: cs) (.fin E, k, o) m
          = bestPatch fit cs (if Scalar.lt (XR.fin (e c)) (XR.fin E) then (.fin (e c), c, some r) else (.fin E, k, o)) m := by
        rw [bestPatch]
        simp only [bind_apply, hr, er]
      rw [e1, X_lt]
      by_cases hlt : e c < E
      · rw [if_pos ((R_lt _ _).2 hlt)]
        refine ⟨fun h => absurd (h c (by simp)) (not_le.2 hlt), fun _ => ?_⟩
        by_cases hh : ∃ c' ∈ cs, e c' < e c
        · obtain ⟨c', r', b1, b2, b3, b4, b5⟩ := (ih H' (e c) c (some r)).2 hh
          refine ⟨c', r', List.mem_cons_of_mem _ b1, fun x hx => ?_, b3.trans hlt, b4, b5⟩
          rcases List.mem_cons.1 hx with rfl | hx
          · exact b3.le
          · exact b2 x hx
        · push Not at hh
          refine ⟨c, r, by simp, fun x hx => ?_, hlt, hr, (ih H' (e c) c (some r)).1 hh⟩
          rcases List.mem_cons.1 hx with rfl | hx
          · exact le_refl _
          · exact hh x hx
      · rw [if_neg (by rw [R_lt]; exact hlt)]
        refine ⟨fun h => (ih H' E k o).1 fun x hx => h x (List.mem_cons_of_mem _ hx), fun h => ?_⟩
        obtain ⟨x, hx, hx'⟩ := h
        have hh : ∃ c' ∈ cs, e c' < E := by
          rcases List.mem_cons.1 hx with rfl | hx
          · exact absurd hx' hlt
          · exact ⟨x, hx, hx'⟩
        obtain ⟨c', r', b1, b2, b3, b4, b5⟩ := (ih H' E k o).2 hh
        refine ⟨c', r', List.mem_cons_of_mem _ b1, fun x hx => ?_, b3, b4, b5⟩
        rcases List.mem_cons.1 hx with rfl | hx
        · exact b3.le.trans (not_lt.1 hlt)
        · exact b2 x hx
  obtain ⟨k1, k2⟩ := key cs h (10 ^ 20) (-1) none
  refine ⟨k1, fun hh => ?_⟩
  obtain ⟨c, r, b1, b2, -, b4, b5⟩ := k2 hh
  exact ⟨c, r, b1, b2, b4, b5⟩

/-- two candidates -/
example (m : Mesh XR) (R : Mat3 XR) (t : Vec3 XR) : ∃ r, bestPatch (fun c => pure ⟨R, t, if c = 5 then .fin 1 else .fin 2⟩) [3, 5]
    (.fin (10 ^ 20), -1, none) m = .ok (.fin 1, 5, some r) m := by
  obtain ⟨c, r, h1, h2, -, h4⟩ := (c72_choice_partial (m := m) (fit := fun c => pure ⟨R, t, if c = 5 then .fin 1 else .fin 2⟩)
    (e := fun c => if c = 5 then 1 else 2) [3, 5] (fun c hc => by fin_cases hc <;> exact ⟨_, rfl, by simp⟩)).2 ⟨5, by simp, by norm_num⟩
  refine ⟨r, ?_⟩
  rw [h4]
  have := h2 5 (by simp)
  fin_cases h1
  · norm_num at this
  · simp

/-! ## C73 -/

/-- C73, as far as it holds: for a patch `vs` among `N` vertices, `descriptors[i]` consists of the means of the entries of the signatures and
of the roots of `E[f²] - (|vs| / N) (E f)²`, each divided by the largest of them. -/
theorem c73_descriptor_partial {vs : List Nat} (H : HasRows hks d n vs) (hn : 0 < n) (hv : vs ≠ []) {N : Nat} (hN : vs.length ≤ N)
    (h1 : ∃ k < n, 0 < rowMean d vs k) (h2 : ∃ k < n, 0 < rowSquare d vs k - vs.length / N * rowMean d vs k ^ 2) :
    ∃ a b, descriptor hks n N vs m = .ok (a ++ b) m ∧ NormedRow (rowMean d vs) n a ∧
      NormedRow (fun k => √(rowSquare d vs k - vs.length / N * rowMean d vs k ^ 2)) n b := descriptor_eq H hn hv hN h1 h2

/-- C73, as far as it holds: if the patch is the whole mesh, the second half is the standard deviation. -/
theorem c73_whole_partial {vs : List Nat} (H : HasRows hks d n vs) (hn : 0 < n) (hv : vs ≠ [])
    (h1 : ∃ k < n, 0 < rowMean d vs k) (h2 : ∃ k < n, 0 < rowVar d vs k) :
    ∃ a b, descriptor hks n vs.length vs m = .ok (a ++ b) m ∧ NormedRow (rowMean d vs) n a ∧ NormedRow (fun k => √(rowVar d vs k)) n b := by
  have hP : (vs.length : ℝ) ≠ 0 := by simpa using hv
  have e : ∀ k, rowSquare d vs k - vs.length / vs.length * rowMean d vs k ^ 2 = rowVar d vs k := by
    intro k
    rw [div_self hP, one_mul, rowVar_eq d hv]
  obtain ⟨a, b, q1, q2, q3⟩ := c73_descriptor_partial (m := m) H hn hv (le_refl vs.length) h1 (by simpa only [e] using h2)
  simp only [e] at q3
  exact ⟨a, b, q1, q2, q3⟩

/-- signatures `(1, 1)` and `(1, 2)` -/
noncomputable def twoRow (v : Nat) : List ℝ := if v = 1 then [1, 1] else [1, 2]

/-- the hypotheses of `c73_whole_partial` are met by these two vertices -/
example (m : Mesh XR) : ∃ a b, descriptor (fun v => some ((twoRow v).map XR.fin)) 2 2 [1, 2] m = .ok (a ++ b) m ∧
    NormedRow (rowMean twoRow [1, 2]) 2 a ∧ NormedRow (fun k => √(rowVar twoRow [1, 2] k)) 2 b :=
  c73_whole_partial (vs := [1, 2]) (fun v _ => ⟨rfl, by unfold twoRow; split <;> rfl⟩) (by norm_num) (by simp)
    ⟨0, by norm_num, by norm_num [rowMean, twoRow]⟩ ⟨1, by norm_num, by norm_num [rowVar, rowMean, twoRow]⟩

/-- C73 does not hold: for a patch of two vertices with signatures `(1, 1)` and `(1, 2)` among four vertices the standard deviations are `0`
and `1 / 2`, but the third entry of the descriptor is not zero. -/
theorem c73_counterexample (m : Mesh XR) : rowVar twoRow [1, 2] 0 = 0 ∧ rowVar twoRow [1, 2] 1 = 1 / 4 ∧
    ∃ a b, descriptor (fun v => some ((twoRow v).map XR.fin)) 2 4 [1, 2] m = .ok (a ++ b) m ∧ a.length = 2 ∧ b[0]? = some (.fin √(4 / 11)) ∧
      ¬NormedRow (fun k => √(rowVar twoRow [1, 2] k)) 2 b := by
  have v0 : rowVar twoRow [1, 2] 0 = 0 := by norm_num [rowVar, rowMean, twoRow]
  have v1 : rowVar twoRow [1, 2] 1 = 1 / 4 := by norm_num [rowVar, rowMean, twoRow]
  refine ⟨v0, v1, ?_⟩
  have s0 : rowSquare twoRow [1, 2] 0 - ([1, 2] : List Nat).length / (4 : Nat) * rowMean twoRow [1, 2] 0 ^ 2 = 1 / 2 := by
    norm_num [rowSquare, rowMean, twoRow]
  have s1 : rowSquare twoRow [1, 2] 1 - ([1, 2] : List Nat).length / (4 : Nat) * rowMean twoRow [1, 2] 1 ^ 2 = 11 / 8 := by
    norm_num [rowSquare, rowMean, twoRow]
  obtain ⟨a, b, e, ⟨ka, -, -, ha⟩, ⟨kb, hkb, mb, hb⟩⟩ := c73_descriptor_partial (m := m) (hks := fun v => some ((twoRow v).map XR.fin))
    (d := twoRow) (n := 2) (vs := [1, 2]) (fun v _ => ⟨rfl, by unfold twoRow; split <;> rfl⟩) (by norm_num) (by simp) (N := 4) (by simp)
    ⟨0, by norm_num, by norm_num [rowMean, twoRow]⟩ ⟨0, by norm_num, by rw [s0]; norm_num⟩
  have k1 : kb = 1 := by
    interval_cases kb
    · exfalso
      have := mb 1 (by norm_num)
      dsimp only at this
      rw [s0, s1] at this
      have h' := (Real.sqrt_le_sqrt_iff (by norm_num)).1 this
      norm_num at h'
    · rfl
  subst k1
  have hb0 : b[0]? = some (.fin √(4 / 11)) := by
    rw [hb]
    simp only [List.getElem?_map, List.getElem?_range (show 0 < 2 by norm_num), Option.map_some]
    rw [s0, s1, ← Real.sqrt_div (by norm_num)]
    norm_num
  refine ⟨a, b, e, by rw [ha]; simp, hb0, ?_⟩
  rintro ⟨k, hk, -, h⟩
  rw [h] at hb0
  simp only [List.getElem?_map, List.getElem?_range (show 0 < 2 by norm_num), Option.map_some, v0, Real.sqrt_zero, zero_div,
    Option.some.injEq, XR.fin_inj] at hb0
  have : (0 : ℝ) < √(4 / 11) := Real.sqrt_pos.2 (by norm_num)
  linarith

/-! ## C74 -/

/-- C74, as far as it holds: with at least `c = max(10, nSrc / 1000)` source vertices, the candidates of a target vertex are `c` different
source vertices, and no other source vertex has a closer descriptor. -/
theorem c74_candidates_partial {sort : List (XR × Int) → List (XR × Int)} (hs : StdSort sort) {D : List (List XR)} {f : Int → List ℝ} {tgt : Int}
    (ht : ∃ i : Nat, tgt = i ∧ D[i]? = some ((f tgt).map XR.fin) ∧ (f tgt).length = n) {src : List Int}
    (hsrc : ∀ s ∈ src, ∃ i : Nat, s = i ∧ D[i]? = some ((f s).map XR.fin) ∧ (f s).length = n) (nd : src.Nodup)
    (hc : max 10 (src.length / 1000) ≤ src.length) :
    ∃ cs, candidatesOf sort D src tgt m = .ok cs m ∧ cs.length = max 10 (src.length / 1000) ∧ cs.Nodup ∧ (∀ c ∈ cs, c ∈ src) ∧
      ∀ c ∈ cs, ∀ s ∈ src, s ∉ cs → rowDist (f tgt) (f c) ≤ rowDist (f tgt) (f s) := by
  obtain ⟨l', h1, h2, h3⟩ := hs (src.map fun s => (rowDist (f tgt) (f s), s))
  rw [List.map_map] at h1
  set k := max 10 (src.length / 1000) with hk
  have hlen : l'.length = src.length := by rw [h2.length_eq, List.length_map]
  have hmap : (l'.map Prod.snd).Perm src := by
    have := h2.map Prod.snd
    rw [List.map_map] at this
    exact this.trans (.of_eq (List.map_id' src))
  have hval : ∀ q ∈ l', q.1 = rowDist (f tgt) (f q.2) := by
    intro q hq
    obtain ⟨s, _, rfl⟩ := List.mem_map.1 (h2.mem_iff.1 hq)
    rfl
  refine ⟨(l'.take k).map Prod.snd, ?_, ?_, ?_, ?_, ?_⟩
  · unfold candidatesOf
    dsimp only
    rw [bind_apply, candDists_eq ht src hsrc]
    dsimp only
    have h1' : sort (src.map fun s => (XR.fin (rowDist (f tgt) (f s)), s)) = l'.map fun q => (XR.fin q.1, q.2) := h1
    rw [h1', List.range_eq_range', eachM_take _ Prod.snd _ 0 (by simp [hlen]; omega)]
    rw [List.drop_zero, ← List.map_take, List.map_map]
    rfl
  · rw [List.length_map, List.length_take, hlen, min_eq_left hc]
  · rw [List.map_take]
    exact (hmap.nodup_iff.2 nd).sublist (List.take_sublist _ _)
  · intro c hcc
    rw [List.map_take] at hcc
    exact hmap.mem_iff.1 (List.mem_of_mem_take hcc)
  · intro c hcc s hss hns
    obtain ⟨q, hq, rfl⟩ := List.mem_map.1 hcc
    obtain ⟨r, hr, rfl⟩ := List.mem_map.1 (hmap.mem_iff.2 hss)
    have hr' : r ∈ l'.drop k := by
      rcases List.mem_append.1 (by rw [List.take_append_drop k l']; exact hr : r ∈ l'.take k ++ l'.drop k) with h | h
      · exact absurd (List.mem_map.2 ⟨r, h, rfl⟩) hns
      · exact h
    have hp : (l'.take k ++ l'.drop k).Pairwise fun a b => a.1 < b.1 ∨ a.1 = b.1 ∧ a.2 ≤ b.2 := by rw [List.take_append_drop]; exact h3
    have := (List.pairwise_append.1 hp).2.2 q hq r hr'
    rw [← hval q (List.mem_of_mem_take hq), ← hval r hr]
    rcases this with h | h
    · exact h.le
    · exact h.1.le

/-- C74 does not hold: with fewer than ten source vertices the array of the distances is read past its end. -/
theorem c74_counterexample {sort : List (XR × Int) → List (XR × Int)} (hs : StdSort sort) {D : List (List XR)} {f : Int → List ℝ} {tgt : Int}
    (ht : ∃ i : Nat, tgt = i ∧ D[i]? = some ((f tgt).map XR.fin) ∧ (f tgt).length = n) {src : List Int}
    (hsrc : ∀ s ∈ src, ∃ i : Nat, s = i ∧ D[i]? = some ((f s).map XR.fin) ∧ (f s).length = n) (hc : src.length < 10) :
    candidatesOf sort D src tgt m = .err .ub := by
  obtain ⟨l', h1, h2, -⟩ := hs (src.map fun s => (rowDist (f tgt) (f s), s))
  rw [List.map_map] at h1
  have hlen : l'.length = src.length := by rw [h2.length_eq, List.length_map]
  unfold candidatesOf
  dsimp only
  rw [bind_apply, candDists_eq ht src hsrc]
  dsimp only
  have h1' : sort (src.map fun s => (XR.fin (rowDist (f tgt) (f s)), s)) = l'.map fun q => (XR.fin q.1, q.2) := h1
  rw [h1', List.range_eq_range', eachM_short _ Prod.snd _ 0 (by simp [hlen]; omega) (by omega)]

open Classical in
/-- a sort that meets the assumption -/
noncomputable def exactSort (l : List (XR × Int)) : List (XR × Int) :=
  l.mergeSort fun a b => match a.1, b.1 with
    | .fin x, .fin y => decide (x < y ∨ x = y ∧ a.2 ≤ b.2)
    | _, _ => true

theorem exactSort_std : StdSort exactSort := by
  classical
  intro l
  refine ⟨l.mergeSort fun a b => decide (a.1 < b.1 ∨ a.1 = b.1 ∧ a.2 ≤ b.2), ?_, List.mergeSort_perm _ _, ?_⟩
  · unfold exactSort
    rw [List.map_mergeSort]
    intro a _ b _
    rfl
  · have := List.pairwise_mergeSort (le := fun a b : ℝ × Int => decide (a.1 < b.1 ∨ a.1 = b.1 ∧ a.2 ≤ b.2)) ?_ ?_ l
    · exact this.imp fun h => by simpa using h
    · intro a b c h1 h2
      simp only [decide_eq_true_eq] at h1 h2 ⊢
      rcases h1 with h1 | ⟨h1, h1'⟩ <;> rcases h2 with h2 | ⟨h2, h2'⟩
      · exact .inl (h1.trans h2)
      · exact .inl (h2 ▸ h1)
      · exact .inl (h1 ▸ h2)
      · exact .inr ⟨h1.trans h2, h1'.trans h2'⟩
    · intro a b
      simp only [Bool.or_eq_true, decide_eq_true_eq]
      rcases lt_trichotomy a.1 b.1 with h | h | h
      · exact .inl (.inl h)
      · rcases le_total a.2 b.2 with h' | h'
        · exact .inl (.inr ⟨h, h'⟩)
        · exact .inr (.inr ⟨h.symm, h'⟩)
      · exact .inr (.inl h)

/-- eleven source vertices with descriptors `(0)`, …, `(10)` and a target vertex with the descriptor `(11)`: the vertex with descriptor `(0)`
is no candidate -/
example (m : Mesh XR) : ∃ cs, candidatesOf exactSort ((List.range 12).map fun i : Nat => [XR.fin (i : ℝ)]) ((List.range 11).map fun i : Nat => (i : Int)) 11 m = .ok cs m ∧
    cs.length = 10 ∧ (0 : Int) ∉ cs := by
  have nd : ((List.range 11).map fun i : Nat => (i : Int)).Nodup := List.nodup_range.map fun a b h => by exact_mod_cast h
  obtain ⟨cs, h1, h2, h3, h4, h5⟩ := c74_candidates_partial (m := m) (n := 1) exactSort_std (D := (List.range 12).map fun i : Nat => [XR.fin (i : ℝ)])
    (f := fun i => [(i : ℝ)]) (tgt := 11) ⟨11, rfl, by simp, rfl⟩ (src := (List.range 11).map fun i : Nat => (i : Int))
    (fun s hs => by
      obtain ⟨i, hi, rfl⟩ := List.mem_map.1 hs
      have hi := List.mem_range.1 hi
      exact ⟨i, rfl, by simp [List.getElem?_range (show i < 12 by omega)], rfl⟩)
    nd (by simp)
  refine ⟨cs, h1, h2, fun h0 => ?_⟩
  have : ∃ s ∈ (List.range 11).map fun i : Nat => (i : Int), s ∉ cs := by
    by_contra hh
    push Not at hh
    have := (List.subperm_of_subset nd hh).length_le
    rw [h2] at this
    simp at this
  obtain ⟨s, hs, hs'⟩ := this
  have h6 := h5 0 h0 s hs hs'
  obtain ⟨i, hi, rfl⟩ := List.mem_map.1 hs
  have hi0 : i ≠ 0 := by rintro rfl; exact hs' h0
  have hi := List.mem_range.1 hi
  interval_cases i <;> first | omega | norm_num [rowDist] at h6

/-- three source vertices -/
example (m : Mesh XR) : candidatesOf exactSort ((List.range 4).map fun i : Nat => [XR.fin (i : ℝ)]) [0, 1, 2] 3 m = .err .ub :=
  c74_counterexample (n := 1) exactSort_std (f := fun i => [(i : ℝ)]) ⟨3, rfl, by simp, rfl⟩
    (fun s hs => by fin_cases hs <;> [exact ⟨0, rfl, by simp, rfl⟩; exact ⟨1, rfl, by simp, rfl⟩; exact ⟨2, rfl, by simp, rfl⟩]) (by simp)

end
end TinyMesh
