import Verif.Proof.L0E
/-
L0 denoising: the minimisers depend on the positions of the vertices only, keep planes, and move with the mesh.
-/
namespace TinyMesh
variable {F : Type} {m : Mesh F}

/-- equal at all vertices -/
def AgreeV (m : Mesh F) (p q : Nat → E3) : Prop := ∀ v, m.vAlive v = true → p v = q v

theorem AgreeV.refl (p : Nat → E3) : AgreeV m p p := fun _ _ => rfl
theorem AgreeV.symm {p q : Nat → E3} (h : AgreeV m p q) : AgreeV m q p := fun v a => (h v a).symm
theorem AgreeV.trans {p q r : Nat → E3} (h : AgreeV m p q) (h' : AgreeV m q r) : AgreeV m p r := fun v a => (h v a).trans (h' v a)

section
variable (wf : m.WF) {p p' p0 p0' q q' r r' g g' : Nat → E3}
include wf

theorem areaOf_congr (hp : AgreeV m p p') {h : Nat} (a : m.hAlive h = true) : m.areaOf p h = m.areaOf p' h := by
  have a1 := wf.next_alive _ a
  unfold Mesh.areaOf
  rw [hp _ (wf.src_alive _ a), hp _ (wf.src_alive _ a1), hp _ (wf.src_alive _ (wf.next_alive _ a1))]

theorem bendOf_congr (hp : AgreeV m p p') (hq : AgreeV m q q') {h : Nat} (a : m.hAlive h = true) : m.bendOf p q h = m.bendOf p' q' h := by
  have ar := wf.rev_alive _ a
  have a1 := wf.next_alive _ a
  unfold Mesh.bendOf
  rw [areaOf_congr wf hp a, areaOf_congr wf hp ar]
  dsimp only
  rw [hp _ (wf.src_alive _ a), hp _ (wf.src_alive _ a1), hp _ (wf.src_alive _ (wf.next_alive _ a1)),
    hp _ (wf.src_alive _ (wf.next_alive _ (wf.next_alive _ ar))), hq _ (wf.src_alive _ a), hq _ (wf.src_alive _ a1),
    hq _ (wf.src_alive _ (wf.next_alive _ a1)), hq _ (wf.src_alive _ (wf.next_alive _ (wf.next_alive _ ar)))]

theorem crossOf_congr (hq : AgreeV m q q') {h : Nat} (a : m.hAlive h = true) : m.crossOf q h = m.crossOf q' h := by
  have ar := wf.rev_alive _ a
  have a1 := wf.next_alive _ a
  unfold Mesh.crossOf
  rw [hq _ (wf.src_alive _ a), hq _ (wf.src_alive _ a1),
    hq _ (wf.src_alive _ (wf.next_alive _ a1)), hq _ (wf.src_alive _ (wf.next_alive _ (wf.next_alive _ ar)))]

theorem l0Target_congr (hp : AgreeV m p p') (hq : AgreeV m q q') (t : ℝ) {h : Nat} (a : m.hAlive h = true) :
    m.l0Target p q t h = m.l0Target p' q' t h := by
  unfold Mesh.l0Target
  rw [bendOf_congr wf hp hq a]

theorem l0Energy_congr (hp : AgreeV m p p') (h0 : AgreeV m p0 p0') (hg : ∀ h, m.hAlive h = true → g h = g' h) (hr : AgreeV m r r')
    (alpha beta : ℝ) : m.l0Energy p p0 g alpha beta r = m.l0Energy p' p0' g' alpha beta r' := by
  unfold Mesh.l0Energy
  congr 1
  · congr 1
    · congr 1
      refine List.map_congr_left fun v hv => ?_
      have a := (wf.vDense.mem v).1 hv
      rw [hr v a, h0 v a]
    · congr 3
      refine List.map_congr_left fun h hh => ?_
      rw [crossOf_congr wf hr ((wf.hDense.mem h).1 hh)]
  · congr 3
    refine List.map_congr_left fun h hh => ?_
    have a := (wf.hDense.mem h).1 hh
    rw [bendOf_congr wf hp hr a, hg h a]

theorem Mesh.L0Step.congr {lambda alpha beta : ℝ} (hp : AgreeV m p p') (h0 : AgreeV m p0 p0') (hq : AgreeV m q q') (hr : AgreeV m r r')
    (h : m.L0Step p p0 lambda alpha beta q r) : m.L0Step p' p0' lambda alpha beta q' r' := by
  have e : ∀ x x', AgreeV m x x' → m.l0Energy p' p0' (m.l0Target p' q' (lambda / beta)) alpha beta x' =
      m.l0Energy p p0 (m.l0Target p q (lambda / beta)) alpha beta x := fun x x' hx =>
    l0Energy_congr wf hp.symm h0.symm (fun _ a => l0Target_congr wf hp.symm hq.symm _ a) hx.symm _ _
  refine ⟨fun x => ?_, fun x hx => ?_⟩
  · rw [e r r' hr, e x x (.refl x)]; exact h.1 x
  · rw [e r r' hr, e x x (.refl x)] at hx
    exact AgreeV.trans (h.2 x hx) hr

omit wf in
theorem Mesh.L0Step.unique {lambda alpha beta : ℝ} (h : m.L0Step p p0 lambda alpha beta q r) (h' : m.L0Step p p0 lambda alpha beta q r') :
    AgreeV m r r' := h'.2 r (h.1 r')

theorem Mesh.L0Steps.congr {lambda : ℝ} (hp : AgreeV m p p') (h0 : AgreeV m p0 p0') : ∀ (n : Nat) (alpha beta : ℝ) {q q' r r' : Nat → E3},
    AgreeV m q q' → AgreeV m r r' → m.L0Steps p p0 lambda n alpha beta q r → m.L0Steps p' p0' lambda n alpha beta q' r'
  | 0, _, _, _, _, _, _, hq, hr, h => fun v a => by rw [← hr v a, h v a, hq v a]
  | n + 1, _, _, _, _, _, _, hq, hr, ⟨x, h1, h2⟩ =>
    ⟨x, h1.congr wf hp h0 hq (.refl x), L0Steps.congr hp h0 n _ _ (.refl x) hr h2⟩

theorem Mesh.L0Steps.unique {lambda : ℝ} : ∀ (n : Nat) (alpha beta : ℝ) {q r r' : Nat → E3},
    m.L0Steps p p0 lambda n alpha beta q r → m.L0Steps p p0 lambda n alpha beta q r' → AgreeV m r r'
  | 0, _, _, _, _, _, h, h' => fun v a => (h v a).trans (h' v a).symm
  | n + 1, _, _, _, _, _, ⟨x, h1, h2⟩, ⟨x', h1', h2'⟩ =>
    L0Steps.unique n _ _ (L0Steps.congr wf (.refl p) (.refl p0) n _ _ (h1.unique h1') (.refl _) h2) h2'

/-! ### Planes -/

/-- points of a plane stay there -/
theorem Mesh.L0Step.plane {lambda alpha beta : ℝ} (ha : 0 ≤ alpha) (hb : 0 ≤ beta) (hp : m.L0Proper p)
    (h : m.L0Step p p0 lambda alpha beta q r) {n : E3} (hn : ‖n‖ = 1) {c : ℝ}
    (h0 : ∀ v, m.vAlive v = true → inner ℝ n (p0 v) = c) (hq : ∀ v, m.vAlive v = true → inner ℝ n (q v) = c) :
    ∀ v, m.vAlive v = true → inner ℝ n (r v) = c := by
  -- the projection to the plane through the origin
  let L : E3 →ₗ[ℝ] E3 := LinearMap.id - (LinearMap.toSpanSingleton ℝ E3 n).comp (innerₛₗ ℝ n)
  have Lx : ∀ x, L x = x - inner ℝ n x • n := fun x => rfl
  have nn : inner ℝ n n = (1 : ℝ) := by rw [real_inner_self_eq_norm_sq, hn]; norm_num
  have Ln : L n = 0 := by rw [Lx, nn, one_smul, sub_self]
  have Lle : ∀ x, ‖L x‖ ^ 2 ≤ ‖x‖ ^ 2 := by
    intro x
    have e : ‖L x‖ ^ 2 = ‖x‖ ^ 2 - inner ℝ n x ^ 2 := by
      rw [Lx, ← real_inner_self_eq_norm_sq, inner_sub_left, inner_sub_right, inner_sub_right, real_inner_smul_left, real_inner_smul_right,
        real_inner_smul_right, real_inner_smul_left, nn, real_inner_comm n x, real_inner_self_eq_norm_sq]
      ring
    rw [e]
    nlinarith [sq_nonneg (inner ℝ n x)]
  have Lfix : ∀ x, inner ℝ n x = (0 : ℝ) → L x = x := by
    intro x hx
    rw [Lx, hx, zero_smul, sub_zero]
  let r' : Nat → E3 := fun v => L (r v) + c • n
  have hbend : ∀ h, m.hAlive h = true → m.bendOf p r' h = L (m.bendOf p r h) := by
    intro h a
    change m.bendOf p (fun v => (fun v => L (r v)) v + (fun _ => c • n) v) h = _
    rw [bendOf_add, bendOf_linear, bendOf_const (hp h a).2, add_zero]
  have hcross : ∀ h, m.crossOf r' h = L (m.crossOf r h) := by
    intro h
    change m.crossOf (fun v => (fun v => L (r v)) v + (fun _ => c • n) v) h = _
    rw [crossOf_add, crossOf_linear, crossOf_const, add_zero]
  have hg : ∀ h, m.hAlive h = true → L (m.l0Target p q (lambda / beta) h) = m.l0Target p q (lambda / beta) h := by
    intro h a
    have hz : L (m.bendOf p q h) = m.bendOf p q h := by
      rw [← bendOf_linear]
      have : AgreeV m (fun v => (fun v => L (q v)) v + (fun _ => c • n) v) q := by
        intro v av
        dsimp only
        rw [Lx, hq v av, sub_add_cancel]
      have e := bendOf_congr wf (.refl p) this a
      rw [bendOf_add, bendOf_const (hp h a).2, add_zero] at e
      exact e
    unfold Mesh.l0Target
    split
    · exact map_zero _
    · exact hz
  have le : m.l0Energy p p0 (m.l0Target p q (lambda / beta)) alpha beta r' ≤ m.l0Energy p p0 (m.l0Target p q (lambda / beta)) alpha beta r := by
    unfold Mesh.l0Energy
    refine add_le_add (add_le_add ?_ ?_) ?_
    · refine List.sum_le_sum fun v hv => ?_
      have a := (wf.vDense.mem v).1 hv
      have e : r' v - p0 v = L (r v - p0 v) := by
        rw [map_sub]
        change L (r v) + c • n - p0 v = _
        rw [Lx (p0 v), h0 v a]
        abel
      rw [e]
      exact Lle _
    · refine mul_le_mul_of_nonneg_left (div_le_div_of_nonneg_right (List.sum_le_sum fun h hh => ?_) (by norm_num)) ha
      rw [hcross]
      exact Lle _
    · refine mul_le_mul_of_nonneg_left (div_le_div_of_nonneg_right (List.sum_le_sum fun h hh => ?_) (by norm_num)) hb
      have a := (wf.hDense.mem h).1 hh
      rw [hbend h a, ← hg h a, ← map_sub, hg h a]
      exact Lle _
  intro v a
  rw [← h.2 r' le v a]
  change inner ℝ n (L (r v) + c • n) = c
  rw [Lx, inner_add_right, inner_sub_right, real_inner_smul_right, real_inner_smul_right, nn]
  ring

theorem Mesh.L0Steps.plane {lambda : ℝ} (hp : m.L0Proper p) {n : E3} (hn : ‖n‖ = 1) {c : ℝ}
    (h0 : ∀ v, m.vAlive v = true → inner ℝ n (p0 v) = c) : ∀ (N : Nat) (alpha beta : ℝ) {q r : Nat → E3}, 0 ≤ alpha → 0 ≤ beta →
    (∀ v, m.vAlive v = true → inner ℝ n (q v) = c) → m.L0Steps p p0 lambda N alpha beta q r →
    ∀ v, m.vAlive v = true → inner ℝ n (r v) = c
  | 0, _, _, _, _, _, _, hq, h => fun v a => by rw [h v a]; exact hq v a
  | N + 1, alpha, beta, _, _, ha, hb, hq, ⟨_, h1, h2⟩ =>
    L0Steps.plane hp hn h0 N _ _ (by linarith) (mul_nonneg hb (Real.sqrt_nonneg _)) (h1.plane wf ha hb hp hn h0 hq) h2

end

/-! ### Rigid motions -/

section
variable (f : E3 ≃ᵃⁱ[ℝ] E3)

theorem iso_sub (x y : E3) : f x - f y = f.linearIsometryEquiv (x - y) := (f.map_vsub x y).symm

theorem triArea_iso (x y z : E3) : triArea (f x) (f y) (f z) = triArea x y z := by
  have h1 := triArea_sq (f x) (f y) (f z)
  rw [iso_sub, iso_sub, LinearIsometryEquiv.norm_map, LinearIsometryEquiv.norm_map, LinearIsometryEquiv.inner_map_map, ← triArea_sq] at h1
  have n1 : 0 ≤ triArea (f x) (f y) (f z) := div_nonneg (norm_nonneg _) (by norm_num)
  have n2 : 0 ≤ triArea x y z := div_nonneg (norm_nonneg _) (by norm_num)
  exact (sq_eq_sq₀ n1 n2).1 (by linarith)

theorem iso_eq (x : E3) : f x = f.linearIsometryEquiv x + f 0 := by
  have h0 := f.map_vsub x 0
  rw [vsub_eq_sub, vsub_eq_sub, sub_zero] at h0
  rw [h0, sub_add_cancel]

theorem areaOf_iso (p : Nat → E3) (h : Nat) : m.areaOf (fun v => f (p v)) h = m.areaOf p h := triArea_iso f _ _ _

theorem footAt_iso (a b x : E3) : footAt (f a) (f b) (f x) = footAt a b x := by
  unfold footAt
  rw [iso_sub, iso_sub, LinearIsometryEquiv.norm_map, LinearIsometryEquiv.inner_map_map]

theorem tipMean_iso {s t : ℝ} (h : s + t ≠ 0) (a b : E3) : tipMean s t (f a) (f b) = f (tipMean s t a b) := by
  unfold tipMean
  rw [iso_eq f a, iso_eq f b, iso_eq f (_ + _), smul_add, smul_add, map_add, map_smul, map_smul, add_add_add_comm, ← add_smul, ← add_div,
    add_comm t s, div_self h, one_smul]

theorem bendOf_iso {p q : Nat → E3} {h : Nat} (hs : 0 < m.areaOf p h + m.areaOf p (m.hRev h)) :
    m.bendOf (fun v => f (p v)) (fun v => f (q v)) h = f.linearIsometryEquiv (m.bendOf p q h) := by
  unfold Mesh.bendOf
  simp only [areaOf_iso]
  rw [tipMean_iso f hs.ne', tipMean_iso f hs.ne', footAt_iso]
  have e : ∀ (u : ℝ) (x y : E3), (1 - u) • f x + u • f y = f ((1 - u) • x + u • y) := by
    intro u x y
    rw [iso_eq f x, iso_eq f y, iso_eq f (_ + _), smul_add, smul_add, map_add, map_smul, map_smul, add_add_add_comm, ← add_smul, sub_add_cancel,
      one_smul]
  rw [e, iso_sub]

theorem crossOf_iso (q : Nat → E3) (h : Nat) : m.crossOf (fun v => f (q v)) h = f.linearIsometryEquiv (m.crossOf q h) := by
  unfold Mesh.crossOf
  simp only [map_add, map_sub]
  rw [iso_eq f (q (m.hSrc h)), iso_eq f (q (m.hSrc (m.hNext h))), iso_eq f (q (m.hSrc (m.hNext (m.hNext h)))),
    iso_eq f (q (m.hSrc (m.hNext (m.hNext (m.hRev h)))))]
  abel

theorem l0Target_iso {p q : Nat → E3} {h : Nat} (hs : 0 < m.areaOf p h + m.areaOf p (m.hRev h)) (t : ℝ) :
    m.l0Target (fun v => f (p v)) (fun v => f (q v)) t h = f.linearIsometryEquiv (m.l0Target p q t h) := by
  unfold Mesh.l0Target
  rw [bendOf_iso f hs, LinearIsometryEquiv.norm_map]
  split
  · rw [map_zero]
  · rfl

theorem l0Energy_iso (wf : m.WF) {p p0 q r : Nat → E3} (hp : m.L0Proper p) (t alpha beta : ℝ) :
    m.l0Energy (fun v => f (p v)) (fun v => f (p0 v)) (m.l0Target (fun v => f (p v)) (fun v => f (q v)) t) alpha beta (fun v => f (r v)) =
      m.l0Energy p p0 (m.l0Target p q t) alpha beta r := by
  unfold Mesh.l0Energy
  congr 1
  · congr 1
    · congr 1
      refine List.map_congr_left fun v hv => ?_
      rw [iso_sub, LinearIsometryEquiv.norm_map]
    · congr 3
      refine List.map_congr_left fun h hh => ?_
      rw [crossOf_iso, LinearIsometryEquiv.norm_map]
  · congr 3
    refine List.map_congr_left fun h hh => ?_
    have a := (wf.hDense.mem h).1 hh
    rw [bendOf_iso f (hp h a).2, l0Target_iso f (hp h a).2, ← map_sub, LinearIsometryEquiv.norm_map]

theorem Mesh.L0Step.iso (wf : m.WF) {p p0 q r : Nat → E3} (hp : m.L0Proper p) {lambda alpha beta : ℝ}
    (h : m.L0Step p p0 lambda alpha beta q r) :
    m.L0Step (fun v => f (p v)) (fun v => f (p0 v)) lambda alpha beta (fun v => f (q v)) (fun v => f (r v)) := by
  have e : ∀ x : Nat → E3, (fun v => f (f.symm (x v))) = x := fun x => funext fun v => f.apply_symm_apply _
  refine ⟨fun x => ?_, fun x hx v a => ?_⟩
  · rw [l0Energy_iso f wf hp, ← e x, l0Energy_iso f wf hp]
    exact h.1 _
  · rw [l0Energy_iso f wf hp, ← e x, l0Energy_iso f wf hp] at hx
    have := h.2 _ hx v a
    change x v = f (r v)
    rw [← this, f.apply_symm_apply]

theorem Mesh.L0Steps.iso (wf : m.WF) {p p0 : Nat → E3} (hp : m.L0Proper p) {lambda : ℝ} : ∀ (n : Nat) (alpha beta : ℝ) {q r : Nat → E3},
    m.L0Steps p p0 lambda n alpha beta q r →
    m.L0Steps (fun v => f (p v)) (fun v => f (p0 v)) lambda n alpha beta (fun v => f (q v)) (fun v => f (r v))
  | 0, _, _, _, _, h => fun v a => congrArg f (h v a)
  | n + 1, _, _, _, _, ⟨x, h1, h2⟩ => ⟨fun v => f (x v), h1.iso f wf hp, L0Steps.iso wf hp n _ _ h2⟩

theorem meanLen_iso (p : Nat → E3) : m.meanLen (fun v => f (p v)) = m.meanLen p := by
  unfold Mesh.meanLen
  simp only [f.dist_map]

theorem angleOf_iso (p : Nat → E3) (h : Nat) : m.angleOf (fun v => f (p v)) h = m.angleOf p h := by
  have hi : ∀ a b c d e g : E3, inner ℝ (triNormal (f a) (f b) (f c)) (triNormal (f d) (f e) (f g)) =
      inner ℝ (triNormal a b c) (triNormal d e g) := by
    intro a b c d e g
    rw [triNormal_inner, triNormal_inner]
    simp only [iso_sub, LinearIsometryEquiv.inner_map_map]
  have hn : ∀ a b c : E3, ‖triNormal (f a) (f b) (f c)‖ = ‖triNormal a b c‖ := by
    intro a b c
    have := triArea_iso f a b c
    rw [triArea_norm, triArea_norm] at this
    linarith
  have hz : ∀ a b c : E3, triNormal (f a) (f b) (f c) = 0 ↔ triNormal a b c = 0 := by
    intro a b c
    rw [← norm_eq_zero, hn, norm_eq_zero]
  unfold Mesh.angleOf InnerProductGeometry.angle
  simp only [hz, hi, hn]

theorem meanAngle_iso (p : Nat → E3) : m.meanAngle (fun v => f (p v)) = m.meanAngle p := by
  unfold Mesh.meanAngle
  rw [show m.angleOf (fun v => f (p v)) = m.angleOf p from funext fun h => angleOf_iso f p h]

theorem L0Proper_iso {p : Nat → E3} (hp : m.L0Proper p) : m.L0Proper fun v => f (p v) := by
  intro h a
  rw [areaOf_iso, areaOf_iso]
  exact ⟨fun e => (hp h a).1 (f.injective e), (hp h a).2⟩

end

/-! ### A positive weight of the regularisation moves the mesh -/

/-- the positions are not a minimum of the energy with themselves as goal if the regularisation is not zero -/
theorem Mesh.L0Step.moves (wf : m.WF) {p r : Nat → E3} {lambda alpha beta : ℝ} (ha : 0 < alpha) (h : m.L0Step p p lambda alpha beta p r)
    (hb : 0 ≤ beta) {x : Nat} (ax : m.hAlive x = true) (hx : m.crossOf p x ≠ 0) : ∃ v, m.vAlive v = true ∧ r v ≠ p v := by
  by_contra hc
  push Not at hc
  -- the mesh shrunk towards the origin
  set g := m.l0Target p p (lambda / beta) with hg
  have e0 : m.l0Energy p p g alpha beta r = m.l0Energy p p g alpha beta p := l0Energy_congr wf (.refl p) (.refl p) (fun _ _ => rfl) hc _ _
  have h1 := h.1
  rw [← hg] at h1
  rw [e0] at h1
  let X : ℝ := (m.vs.map fun v => ‖p v‖ ^ 2).sum
  let C : ℝ := (m.hes.map fun h => ‖m.crossOf p h‖ ^ 2).sum / 2
  let B : ℝ := (m.hes.map fun h => ‖m.bendOf p p h‖ ^ 2).sum / 2
  have hX : 0 ≤ X := List.sum_nonneg fun y hy => by
    obtain ⟨v, -, rfl⟩ := List.mem_map.1 hy
    exact sq_nonneg _
  have hB : 0 ≤ B := div_nonneg (List.sum_nonneg fun y hy => by
    obtain ⟨v, -, rfl⟩ := List.mem_map.1 hy
    exact sq_nonneg _) (by norm_num)
  have hC : 0 < C := by
    refine div_pos ?_ (by norm_num)
    have hp : 0 < ‖m.crossOf p x‖ ^ 2 := pow_pos (norm_pos_iff.2 hx) 2
    refine lt_of_lt_of_le hp (List.single_le_sum (fun y hy => ?_) _ (List.mem_map_of_mem (f := fun h => ‖m.crossOf p h‖ ^ 2) ((wf.hDense.mem x).2 ax)))
    obtain ⟨v, -, rfl⟩ := List.mem_map.1 hy
    exact sq_nonneg _
  have sum_mul : ∀ (l : List Nat) (k : ℝ) (φ : Nat → ℝ), (l.map fun v => k * φ v).sum = k * (l.map φ).sum := by
    intro l k φ
    induction l with
    | nil => simp
    | cons a l ih => simp only [List.map_cons, List.sum_cons, ih, mul_add]
  have key : ∀ ε : ℝ, 0 ≤ ε → ε ≤ 1 → m.l0Energy p p g alpha beta (fun v => (1 - ε) • p v) ≤
      m.l0Energy p p g alpha beta p + ε ^ 2 * X + alpha * (((1 - ε) ^ 2 - 1) * C) + beta * (ε ^ 2 * B) := by
    intro ε h0 h1
    let L : E3 →ₗ[ℝ] E3 := (1 - ε) • LinearMap.id
    have Lx : ∀ x, L x = (1 - ε) • x := fun x => rfl
    have t1 : (m.vs.map fun v => ‖(1 - ε) • p v - p v‖ ^ 2).sum = ε ^ 2 * X := by
      rw [← sum_mul]
      congr 1
      refine List.map_congr_left fun v _ => ?_
      rw [sub_smul, one_smul, sub_sub_cancel_left, norm_neg, norm_smul, mul_pow, Real.norm_eq_abs, sq_abs]
    have t2 : (m.hes.map fun h => ‖m.crossOf (fun v => (1 - ε) • p v) h‖ ^ 2).sum / 2 = (1 - ε) ^ 2 * C := by
      change _ = (1 - ε) ^ 2 * (_ / 2)
      rw [← mul_div_assoc, ← sum_mul]
      congr 2
      refine List.map_congr_left fun v _ => ?_
      rw [show m.crossOf (fun v => (1 - ε) • p v) v = (1 - ε) • m.crossOf p v from crossOf_linear p v L, norm_smul, mul_pow, Real.norm_eq_abs,
        sq_abs]
    have t3 : (m.hes.map fun h => ‖m.bendOf p (fun v => (1 - ε) • p v) h - g h‖ ^ 2).sum / 2 ≤
        (m.hes.map fun h => ‖m.bendOf p p h - g h‖ ^ 2).sum / 2 + ε ^ 2 * B := by
      change _ ≤ _ + ε ^ 2 * (_ / 2)
      rw [← mul_div_assoc, ← add_div, ← sum_mul, ← List.sum_map_add]
      refine div_le_div_of_nonneg_right (List.sum_le_sum fun h _ => ?_) (by norm_num)
      rw [show m.bendOf p (fun v => (1 - ε) • p v) h = (1 - ε) • m.bendOf p p h from bendOf_linear p p h L]
      have : g h = 0 ∨ g h = m.bendOf p p h := by
        rw [hg]
        unfold Mesh.l0Target
        split
        · exact Or.inl rfl
        · exact Or.inr rfl
      rcases this with e | e
      · rw [e, sub_zero, sub_zero, norm_smul, mul_pow, Real.norm_eq_abs, sq_abs]
        have := sq_nonneg ‖m.bendOf p p h‖
        nlinarith [mul_nonneg (sq_nonneg ε) this, mul_nonneg (mul_nonneg h0 (sub_nonneg.2 h1)) this]
      · rw [e, sub_self, sub_smul, one_smul, sub_sub_cancel_left, norm_neg, norm_smul, mul_pow, Real.norm_eq_abs, sq_abs]
        simp
    have t0 : (m.vs.map fun v => ‖p v - p v‖ ^ 2).sum = 0 := by
      rw [List.sum_eq_zero]
      intro y hy
      obtain ⟨v, -, rfl⟩ := List.mem_map.1 hy
      simp
    unfold Mesh.l0Energy
    rw [t0]
    have := mul_le_mul_of_nonneg_left t3 hb
    rw [t1, t2]
    change _ ≤ 0 + alpha * C + _ + _ + _ + _
    linarith
  have hD : 0 < X + alpha * C + beta * B := by
    have := mul_pos ha hC
    have := mul_nonneg hb hB
    linarith
  -- a small step
  let ε : ℝ := alpha * C / (X + alpha * C + beta * B)
  have hE : 0 < ε := div_pos (mul_pos ha hC) hD
  have hE1 : ε ≤ 1 := by
    rw [div_le_one hD]
    have := mul_nonneg hb hB
    linarith
  have h2 := key ε hE.le hE1
  have h3 := h1 fun v => (1 - ε) • p v
  have h4 : ε * (X + alpha * C + beta * B) = alpha * C := div_mul_cancel₀ _ hD.ne'
  have h5 : 0 ≤ ε ^ 2 * X + alpha * (((1 - ε) ^ 2 - 1) * C) + beta * (ε ^ 2 * B) := by linarith
  have h6 : ε ^ 2 * X + alpha * (((1 - ε) ^ 2 - 1) * C) + beta * (ε ^ 2 * B) = ε * (ε * (X + alpha * C + beta * B) - 2 * (alpha * C)) := by ring
  rw [h6, h4] at h5
  have := mul_pos hE (mul_pos ha hC)
  nlinarith

end TinyMesh
