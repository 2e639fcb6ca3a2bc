import Verif.Proof.DenB
import Verif.Props.Smooth
import Verif.Props.Fairing
import Verif.Props.Fill
import Verif.Spec.Over
/-
C57: normal based denoising; C43 for the denoising filters.
-/
set_option maxRecDepth 100000
namespace TinyMesh
open Sample Orbit
attribute [local instance] Sample.ratScalar

/-! ## C57: normal based denoising -/

section
variable {m m' : Mesh XR} {p : Nat → E3}

theorem Mesh.SameButPos.denoised (s : m.SameButPos m') (b : Bool) (σ σn : ℝ) (q : Nat → E3) :
    m'.denoised q b σ σn = m.denoised q b σ σn := by rw [s]; rfl

theorem Mesh.SameButPos.denoise (s : m.SameButPos m') (b : Bool) (σ σn : ℝ) (q : Nat → E3) : ∀ n,
    m'.denoise q b σ σn n = m.denoise q b σ σn n
  | 0 => rfl
  | n + 1 => by
    unfold Mesh.denoise
    rw [s.denoised, s.taubin, s.denoise b σ σn q n]

theorem Mesh.SameButPos.solid (s : m.SameButPos m') {q : Nat → E3} (h : m.Solid q) : m'.Solid q := by
  rw [s]; exact ⟨h.tri, h.area⟩

theorem denoise_succ' (b : Bool) (σ σn : ℝ) (q : Nat → E3) : ∀ n, m.denoise q b σ σn (n + 1) =
    m.denoise (m.denoised (m.taubin (1 / 2) (53 / 100) 0 6 q) b σ σn) b σ σn n
  | 0 => rfl
  | n + 1 => by
    conv_lhs => unfold Mesh.denoise
    rw [denoise_succ' b σ σn q n]
    rfl

theorem dnLoop_exact (b : Bool) (σ σn : ℝ) : ∀ (n : Nat) {m : Mesh XR} {p : Nat → E3}, m.Good → m.AtE p →
    (∀ k < n, m.Solid (m.taubin (1 / 2) (53 / 100) 0 6 (m.denoise p b σ σn k))) →
    ∃ m', dnLoop b (XR.fin σ) (XR.fin σn) n m = .ok () m' ∧ m.SameButPos m' ∧ m'.AtE (m.denoise p b σ σn n)
  | 0, m, p, _, A, _ => ⟨m, rfl, rfl, A⟩
  | n + 1, m, p, G, A, S => by
    have l1 : (Scalar.lit 1 2 : XR) = .fin (1 / 2) := lit_half
    have l2 : (Scalar.lit 53 100 : XR) = .fin (53 / 100) := by rw [X_lit, R_lit]; norm_num
    obtain ⟨m1, h1, s1, A1⟩ := c29_taubin_formula G.wf A (1 / 2) (53 / 100) (n := 3) (by omega)
    obtain ⟨m2, h2, s2, A2⟩ := dnSweep_exact (s1.good G) A1 (s1.solid (S 0 (by omega))) b σ σn
    rw [s1.denoised] at A2
    have s := s1.trans s2
    obtain ⟨m3, h3, s3, A3⟩ := dnLoop_exact b σ σn n (s.good G) A2 (fun k hk => by
      have := S (k + 1) (by omega)
      rw [denoise_succ'] at this
      rw [s.denoise, s.taubin]
      exact s.solid this)
    refine ⟨m3, ?_, s.trans s3, ?_⟩
    · unfold dnLoop smoothTaubinDefault
      rw [bind_apply, l1, l2, h1]; dsimp only
      rw [bind_apply, h2]; dsimp only
      exact h3
    · rw [s.denoise] at A3
      rw [denoise_succ']
      exact A3

/-- C57: on a consistent mesh with finite positions, all of whose faces are triangles that have positive area after each smoothing,
`denoiseNormalGaussian` returns normally, changes only positions, and the new positions are those of the formula: the area weighted
mean of the projections to the planes of the filtered normals. The scale of the weights is `sigma` times the mean edge length of
the input. -/
theorem c57_gaussian (G : m.Good) (A : m.AtE p) (hne : m.hes ≠ []) (σ : ℝ) (n : Nat)
    (S : ∀ k < n, m.Solid (m.taubin (1 / 2) (53 / 100) 0 6 (m.denoise p false (σ * m.meanLen p) σ k))) :
    ∃ m', denoiseNormalGaussian (XR.fin σ) n m = .ok () m' ∧ m.SameButPos m' ∧ m'.AtE (m.denoise p false (σ * m.meanLen p) σ n) := by
  unfold denoiseNormalGaussian
  rw [bind_apply, meanEdgeLength_exact G.wf A hne]; dsimp only
  rw [X_mul]
  exact dnLoop_exact false _ _ n G A S

/-- C57: the same for `denoiseNormalBilateral`; the scale for the normals is not multiplied by the edge length. -/
theorem c57_bilateral (G : m.Good) (A : m.AtE p) (hne : m.hes ≠ []) (σ σn : ℝ) (n : Nat)
    (S : ∀ k < n, m.Solid (m.taubin (1 / 2) (53 / 100) 0 6 (m.denoise p true (σ * m.meanLen p) σn k))) :
    ∃ m', denoiseNormalBilateral (XR.fin σ) (XR.fin σn) n m = .ok () m' ∧ m.SameButPos m' ∧
      m'.AtE (m.denoise p true (σ * m.meanLen p) σn n) := by
  unfold denoiseNormalBilateral
  rw [bind_apply, meanEdgeLength_exact G.wf A hne]; dsimp only
  rw [X_mul]
  exact dnLoop_exact true _ _ n G A S

/-- C57: one round of denoising moves no vertex further than the centre of the farthest face at the vertex is away. -/
theorem c57_bound (G : m.Good) (A : m.AtE p) (S : m.Solid p) (b : Bool) (σ σn : ℝ) :
    ∃ m' q, dnSweep b (XR.fin σ) (XR.fin σn) m = .ok () m' ∧ m.SameButPos m' ∧ m'.AtE q ∧ ∀ v r, m.vAlive v = true →
      (∀ h, m.hAlive h = true → m.hSrc h = v → dist (m.centerOf p (m.hFace h)) (p v) ≤ r) → dist (q v) (p v) ≤ r := by
  obtain ⟨m', h1, h2, h3⟩ := dnSweep_exact G A S b σ σn
  refine ⟨m', _, h1, h2, h3, fun v r a hr => projected_bound (fun f => norm_unitOf_le _) ?_ fun x hx e => hr x ((G.wf.hDense.mem x).1 hx) e⟩
  obtain ⟨ah, e⟩ := G.wf.vHe_ok v a
  exact le_trans dist_nonneg (hr _ ah e)

/-- C57: one round of denoising does not change a mesh whose vertices lie in a plane. -/
theorem c57_flat (G : m.Good) (A : m.AtE p) (S : m.Solid p) (b : Bool) (σ σn : ℝ) {n : E3} {d : ℝ} (hn : n ≠ 0)
    (h : ∀ v, m.vAlive v = true → inner ℝ n (p v) = d) :
    ∃ m', dnSweep b (XR.fin σ) (XR.fin σn) m = .ok () m' ∧ m'.AtE p ∧ ∀ v, m.vAlive v = true → m'.vPos v = m.vPos v := by
  obtain ⟨m', h1, h2, h3⟩ := dnSweep_exact G A S b σ σn
  have h4 : m'.AtE p := fun v a => by
    have a' : m.vAlive v = true := by rw [h2] at a; exact a
    have := h3 v a
    rwa [denoised_flat G.wf hn h b σ σn a'] at this
  refine ⟨m', h1, h4, fun v a => ?_⟩
  obtain ⟨w1, e1, e1'⟩ := h4 v (by rw [h2]; exact a)
  obtain ⟨w2, e2, e2'⟩ := A v a
  rw [e1, e2, Vec3.E_inj.1 (e1'.trans e2'.symm)]

/-- C57: denoising commutes with changes of scale and translations: the parameter `sigma` is relative to the size of the mesh. -/
theorem c57_similar {m1 m2 : Mesh XR} (G : m1.Good) (s : m1.SameButPos m2) (A1 : m1.AtE p) {c : ℝ} (hc : 0 < c) {t : E3}
    (A2 : m2.AtE fun v => c • p v + t) (hne : m1.hes ≠ []) (σ : ℝ) (n : Nat)
    (S : ∀ k < n, m1.Solid (m1.taubin (1 / 2) (53 / 100) 0 6 (m1.denoise p false (σ * m1.meanLen p) σ k))) :
    ∃ m1' m2' q, denoiseNormalGaussian (XR.fin σ) n m1 = .ok () m1' ∧ denoiseNormalGaussian (XR.fin σ) n m2 = .ok () m2' ∧
      m1'.AtE q ∧ m2'.AtE fun v => c • q v + t := by
  have w := G.wf
  have hm : m1.meanLen (fun v => c • p v + t) = c * m1.meanLen p := meanLen_scale w hc fun _ _ => rfl
  have hm2 : m2.meanLen (fun v => c • p v + t) = c * m1.meanLen p := by rw [← hm, s]; rfl
  have hd : ∀ k v, m1.vAlive v = true → m1.denoise (fun v => c • p v + t) false (σ * (c * m1.meanLen p)) σ k v =
      c • m1.denoise p false (σ * m1.meanLen p) σ k v + t := by
    intro k v a
    rw [show σ * (c * m1.meanLen p) = c * (σ * m1.meanLen p) by ring]
    exact denoise_scale w hc (fun _ _ => rfl) false _ _ k a
  obtain ⟨m1', h1, s1, B1⟩ := c57_gaussian G A1 hne σ n S
  obtain ⟨m2', h2, s2, B2⟩ := c57_gaussian (s.good G) A2 (by rw [s]; exact hne) σ n (fun k hk => by
    rw [hm2, s.denoise, s.taubin]
    refine s.solid ⟨(S k hk).tri, fun f af => ?_⟩
    have e := taubin_affine w ((c • (LinearMap.id : E3 →ₗ[ℝ] E3)).toAffineMap + AffineMap.const ℝ E3 t) (1 / 2) (53 / 100) 6 0
      (m1.denoise p false (σ * m1.meanLen p) σ k) (m1.denoise (fun v => c • p v + t) false (σ * (c * m1.meanLen p)) σ k)
      (fun u b => by simpa using hd k u b)
    have ah := (w.fHe_ok f af).1
    have := (S k hk).area f af
    unfold Mesh.areaVec at this ⊢
    rw [e _ (w.src_alive _ ah), e _ (w.src_alive _ (w.next_alive _ ah)), e _ (w.src_alive _ (w.next_alive _ (w.next_alive _ ah)))]
    have e' : ∀ x : E3, ((c • (LinearMap.id : E3 →ₗ[ℝ] E3)).toAffineMap + AffineMap.const ℝ E3 t) x = c • x + t := fun x => by simp
    rw [e', e', e', triNormal_scale]
    exact smul_ne_zero (mul_pos hc hc).ne' this)
  refine ⟨m1', m2', _, h1, h2, B1, fun v a => ?_⟩
  have a1 : m1.vAlive v = true := by rw [s.trans s2] at a; exact a
  have := B2 v a
  rw [hm2, s.denoise, hd n v a1] at this
  exact this

end

/-- C57: if some face is not a triangle, for example a hole with four or more sides, the denoising filters do not return normally
from the first iteration on. -/
theorem c57_abort {F : Type} [ScalarX F] {m : Mesh F} (w : m.WF) {f : Nat} (a : m.fAlive f = true) (hf : m.sides f ≠ 3) (n : Nat)
    (m' : Mesh F) : (∀ sg, denoiseNormalGaussian sg (n + 1) m ≠ .ok () m') ∧ ∀ sg sn, denoiseNormalBilateral sg sn (n + 1) m ≠ .ok () m' := by
  have key : ∀ b sg sn, dnLoop b sg sn (n + 1) m ≠ .ok () m' := by
    intro b sg sn h
    unfold dnLoop at h
    rw [bindUnit_ok] at h
    obtain ⟨m1, h1, h⟩ := h
    rw [bindUnit_ok] at h
    obtain ⟨m2, h2, -⟩ := h
    have k := c27_taubin (Scalar.lit 1 2) (Scalar.lit 53 100) (n := 3) (by omega) w
    unfold smoothTaubinDefault at h1
    rw [h1] at k
    rcases k with k | ⟨m1', k, s, -⟩
    · cases k
    cases k
    have w1 : m1.WF := s.wf w
    have a1 : m1.fAlive f = true := by rw [s]; exact a
    have hf1 : m1.sides f ≠ 3 := by rw [s]; exact hf
    obtain ⟨i, hi⟩ := List.mem_iff_getElem?.1 ((w1.fDense.mem f).2 a1)
    unfold dnSweep at h2
    dsimp only at h2
    cases e : serial (dnNormal m1) (List.range m1.fs.length) m1.mem with
    | error e' => rw [e] at h2; cases h2
    | ok s1 =>
      obtain ⟨k1, -⟩ := (dnNormal_free (m := m1) m1.fs.length).serial_ok e
      obtain ⟨t, ht, -⟩ := k1 i (List.getElem?_eq_some_iff.1 hi).1
      unfold dnNormal at ht
      have fa : faceAt (i : Int) m1 = .ok f m1 := by
        unfold faceAt arrayAt
        rw [if_neg (by omega)]
        simp [hi]
      rw [Prog.exec_bind, Prog.exec_topo_ok fa] at ht; dsimp only at ht
      rw [Prog.exec_bind, Prog.exec_topo_ok (w1.faceVerts_ok a1)] at ht; dsimp only at ht
      rw [Prog.exec_bind, exec_loadAll _ _ (by
        intro v hv
        obtain ⟨x, hx, rfl⟩ := List.mem_map.1 hv
        exact w1.src_alive _ ((w1.mem_loop a1).1 hx).1)] at ht
      dsimp only at ht
      have hl : (((orbit m1.hNext (m1.fHe f)).map m1.hSrc).map (posOf m1.mem)).length ≠ 3 := by
        rw [List.length_map, List.length_map, w1.loop_length a1]; exact hf1
      generalize ((orbit m1.hNext (m1.fHe f)).map m1.hSrc).map (posOf m1.mem) = l at ht hl
      match l, hl, ht with
      | [], _, ht => cases ht
      | [_], _, ht => cases ht
      | [_, _], _, ht => cases ht
      | [_, _, _], hl, _ => exact hl rfl
      | _ :: _ :: _ :: _ :: _, _, ht => cases ht
  obtain ⟨r, hr⟩ := meanEdgeLength_ok w
  constructor
  · intro sg h
    unfold denoiseNormalGaussian at h
    rw [bind_apply, hr] at h
    exact key _ _ _ h
  · intro sg sn h
    unfold denoiseNormalBilateral at h
    rw [bind_apply, hr] at h
    exact key _ _ _ h

/-! ## C43: locked vertices -/

theorem kernelAt_pos {σ x : ℝ} (hσ : 0 < σ) (h : x < 4 * σ) : 0 < kernelAt σ x := by
  unfold kernelAt
  have hp : 0 < Real.sqrt (2 * Real.pi) * σ := mul_pos (Real.sqrt_pos.2 (by positivity)) hσ
  split
  · exact div_pos (Real.exp_pos _) hp
  · have : 0 < 4 - x / σ := by rw [sub_pos, div_lt_iff₀ hσ]; exact h
    exact div_pos (div_pos (pow_pos this 4) (mul_pos (by norm_num) (Real.exp_pos _))) hp

theorem kernelAt_zero {σ x : ℝ} (hσ : 0 < σ) (h : 4 * σ ≤ x) : kernelAt σ x = 0 := by
  unfold kernelAt
  rw [if_neg (by linarith), if_neg (by linarith)]

theorem taubin_pinned {F : Type} {m : Mesh F} (h : ∀ v, m.Pinned v) (a b : ℝ) : ∀ n it (p : Nat → E3), m.taubin a b it n p = p
  | 0, _, _ => rfl
  | n + 1, it, p => by
    unfold Mesh.taubin
    rw [show m.average (if it % 2 = 0 then a else -b) p = p from funext fun v => by unfold Mesh.average; rw [if_pos (h v)]]
    exact taubin_pinned h a b n _ p

/-- incidences of the corner tetrahedron -/
structure CornerFacts {F : Type} (m : Mesh F) : Prop where
  fs : m.fs = [1, 2, 3, 4]
  vs : m.vs = [1, 2, 3, 4]
  hes : m.hes = [1, 2, 3, 4, 5, 6, 7, 8, 9, 10, 11, 12]
  fHe : m.fs.map m.fHe = [3, 6, 9, 12]
  src : m.hes.map m.hSrc = [1, 2, 3, 3, 4, 1, 2, 4, 3, 1, 4, 2]
  next : m.hes.map m.hNext = [2, 3, 1, 5, 6, 4, 8, 9, 7, 11, 12, 10]
  rev : m.hes.map m.hRev = [12, 9, 6, 8, 10, 3, 11, 4, 2, 5, 7, 1]
  face : m.hes.map m.hFace = [1, 1, 1, 2, 2, 2, 3, 3, 3, 4, 4, 4]

theorem corner_tables : ∃ m : Mesh Rat, m.Good ∧ CornerFacts m := by
  obtain ⟨u, m, l, m1, h1, h2, h3⟩ := thenSt_iff (o := construct cornerV (ofTris cornerT) fresh) (f := fun m => .ok () m) (p := fun m l m' =>
    decide (m.fs = [1, 2, 3, 4] ∧ m.vs = [1, 2, 3, 4] ∧ m.hes = [1, 2, 3, 4, 5, 6, 7, 8, 9, 10, 11, 12] ∧
    m.fs.map m.fHe = [3, 6, 9, 12] ∧
    m.hes.map m.hSrc = [1, 2, 3, 3, 4, 1, 2, 4, 3, 1, 4, 2] ∧
    m.hes.map m.hNext = [2, 3, 1, 5, 6, 4, 8, 9, 7, 11, 12, 10] ∧
    m.hes.map m.hRev = [12, 9, 6, 8, 10, 3, 11, 4, 2, 5, 7, 1] ∧
    m.hes.map m.hFace = [1, 1, 1, 2, 2, 2, 3, 3, 3, 4, 4, 4])) (by decide +kernel)
  cases u
  obtain ⟨a, b, c, d, e, f, g, h⟩ := of_decide_eq_true h3
  exact ⟨m, c01_construct_consistent (Owned.empty _) h1, a, b, c, d, e, f, g, h⟩

/-- the corners of the corner tetrahedron -/
def cornerAt (v : Nat) : Vec3 ℝ := if v = 1 then ⟨0, 0, 0⟩ else if v = 2 then ⟨0, 1, 0⟩ else if v = 3 then ⟨1, 0, 0⟩ else ⟨0, 0, 1⟩

section
variable {F : Type} {m : Mesh F} (C : CornerFacts m)
include C

theorem CornerFacts.areaVec : m.areaVec (fun v => (cornerAt v).E) 1 = (⟨0, 0, -1⟩ : Vec3 ℝ).E ∧
    m.areaVec (fun v => (cornerAt v).E) 2 = (⟨0, -1, 0⟩ : Vec3 ℝ).E ∧ m.areaVec (fun v => (cornerAt v).E) 3 = (⟨1, 1, 1⟩ : Vec3 ℝ).E ∧
    m.areaVec (fun v => (cornerAt v).E) 4 = (⟨-1, 0, 0⟩ : Vec3 ℝ).E := by
  obtain ⟨a, b, c, d, e, f, g, h⟩ := C
  rw [c] at e f g h
  rw [a] at d
  simp only [List.map_cons, List.map_nil, List.cons.injEq, and_true] at d e f g h
  simp only [Mesh.areaVec, triNormal_E, d, e, f, cornerAt]
  simp [Vec3.cross, Vec3.sub_def]

theorem CornerFacts.center : m.centerOf (fun v => (cornerAt v).E) 1 = (⟨1 / 3, 1 / 3, 0⟩ : Vec3 ℝ).E ∧
    m.centerOf (fun v => (cornerAt v).E) 2 = (⟨1 / 3, 0, 1 / 3⟩ : Vec3 ℝ).E ∧ m.centerOf (fun v => (cornerAt v).E) 3 = (⟨1 / 3, 1 / 3, 1 / 3⟩ : Vec3 ℝ).E ∧
    m.centerOf (fun v => (cornerAt v).E) 4 = (⟨0, 1 / 3, 1 / 3⟩ : Vec3 ℝ).E := by
  obtain ⟨a, b, c, d, e, f, g, h⟩ := C
  rw [c] at e f g h
  rw [a] at d
  simp only [List.map_cons, List.map_nil, List.cons.injEq, and_true] at d e f g h
  simp only [Mesh.centerOf, d, e, f, cornerAt]
  simp [← Vec3.E_add, ← Vec3.E_smul, Vec3.smul, Vec3.add_def]

theorem CornerFacts.meanLen : m.meanLen (fun v => (cornerAt v).E) = (1 + Real.sqrt 2) / 2 := by
  obtain ⟨a, b, c, d, e, f, g, h⟩ := C
  rw [c] at e f g h
  rw [a] at d
  simp only [List.map_cons, List.map_nil, List.cons.injEq, and_true] at d e f g h
  simp only [Mesh.meanLen, c, List.map_cons, List.map_nil, List.sum_cons, List.sum_nil, e, f, cornerAt, Vec3.E_dist, Vec3.length_def,
    Vec3.dot_def, Vec3.sub_def, List.length_cons, List.length_nil]
  norm_num
  ring

theorem CornerFacts.solid (G : m.Good) : m.Solid fun v => (cornerAt v).E := by
  have av := C.areaVec
  have ne : ∀ x : Vec3 ℝ, x ≠ ⟨0, 0, 0⟩ → x.E ≠ 0 := fun x hx h => hx (Vec3.E_inj.1 (h.trans (by apply Vec3.E_ext <;> simp)))
  have hf : ∀ f, m.fAlive f = true → f = 1 ∨ f = 2 ∨ f = 3 ∨ f = 4 := fun f a => by
    have := (G.wf.fDense.mem f).2 a
    rw [C.fs] at this
    simpa using this
  constructor
  · obtain ⟨a, b, c, d, e, f, g, h⟩ := C
    rw [c] at e f g h
    rw [a] at d
    simp only [List.map_cons, List.map_nil, List.cons.injEq, and_true] at d e f g h
    intro x ax
    unfold Mesh.OnTri
    rcases hf x ax with rfl | rfl | rfl | rfl <;> simp only [d, f]
  · intro x ax
    rcases hf x ax with rfl | rfl | rfl | rfl
    · rw [av.1]; exact ne _ (by simp)
    · rw [av.2.1]; exact ne _ (by simp)
    · rw [av.2.2.1]; exact ne _ (by simp)
    · rw [av.2.2.2]; exact ne _ (by simp)

omit C in
theorem diag_ne : (⟨1, 1, 1⟩ : Vec3 ℝ).E ≠ 0 := fun h => by
  have := congrArg (fun x : E3 => x 0) h
  simp at this

/-- with a suitable scale the faces at the right-angled corner get the normal of the opposite face -/
theorem CornerFacts.filtered (b : Bool) {σ σn : ℝ} (hn : b = true → 1 ≤ σn) (h1 : 1 / 3 < 4 * σ) (h2 : 4 * σ ≤ Real.sqrt 2 / 3) {x : Nat} (hx : x = 1 ∨ x = 2 ∨ x = 4) :
    m.filteredNormal (fun v => (cornerAt v).E) b σ σn x = unitOf (⟨1, 1, 1⟩ : Vec3 ℝ).E := by
  have hσ : 0 < σ := by linarith
  have av := C.areaVec
  have ce := C.center
  -- weight of the opposite face
  have pos : 0 < m.normalWeight (fun v => (cornerAt v).E) b σ σn x 3 := by
    unfold Mesh.normalWeight
    refine mul_pos (mul_pos ?_ (kernelAt_pos hσ ?_)) ?_
    · unfold Mesh.areaAt
      rw [av.2.2.1, Vec3.E_norm, Vec3.length_def, Vec3.dot_def]
      norm_num
    · have : dist (m.centerOf (fun v => (cornerAt v).E) x) (m.centerOf (fun v => (cornerAt v).E) 3) = 1 / 3 := by
        rw [show (1 / 3 : ℝ) = Real.sqrt (1 / 9) by rw [show (1 / 9 : ℝ) = (1 / 3) ^ 2 by norm_num, Real.sqrt_sq (by norm_num)]]
        rcases hx with rfl | rfl | rfl <;> simp only [ce, Vec3.E_dist, Vec3.length_def, Vec3.dot_def, Vec3.sub_def] <;> norm_num
      rw [this]; exact h1
    · split
      · next hb =>
        have hn := hn hb
        refine kernelAt_pos (by linarith) ?_
        have := dist_le_norm_add_norm (unitOf (m.areaVec (fun v => (cornerAt v).E) x)) (unitOf (m.areaVec (fun v => (cornerAt v).E) 3))
        have l1 := norm_unitOf_le (m.areaVec (fun v => (cornerAt v).E) x)
        have l2 := norm_unitOf_le (m.areaVec (fun v => (cornerAt v).E) 3)
        linarith
      · exact one_pos
  have zero : ∀ y, (y = 1 ∨ y = 2 ∨ y = 4) → x ≠ y → m.normalWeight (fun v => (cornerAt v).E) b σ σn x y = 0 := by
    intro y hy hne
    unfold Mesh.normalWeight
    have : dist (m.centerOf (fun v => (cornerAt v).E) x) (m.centerOf (fun v => (cornerAt v).E) y) = Real.sqrt 2 / 3 := by
      have e : Real.sqrt 2 / 3 = Real.sqrt (2 / 9) := by
        rw [Real.sqrt_div (by norm_num), show (9 : ℝ) = 3 ^ 2 by norm_num, Real.sqrt_sq (by norm_num)]
      rw [e]
      rcases hx with rfl | rfl | rfl <;> rcases hy with rfl | rfl | rfl <;> first
        | exact absurd rfl hne
        | (simp only [ce, Vec3.E_dist, Vec3.length_def, Vec3.dot_def, Vec3.sub_def]; norm_num)
    rw [this, kernelAt_zero hσ h2, mul_zero, zero_mul]
  have sum : ((m.hes.filter fun h => m.hFace h == x).map fun h =>
      m.normalWeight (fun v => (cornerAt v).E) b σ σn x (m.hFace (m.hRev h)) • unitOf (m.areaVec (fun v => (cornerAt v).E) (m.hFace (m.hRev h)))).sum =
      m.normalWeight (fun v => (cornerAt v).E) b σ σn x 3 • unitOf (⟨1, 1, 1⟩ : Vec3 ℝ).E := by
    rw [← av.2.2.1]
    clear av ce pos hn
    obtain ⟨a, b, c, d, e, f, g, h⟩ := C
    rw [c] at e f g h
    simp only [List.map_cons, List.map_nil, List.cons.injEq, and_true] at e f g h
    rw [c]
    rcases hx with rfl | rfl | rfl <;> simp [List.filter, h, g, zero]
  unfold Mesh.filteredNormal
  rw [sum]
  refine (unitOf_smul pos _).trans ?_
  exact (unitOf_smul (inv_pos.2 (norm_pos_iff.2 (diag_ne))) _)


end

/-- C43 does not hold for the denoising filters: all vertices of a tetrahedron are locked, and both filters move one. -/
theorem c43_denoise_counterexample : ∃ m m1 m2 : Mesh XR, m.Good ∧ FinPos m ∧ (∀ v, m.vLock v = true) ∧
    denoiseNormalGaussian (XR.fin (9 / 100)) 1 m = .ok () m1 ∧ denoiseNormalBilateral (XR.fin (9 / 100)) (XR.fin 1) 1 m = .ok () m2 ∧
      ∃ v, m.vAlive v = true ∧ m1.vPos v ≠ m.vPos v ∧ m2.vPos v ≠ m.vPos v := by
  obtain ⟨m0, G0, C0⟩ := corner_tables
  obtain ⟨m, rfl⟩ : ∃ m : Mesh XR, m = { m0.overR cornerAt with vLock := fun _ => true } := ⟨_, rfl⟩
  generalize hm : ({ m0.overR cornerAt with vLock := fun _ => true } : Mesh XR) = m
  have G : m.Good := by rw [← hm]; exact (G0.over _).setLocks _
  have C : CornerFacts m := by
    rw [← hm]
    exact ⟨C0.fs, C0.vs, C0.hes, C0.fHe, C0.src, C0.next, C0.rev, C0.face⟩
  have A : m.AtE fun v => (cornerAt v).E := by
    rw [← hm]
    exact fun v _ => ⟨cornerAt v, rfl, rfl⟩
  have L : ∀ v, m.vLock v = true := by rw [← hm]; exact fun _ => rfl
  have P : ∀ v, m.Pinned v := fun v => Or.inr (L v)
  have ml := C.meanLen
  have s1 : 1.41 < Real.sqrt 2 := by rw [Real.lt_sqrt (by norm_num)]; norm_num
  have s2 : Real.sqrt 2 < 1.42 := by rw [Real.sqrt_lt' (by norm_num)]; norm_num
  have S : ∀ b σ σn, ∀ k < 1, m.Solid (m.taubin (1 / 2) (53 / 100) 0 6 (m.denoise (fun v => (cornerAt v).E) b σ σn k)) := by
    intro b σ σn k hk
    obtain rfl : k = 0 := by omega
    rw [taubin_pinned P]
    exact C.solid G
  have hne : m.hes ≠ [] := by rw [C.hes]; simp
  obtain ⟨m1, h1, t1, A1⟩ := c57_gaussian G A hne (9 / 100) 1 (S _ _ _)
  obtain ⟨m2, h2, t2, A2⟩ := c57_bilateral G A hne (9 / 100) 1 1 (S _ _ _)
  have a1 : m.vAlive 1 = true := (G.wf.vDense.mem 1).1 (by rw [C.vs]; simp)
  have key : ∀ b σn, (b = true → 1 ≤ σn) → m.denoise (fun v => (cornerAt v).E) b (9 / 100 * m.meanLen fun v => (cornerAt v).E) σn 1 1 ≠
      (cornerAt 1).E := by
    intro b σn hb
    have e : m.denoise (fun v => (cornerAt v).E) b (9 / 100 * m.meanLen fun v => (cornerAt v).E) σn 1 =
        m.denoised (fun v => (cornerAt v).E) b (9 / 100 * m.meanLen fun v => (cornerAt v).E) σn := by
      change m.denoised (m.taubin _ _ _ _ _) _ _ _ = _
      rw [taubin_pinned P]
      rfl
    rw [e]
    unfold Mesh.denoised Mesh.projected
    have fn := fun x hx => C.filtered b (σ := 9 / 100 * m.meanLen fun v => (cornerAt v).E) (σn := σn) hb
      (by rw [ml]; linarith) (by rw [ml]; linarith) (x := x) hx
    have av := C.areaVec
    have ce := C.center
    have ar : ∀ x, x = 1 ∨ x = 2 ∨ x = 4 → m.areaAt (fun v => (cornerAt v).E) x = 1 / 2 := by
      intro x hx
      unfold Mesh.areaAt
      rcases hx with rfl | rfl | rfl <;> simp only [av, Vec3.E_norm, Vec3.length_def, Vec3.dot_def] <;> norm_num
    have il : ∀ x, x = 1 ∨ x = 2 ∨ x = 4 → inner ℝ (⟨1, 1, 1⟩ : Vec3 ℝ).E (m.centerOf (fun v => (cornerAt v).E) x - (cornerAt 1).E) = 2 / 3 := by
      intro x hx
      rw [show cornerAt 1 = ⟨0, 0, 0⟩ from if_pos rfl]
      rcases hx with rfl | rfl | rfl <;> simp only [ce, ← Vec3.E_sub, Vec3.E_inner, Vec3.dot_def, Vec3.sub_def] <;> norm_num
    have iu : ∀ x, x = 1 ∨ x = 2 ∨ x = 4 → inner ℝ (unitOf (⟨1, 1, 1⟩ : Vec3 ℝ).E) (m.centerOf (fun v => (cornerAt v).E) x - (cornerAt 1).E) =
        ‖(⟨1, 1, 1⟩ : Vec3 ℝ).E‖⁻¹ * (2 / 3) := by
      intro x hx
      unfold unitOf
      rw [real_inner_smul_left, il x hx]
    have rl : (m.hes.filter fun h => m.hSrc h == 1).map m.hFace = [1, 2, 4] := by
      obtain ⟨a, b, c, d, e, f, g, h⟩ := C
      rw [c] at e f g h
      simp only [List.map_cons, List.map_nil, List.cons.injEq, and_true] at e f g h
      rw [c]
      simp [List.filter, e, h]
    have r1 : ((m.hes.filter fun h => m.hSrc h == 1).map fun h => m.areaAt (fun v => (cornerAt v).E) (m.hFace h)) =
        [1, 2, 4].map (m.areaAt fun v => (cornerAt v).E) := by rw [← rl, List.map_map]; rfl
    have r2 : ∀ n : Nat → E3, ((m.hes.filter fun h => m.hSrc h == 1).map fun h => (m.areaAt (fun v => (cornerAt v).E) (m.hFace h) *
        inner ℝ (n (m.hFace h)) (m.centerOf (fun v => (cornerAt v).E) (m.hFace h) - (cornerAt 1).E)) • n (m.hFace h)) =
        [1, 2, 4].map fun f => (m.areaAt (fun v => (cornerAt v).E) f *
        inner ℝ (n f) (m.centerOf (fun v => (cornerAt v).E) f - (cornerAt 1).E)) • n f := fun n => by rw [← rl, List.map_map]; rfl
    rw [r1, r2]
    simp only [List.map_cons, List.map_nil, List.sum_cons, List.sum_nil, add_zero, fn 1 (by simp), fn 2 (by simp), fn 4 (by simp),
      iu 1 (by simp), iu 2 (by simp), iu 4 (by simp), ar 1 (by simp), ar 2 (by simp), ar 4 (by simp), ← add_smul, smul_smul]
    intro h
    rw [add_eq_left, smul_eq_zero] at h
    have np : 0 < ‖(⟨1, 1, 1⟩ : Vec3 ℝ).E‖⁻¹ := inv_pos.2 (norm_pos_iff.2 diag_ne)
    rcases h with h | h
    · have : 0 < (1 / 2 + (1 / 2 + 1 / 2) : ℝ)⁻¹ * (1 / 2 * (‖(⟨1, 1, 1⟩ : Vec3 ℝ).E‖⁻¹ * (2 / 3)) +
        (1 / 2 * (‖(⟨1, 1, 1⟩ : Vec3 ℝ).E‖⁻¹ * (2 / 3)) + 1 / 2 * (‖(⟨1, 1, 1⟩ : Vec3 ℝ).E‖⁻¹ * (2 / 3)))) := by positivity
      linarith
    · unfold unitOf at h
      rw [smul_eq_zero] at h
      exact h.elim np.ne' diag_ne
  have ne : ∀ {m' : Mesh XR} {q : Nat → E3}, m.SameButPos m' → m'.AtE q → q 1 ≠ (cornerAt 1).E → m'.vPos 1 ≠ m.vPos 1 := by
    intro m' q s A' hq e
    obtain ⟨w1, e1, e1'⟩ := A' 1 (by rw [s]; exact a1)
    obtain ⟨w2, e2, e2'⟩ := A 1 a1
    rw [e, e2] at e1
    apply hq
    rw [← e1', ← Vec3.fin_inj.1 e1]
    exact e2'
  exact ⟨m, m1, m2, G, ⟨_, A⟩, L, h1, h2, 1, a1, ne t1 A1 (key _ _ (by simp)), ne t2 A2 (key _ _ (fun _ => le_refl _))⟩

/-- C43, what holds of it for the denoising filters, for any arithmetic: when they return normally they have changed positions only, so
locks, links and indices are as before. That locked vertices stay where they are is missing, and false by the counterexample. -/
theorem c43_denoise_partial {F : Type} [ScalarX F] {m m' : Mesh F} (w : m.WF) (n : Nat) :
    (∀ sg, denoiseNormalGaussian sg n m = .ok () m' → m.SameButPos m') ∧
    ∀ sg sn, denoiseNormalBilateral sg sn n m = .ok () m' → m.SameButPos m' := by
  have key : ∀ (n : Nat) (m : Mesh F), m.WF → ∀ b sg sn, dnLoop b sg sn n m = .ok () m' → m.SameButPos m' := by
    intro n
    induction n with
    | zero => intro m _ b sg sn h; cases h; rfl
    | succ n ih =>
      intro m w b sg sn h
      unfold dnLoop at h
      rw [bindUnit_ok] at h
      obtain ⟨m1, h1, h⟩ := h
      rw [bindUnit_ok] at h
      obtain ⟨m2, h2, h⟩ := h
      have k := c27_taubin (Scalar.lit 1 2) (Scalar.lit 53 100) (n := 3) (by omega) w
      unfold smoothTaubinDefault at h1
      rw [h1] at k
      rcases k with k | ⟨m1', k, s, -⟩
      · cases k
      cases k
      have s2 : m1.SameButPos m2 := by
        unfold dnSweep at h2
        dsimp only at h2
        split at h2
        · cases h2
        · split at h2
          · cases h2
          · split at h2
            · cases h2
            · cases h2; rfl
      exact (s.trans s2).trans (ih m2 ((s.trans s2).wf w) b sg sn h)
  obtain ⟨r, hr⟩ := meanEdgeLength_ok w
  constructor
  · intro sg h
    unfold denoiseNormalGaussian at h
    rw [bind_apply, hr] at h
    exact key _ _ w _ _ _ h
  · intro sg sn h
    unfold denoiseNormalBilateral at h
    rw [bind_apply, hr] at h
    exact key _ _ w _ _ _ h

/-! ### the hypotheses hold -/

/-- the hypotheses of `c57_gaussian`, `c57_bilateral`, `c57_bound` and `c57_similar` hold for the corner tetrahedron with locked vertices -/
example (σ σn : ℝ) (b : Bool) : ∃ (m m2 : Mesh XR) (p : Nat → E3), m.Good ∧ m.AtE p ∧ m.hes ≠ [] ∧ m.Solid p ∧
    (∀ k < 1, m.Solid (m.taubin (1 / 2) (53 / 100) 0 6 (m.denoise p b σ σn k))) ∧ m.SameButPos m2 ∧
    m2.AtE fun v => (2 : ℝ) • p v + (⟨1, 0, 0⟩ : Vec3 ℝ).E := by
  obtain ⟨m0, G0, C0⟩ := corner_tables
  refine ⟨{ m0.overR cornerAt with vLock := fun _ => true },
    { m0.overR (fun v => ((cornerAt v).smul 2).add ⟨1, 0, 0⟩) with vLock := fun _ => true }, fun v => (cornerAt v).E,
    (G0.over _).setLocks _, fun v _ => ⟨cornerAt v, rfl, rfl⟩, ?_, ?_, ?_, rfl, fun v _ => ⟨_, rfl, ?_⟩⟩
  · change m0.hes ≠ []
    rw [C0.hes]; simp
  · exact ⟨(C0.solid G0).tri, (C0.solid G0).area⟩
  · intro k hk
    obtain rfl : k = 0 := by omega
    rw [taubin_pinned fun v => Or.inr rfl]
    exact ⟨(C0.solid G0).tri, (C0.solid G0).area⟩
  · rw [Vec3.E_add, Vec3.E_smul]

/-- the hypotheses of `c57_flat` hold for a tetrahedron pressed flat -/
example : ∃ (m : Mesh XR) (p : Nat → E3), m.Good ∧ m.AtE p ∧ m.Solid p ∧ (∀ v, inner ℝ (⟨0, 0, 1⟩ : Vec3 ℝ).E (p v) = 0) ∧ m.vs.length = 4 := by
  obtain ⟨m, G, C⟩ := corner_tables
  let q : Nat → Vec3 ℝ := fun v => if v = 1 then ⟨0, 0, 0⟩ else if v = 2 then ⟨0, 1, 0⟩ else if v = 3 then ⟨1, 0, 0⟩ else ⟨1, 1, 0⟩
  have hf : ∀ f, m.fAlive f = true → f = 1 ∨ f = 2 ∨ f = 3 ∨ f = 4 := fun f a => by
    have := (G.wf.fDense.mem f).2 a
    rw [C.fs] at this
    simpa using this
  have ne : ∀ x : Vec3 ℝ, x.z ≠ 0 → x.E ≠ 0 := fun x hx h => hx (by simpa using congrArg (fun y : E3 => y 2) h)
  refine ⟨m.overR q, fun v => (q v).E, G.over _, fun v _ => ⟨q v, rfl, rfl⟩, ⟨(C.solid G).tri, ?_⟩, ?_, ?_⟩
  · change ∀ f, m.fAlive f = true → m.areaVec (fun v => (q v).E) f ≠ 0
    obtain ⟨a, b, c, d, e, f, g, h⟩ := C
    rw [c] at e f g h
    rw [a] at d
    simp only [List.map_cons, List.map_nil, List.cons.injEq, and_true] at d e f g h
    intro x ax
    rcases hf x ax with rfl | rfl | rfl | rfl <;>
      (simp only [Mesh.areaVec, triNormal_E, d, e, f, q]; refine ne _ ?_; simp [Vec3.cross, Vec3.sub_def])
  · intro v
    rw [Vec3.E_inner, Vec3.dot_def]
    simp only [q]
    split
    · simp
    · split
      · simp
      · split <;> simp
  · change m.vs.length = 4
    rw [C.vs]; rfl

/-- the hypotheses of `c57_abort` hold for the square, whose hole has four sides -/
example : ∃ (m : Mesh Rat) (m' : Mesh XR), squareMesh = .ok () m ∧ m' = m.overR squareAt ∧ m'.WF ∧ m'.fAlive 3 = true ∧ m'.sides 3 ≠ 3 := by
  obtain ⟨m, h, S⟩ := squareMesh_ok
  exact ⟨m, _, h, rfl, (S.good.over _).wf, S.alive, by change m.sides 3 ≠ 3; rw [S.sides]; omega⟩

end TinyMesh
