import Verif.Proof.ScaleE
import Verif.Proof.ScaleG
import Verif.Proof.L0B
import Verif.Props.Denoise
import Verif.Props.Motion
import Verif.Props.Operators
/-
C113, C114, C115: the unit of length. When every coordinate is multiplied by the same number other than zero, lengths and areas scale and
angles, normals and the graph Laplacian stay (C113); constructor, edits, uniform smoothing, denoising, hole filling and remeshing give
the scaled result (C114). A negative number mirrors the mesh in the origin. Cotangent weights, the Laplacian of Belkin et al. and simplification do depend on the unit (C115).
-/
namespace TinyMesh
open Zoom

/-! ### C113 -/

/-- C113: lengths are multiplied by `|s|`, areas by `s²`, angles stay; the same holds for their means. -/
theorem c113_sizes (g : Zoom) (h f : Nat) : g.Sim g.len (heLength h) (heLength h) ∧ g.Sim g.area (faceArea f) (faceArea f) ∧
    g.Same (edgeAngle (F := ℝ) h) ∧ g.Sim g.len meanEdgeLength meanEdgeLength ∧ g.Sim g.area meanFaceArea meanFaceArea ∧
    g.Same (meanDihedralAngle (F := ℝ)) :=
  ⟨Sim.heLength, Sim.faceArea, Sim.edgeAngle, Sim.meanEdgeLength, Sim.meanFaceArea, Sim.meanDihedralAngle⟩

/-- C113: the normal of a vertex and the graph Laplacian stay. -/
theorem c113_normal (g : Zoom) (v : Nat) : g.Same (vertNormal (F := ℝ) v) ∧ g.Same (meshLaplacian (F := ℝ) .adjacent) :=
  ⟨Sim.vertNormal, Sim.meshLaplacian⟩

/-! ### C114 -/

/-- C114: building a mesh from the scaled positions gives the scaled mesh. -/
theorem c114_construct (g : Zoom) (V : List (Vec3 ℝ)) (I : List Nat) (m : Mesh ℝ) :
    construct (V.map g.pt) I (g.mesh m) = g.out id (construct V I m) := Sim.construct m

/-- C114: the edits. -/
theorem c114_edits (g : Zoom) (h f : Nat) : g.Same (splitHE (F := ℝ) h) ∧ g.Same (flipHE (F := ℝ) h) ∧ g.Same (collapseHE (F := ℝ) h) ∧
    g.Same (collapseFace (F := ℝ) f) ∧ g.Same (verify (F := ℝ)) :=
  ⟨Sim.splitHE, Sim.flipHE, Sim.collapseHE, Sim.collapseFace, Sim.verify⟩

/-- C114: what is read off the mesh for a file. -/
theorem c114_report (g : Zoom) : g.Sim (List.map g.pt) getVertices getVertices ∧ g.Same (getVertexIndices (F := ℝ)) ∧
    g.Same (numEdges (F := ℝ)) :=
  ⟨Sim.getVertices, Sim.getVertexIndices, Sim.numEdges⟩

/-- C114: smoothing with uniform weights, and denoising by filtered normals; the parameters are the same in both units. -/
theorem c114_smooth (g : Zoom) (a b : ℝ) (n : Nat) : g.Same (smoothLaplacian a false n) ∧ g.Same (smoothTaubin a b n) ∧
    g.Same (denoiseNormalGaussian a n) ∧ g.Same (denoiseNormalBilateral a b n) :=
  ⟨Sim.smoothLaplacian n, Sim.smoothTaubin, Sim.denoiseNormalGaussian, Sim.denoiseNormalBilateral⟩

/-- C114: the filling of holes of least area and angle. -/
theorem c114_fill (g : Zoom) (f : Nat) (bound : ℝ) : g.Same (holeFillMinDihedral f bound) ∧ g.Same (triangulate (F := ℝ) f) ∧
    g.Same (fillHoles (F := ℝ)) :=
  ⟨Sim.holeFillMinDihedral, Sim.triangulate, Sim.fillHoles⟩

/-- C114: remeshing, when the random shuffles are the same: the bounds on lengths are fractions of the mean length. -/
theorem c114_remesh (g : Zoom) (sh : Nat → Bool → Nat → List Nat) (short long keep : ℝ) (n : Nat) : g.Same (remesh sh short long keep n) :=
  Sim.remesh

/-! ### The hypotheses can be met -/

/-- from metres to millimetres -/
def milli : Zoom where
  s := 1000
  ne := by norm_num

/-- the mirror image in the origin -/
def mirror : Zoom where
  s := -1
  ne := by norm_num

/-- The diagonal of the square is a thousand times as long in millimetres; its ends have other coordinates. -/
example : ∃ m : Mesh ℝ, m.Good ∧ m.vPos 2 = ⟨0, 1, 0⟩ ∧ (milli.mesh m).vPos 2 = ⟨0, 1000, 0⟩ ∧
    heLength 4 m = .ok (Real.sqrt 2) m ∧ heLength 4 (milli.mesh m) = .ok (1000 * Real.sqrt 2) (milli.mesh m) := by
  obtain ⟨m, -, S⟩ := squareMesh_ok
  have e : heLength 4 (m.over squareAt) = .ok (Real.sqrt 2) (m.over squareAt) := by
    obtain ⟨a, s, t⟩ := S.diag
    have W : (m.over squareAt).WF := S.good.wf.over _
    have a : (m.over squareAt).hAlive 4 = true := a
    have s : (m.over squareAt).hSrc 4 = 2 := s
    have t : (m.over squareAt).hSrc ((m.over squareAt).hNext 4) = 1 := t
    have p2 : (m.over squareAt).vPos 2 = ⟨0, 1, 0⟩ := by norm_num [Mesh.over, squareAt]
    have p1 : (m.over squareAt).vPos 1 = ⟨1, 0, 0⟩ := by norm_num [Mesh.over, squareAt]
    rw [heLength_ok W a, s, t, p2, p1]
    have e : ∀ x : ℝ, Scalar.sqrt x = Real.sqrt x := fun _ => rfl
    norm_num [Vec3.sub, Vec3.length, Vec3.dot, Vec3.add, Vec3.neg, R_lit0, e]
  refine ⟨m.over squareAt, S.good.over _, ?_, ?_, e, ?_⟩
  · norm_num [Mesh.over, squareAt]
  · norm_num [Zoom.mesh, Mesh.over, squareAt, Zoom.pt, milli]
  · rw [(c113_sizes milli 4 1).1, e]; norm_num [Zoom.out, Zoom.len, milli]

/-- The mirror image of a point is another point. -/
example : mirror.pt ⟨0, 1, 0⟩ = ⟨0, -1, 0⟩ := by norm_num [Zoom.pt, mirror]

/-! ### C115 -/

theorem pt_E (g : Zoom) (a : Vec3 ℝ) : (g.pt a).E = g.s • a.E := by
  rw [← Vec3.E_smul]
  congr 1
  refine Vec3.ext' ?_ ?_ ?_ <;> simp [Zoom.pt, Vec3.smul, mul_comm]

theorem triArea_scaled (s : ℝ) (a b c : E3) : triArea (s • a) (s • b) (s • c) = s ^ 2 * triArea a b c := by
  obtain ⟨a, rfl⟩ := Vec3.E_surj a
  obtain ⟨b, rfl⟩ := Vec3.E_surj b
  obtain ⟨c, rfl⟩ := Vec3.E_surj c
  have e : ∀ x y z : Vec3 ℝ, triArea x.E y.E z.E = ‖triNormal x.E y.E z.E‖ / 2 := fun _ _ _ => rfl
  rw [← Vec3.E_smul, ← Vec3.E_smul, ← Vec3.E_smul, e, e, triNormal_E, triNormal_E]
  have : ((b.smul s).sub (a.smul s)).cross ((c.smul s).sub (a.smul s)) = ((b.sub a).cross (c.sub a)).smul (s ^ 2) := by
    refine Vec3.ext' ?_ ?_ ?_ <;> simp [Vec3.cross_def, Vec3.sub_def, Vec3.smul] <;> ring
  rw [this, Vec3.E_smul, norm_smul, Real.norm_of_nonneg (by positivity)]
  ring

/-- the denominator in the cotangent is twice the area of the triangle -/
theorem cotAt_area (a b c : E3) : cotAt a b c = inner ℝ (a - c) (b - c) / max (2 * triArea a b c) (1 / 10 ^ 6) := by
  unfold cotAt
  congr 2
  obtain ⟨a, rfl⟩ := Vec3.E_surj a
  obtain ⟨b, rfl⟩ := Vec3.E_surj b
  obtain ⟨c, rfl⟩ := Vec3.E_surj c
  have e : triArea a.E b.E c.E = ‖triNormal a.E b.E c.E‖ / 2 := rfl
  rw [e, triNormal_E, mul_div_cancel₀ _ two_ne_zero, Vec3.E_norm, ← Vec3.E_sub, ← Vec3.E_sub, Vec3.E_norm, Vec3.E_norm, Vec3.E_inner,
    pow_two (Vec3.length _), Vec3.length_sq, pow_two (Vec3.length _), Vec3.length_sq, Vec3.length_def]
  congr 1
  simp only [Vec3.dot_def, Vec3.cross_def, Vec3.sub_def]
  ring

theorem cotAt_scaled (g : Zoom) {a b c : E3} (h : 1 / 10 ^ 6 ≤ 2 * triArea a b c) (h' : 1 / 10 ^ 6 ≤ g.s ^ 2 * (2 * triArea a b c)) :
    cotAt (g.s • a) (g.s • b) (g.s • c) = cotAt a b c := by
  have hs := g.ne
  rw [cotAt_area, cotAt_area, triArea_scaled, ← mul_assoc, mul_comm 2, mul_assoc, max_eq_left h', max_eq_left h, ← smul_sub, ← smul_sub,
    real_inner_smul_left, real_inner_smul_right, ← mul_assoc, ← pow_two, mul_div_mul_left _ _ (by positivity)]

/-- C115: as long as every triangle has more than a millionth of the unit of area, twice, in both units, the cotangent Laplacian does
not depend on the unit. The triangle of a half-edge on the border is the one between three consecutive vertices of the border. -/
theorem c115_cot_partial {F : Type} {m : Mesh F} (wf : m.WF) (g : Zoom) (q : Nat → Vec3 ℝ)
    (big : ∀ h, m.hAlive h = true → 1 / 10 ^ 6 ≤ 2 * m.areaOf (fun v => (q v).E) h ∧
      1 / 10 ^ 6 ≤ g.s ^ 2 * (2 * m.areaOf (fun v => (q v).E) h)) :
    ∃ L L', meshLaplacian .cotangent (m.overR q) = .ok L (m.overR q) ∧
      meshLaplacian .cotangent (m.overR fun v => g.pt (q v)) = .ok L' (m.overR fun v => g.pt (q v)) ∧
      ∀ i j, i < m.vs.length → j < m.vs.length → L' i j = L i j := by
  have hE : ∀ v, (g.pt (q v)).E = g.s • (q v).E := fun v => pt_E g (q v)
  have A : (m.overR q).AtE fun v => (q v).E := fun v _ => ⟨q v, rfl, rfl⟩
  have A' : (m.overR fun v => g.pt (q v)).AtE fun v => (g.pt (q v)).E := fun v _ => ⟨g.pt (q v), rfl, rfl⟩
  have W : (m.overR q).WF := wf.over _
  have W' : (m.overR fun v => g.pt (q v)).WF := wf.over _
  obtain ⟨L, -, h1, -, -, -, h2, -⟩ := c30_cotangent W A
  obtain ⟨L', -, h1', -, -, -, h2', -⟩ := c30_cotangent W' A'
  refine ⟨L, L', h1, h1', fun i j hi hj => ?_⟩
  have e1 := h2 i j m.vs[i] m.vs[j] (List.getElem?_eq_getElem (l := m.vs) hi) (List.getElem?_eq_getElem (l := m.vs) hj)
  have e2 := h2' i j m.vs[i] m.vs[j] (List.getElem?_eq_getElem (l := m.vs) hi) (List.getElem?_eq_getElem (l := m.vs) hj)
  have key : ∀ h ∈ m.hes, m.cotOf (fun v => (g.pt (q v)).E) h = m.cotOf (fun v => (q v).E) h := by
    intro h hh
    have a := (wf.hDense.mem h).1 hh
    have b1 := big h a
    have b2 := big _ (wf.rev_alive h a)
    unfold Mesh.areaOf at b1 b2
    rw [wf.src_rev h a, wf.src_next_rev a, triArea_swap] at b2
    unfold Mesh.cotOf
    simp only [hE]
    rw [cotAt_scaled g b1.1 b1.2, cotAt_scaled g b2.1 b2.2]
  rw [e1, e2]
  have w1 : (m.overR fun v => g.pt (q v)).weightOut (m.cotOf fun v => (g.pt (q v)).E) m.vs[i] =
      (m.overR q).weightOut (m.cotOf fun v => (q v).E) m.vs[i] :=
    congrArg List.sum (List.map_congr_left fun h hh => key h (List.mem_filter.1 hh).1)
  have w2 : (m.overR fun v => g.pt (q v)).weightTo (m.cotOf fun v => (g.pt (q v)).E) m.vs[i] m.vs[j] =
      (m.overR q).weightTo (m.cotOf fun v => (q v).E) m.vs[i] m.vs[j] :=
    congrArg List.sum (List.map_congr_left fun h hh => key h (List.mem_filter.1 hh).1)
  have r1 : (m.overR fun v => g.pt (q v)).cotOf (fun v => (g.pt (q v)).E) = m.cotOf fun v => (g.pt (q v)).E := rfl
  have r2 : (m.overR q).cotOf (fun v => (q v).E) = m.cotOf fun v => (q v).E := rfl
  rw [r1, r2, w1, w2]

/-- a ten-thousandth: from a tenth of a millimetre to a metre -/
noncomputable def tenth : Zoom where
  s := 1 / 10 ^ 4
  ne := by norm_num

/-- C115 is false of cotangent weights: on a well-formed mesh with good triangles an edge between two angles of 45° has the weight 1,
and the weight 1/100 when lengths are given in a larger unit. -/
theorem c115_cot_false : ∃ (m : Mesh ℝ) (g : Zoom) (h : Nat), m.Good ∧ cotWeight h m = .ok 1 m ∧
    cotWeight h (g.mesh m) = .ok (1 / 100) (g.mesh m) := by
  obtain ⟨m, G, C⟩ := corner_tables
  have run : ∀ q : Nat → Vec3 ℝ, cotWeight 1 (m.over q) = .ok (cotW (q 1) (q 2) (q 3) (q 4)) (m.over q) := by
    intro q
    have wf : (m.over q).WF := G.wf.over q
    have a : (m.over q).hAlive 1 = true := (G.wf.hDense.mem 1).1 (by rw [C.hes]; simp)
    have a1 := wf.next_alive 1 a
    have a2 := wf.next_alive _ a1
    have b := wf.rev_alive 1 a
    have b2 := wf.next_alive _ (wf.next_alive _ b)
    unfold cotWeight
    rw [bind_apply, cotVerts_ok wf a]; dsimp only
    rw [bind_apply, getPos_ok (wf.src_alive _ a)]; dsimp only
    rw [bind_apply, getPos_ok (wf.src_alive _ a1)]; dsimp only
    rw [bind_apply, getPos_ok (wf.src_alive _ a2)]; dsimp only
    rw [bind_apply, getPos_ok (wf.src_alive _ b2)]; dsimp only
    rw [pure_apply]
    obtain ⟨c1, c2, c, d, e, f, g, h⟩ := C
    rw [c] at e f g h
    simp only [List.map_cons, List.map_nil, List.cons.injEq, and_true] at e f g h
    simp only [Mesh.over, e, f, g]
  have w : ∀ s : ℝ, 0 < s → cotW (⟨0, 0, 0⟩ : Vec3 ℝ) ⟨0, s, 0⟩ ⟨s, 0, 0⟩ ⟨0, 0, s⟩ = s ^ 2 / max (s ^ 2) (1 / 10 ^ 6) := by
    intro s hs
    have e : ∀ x : ℝ, Scalar.sqrt x = Real.sqrt x := fun _ => rfl
    have r : Real.sqrt (s * s * (s * s)) = s ^ 2 := by
      rw [Real.sqrt_mul_self (by positivity)]; ring
    unfold cotW
    simp only [R_fmax, R_lit, Vec3.length_def, Vec3.dot_def, Vec3.cross_def, Vec3.sub_def]
    norm_num [r]
    ring
  refine ⟨m.over cornerAt, tenth, 1, G.over _, ?_, ?_⟩
  · rw [run]
    have := w 1 one_pos
    simp only [cornerAt] at this ⊢
    norm_num at this ⊢
    rw [this]
  · have e : tenth.mesh (m.over cornerAt) = m.over fun v => tenth.pt (cornerAt v) := rfl
    rw [e, run]
    have := w (1 / 10 ^ 4) (by norm_num)
    simp only [cornerAt, Zoom.pt, tenth] at this ⊢
    norm_num at this ⊢
    rw [this]

/-- C115 is false of the Laplacian of Belkin et al.: in no other unit is it a multiple of what it is in the first one, since the exponent
is a squared length over a length. -/
theorem c115_belkin_false : ∃ m : Mesh Rat, m.Good ∧ ∀ g : Zoom, 0 < g.s → g.s ≠ 1 → ∃ L L',
    meshLaplacian .belkin08 (m.overR cornerAt) = .ok L (m.overR cornerAt) ∧
    meshLaplacian .belkin08 (m.overR fun v => g.pt (cornerAt v)) = .ok L' (m.overR fun v => g.pt (cornerAt v)) ∧
    ¬ ∃ c : ℝ, ∀ i j, i < m.vs.length → j < m.vs.length → L' i j = XR.fin c * L i j := by
  obtain ⟨m, G, C⟩ := corner_tables
  refine ⟨m, G, fun g hs hg => ?_⟩
  obtain ⟨c1, c2, c3, d, e, f, r, h⟩ := id C
  rw [c3] at e f r h
  simp only [List.map_cons, List.map_nil, List.cons.injEq, and_true] at e f r h
  have ac : m.hAlive 1 = true := (G.wf.hDense.mem 1).1 (by rw [c3]; simp)
  -- the two coefficients, for any points
  have run : ∀ q : Nat → Vec3 ℝ, (q 1).E ≠ (q 2).E → ∃ L, meshLaplacian .belkin08 (m.overR q) = .ok L (m.overR q) ∧
      L 0 1 = XR.fin (-(Real.exp (-(dist (q 1).E (q 2).E ^ 2 / (4 * m.meanLen fun v => (q v).E))) / (4 * Real.pi * m.meanLen fun v => (q v).E))) ∧
      L 1 2 = XR.fin (-(Real.exp (-(dist (q 2).E (q 3).E ^ 2 / (4 * m.meanLen fun v => (q v).E))) / (4 * Real.pi * m.meanLen fun v => (q v).E))) := by
    intro q hq
    have A : (m.overR q).AtE fun v => (q v).E := fun v _ => ⟨q v, rfl, rfl⟩
    have W : (m.overR q).WF := G.wf.over _
    obtain ⟨L, -, h1, -, -, -, h2, -⟩ := c30_belkin W A (h0 := 1) ac (by
      show (q (m.hSrc 1)).E ≠ (q (m.hSrc (m.hNext 1))).E
      simpa only [e, f] using hq)
    refine ⟨L, h1, ?_, ?_⟩
    · rw [h2 0 1 1 2 (by show m.vs[0]? = _; rw [c2]; rfl) (by show m.vs[1]? = _; rw [c2]; rfl)]
      have : (m.overR q).weightTo ((m.overR q).gaussOf (fun v => (q v).E) ((m.overR q).meanLen fun v => (q v).E)) 1 2 =
          m.gaussOf (fun v => (q v).E) (m.meanLen fun v => (q v).E) 1 := by
        show ((m.hes.filter fun h => m.hSrc h == 1 && m.hSrc (m.hNext h) == 2).map _).sum = _
        rw [c3]
        simp [List.filter, e, f]
        rfl
      rw [this, if_neg (by decide), zero_sub]
      simp only [Mesh.gaussOf, e, f]
    · rw [h2 1 2 2 3 (by show m.vs[1]? = _; rw [c2]; rfl) (by show m.vs[2]? = _; rw [c2]; rfl)]
      have : (m.overR q).weightTo ((m.overR q).gaussOf (fun v => (q v).E) ((m.overR q).meanLen fun v => (q v).E)) 2 3 =
          m.gaussOf (fun v => (q v).E) (m.meanLen fun v => (q v).E) 2 := by
        show ((m.hes.filter fun h => m.hSrc h == 2 && m.hSrc (m.hNext h) == 3).map _).sum = _
        rw [c3]
        simp [List.filter, e, f]
        rfl
      rw [this, if_neg (by decide), zero_sub]
      simp only [Mesh.gaussOf, e, f]
  have d12 : dist (cornerAt 1).E (cornerAt 2).E = 1 := by
    rw [Vec3.E_dist]; norm_num [cornerAt, Vec3.length_def, Vec3.dot_def, Vec3.sub_def]
  have d23 : dist (cornerAt 2).E (cornerAt 3).E = Real.sqrt 2 := by
    rw [Vec3.E_dist]; norm_num [cornerAt, Vec3.length_def, Vec3.dot_def, Vec3.sub_def]
  have ne : (cornerAt 1).E ≠ (cornerAt 2).E := by rw [← dist_pos, d12]; exact one_pos
  have sc : ∀ u v, dist (g.pt (cornerAt u)).E (g.pt (cornerAt v)).E = g.s * dist (cornerAt u).E (cornerAt v).E := by
    intro u v
    rw [pt_E, pt_E, dist_smul₀, Real.norm_of_nonneg hs.le]
  have ml : (m.meanLen fun v => (g.pt (cornerAt v)).E) = g.s * m.meanLen fun v => (cornerAt v).E := by
    unfold Mesh.meanLen
    simp only [sc]
    rw [List.sum_map_mul_left, mul_div_assoc]
  have mp : 0 < m.meanLen fun v => (cornerAt v).E := by rw [C.meanLen]; positivity
  obtain ⟨L, h1, h2, h3⟩ := run cornerAt ne
  obtain ⟨L', h1', h2', h3'⟩ := run (fun v => g.pt (cornerAt v)) (by
    rw [← dist_pos, sc, d12]; linarith)
  refine ⟨L, L', h1, h1', ?_⟩
  rintro ⟨c, hc⟩
  have k1 := hc 0 1 (by rw [c2]; simp) (by rw [c2]; simp)
  have k2 := hc 1 2 (by rw [c2]; simp) (by rw [c2]; simp)
  rw [h2, h2', X_mul, XR.fin.injEq, sc, d12, ml] at k1
  rw [h3, h3', X_mul, XR.fin.injEq, sc, d23, ml] at k2
  generalize (m.meanLen fun v => (cornerAt v).E) = t at *
  have e1 : Real.exp (-(Real.sqrt 2 ^ 2 / (4 * t))) = Real.exp (-(1 ^ 2 / (4 * t))) * Real.exp (-(1 / (4 * t))) := by
    rw [← Real.exp_add, Real.sq_sqrt (by norm_num)]; congr 1; ring
  have e2 : Real.exp (-((g.s * Real.sqrt 2) ^ 2 / (4 * (g.s * t)))) =
      Real.exp (-((g.s * 1) ^ 2 / (4 * (g.s * t)))) * Real.exp (-(g.s / (4 * t))) := by
    rw [← Real.exp_add, mul_pow, Real.sq_sqrt (by norm_num)]; congr 1; field_simp; ring
  rw [e1, e2] at k2
  have hpi := Real.pi_pos
  have k3 : Real.exp (-((g.s * 1) ^ 2 / (4 * (g.s * t)))) / (4 * Real.pi * (g.s * t)) *
      (Real.exp (-(g.s / (4 * t))) - Real.exp (-(1 / (4 * t)))) = 0 := by
    linear_combination -k2 + Real.exp (-(1 / (4 * t))) * k1
  rcases mul_eq_zero.1 k3 with z | z
  · have : 0 < Real.exp (-((g.s * 1) ^ 2 / (4 * (g.s * t)))) / (4 * Real.pi * (g.s * t)) := by positivity
    linarith
  · have := Real.exp_injective (sub_eq_zero.1 z)
    apply hg
    field_simp at this
    linarith

/-- the system of equations for the edge between the first two vertices of the corner tetrahedron, in any unit -/
theorem corner_system (g : Zoom) (hs : 0 < g.s) : ∃ (K : Fin 4 → Mat4 ℝ) (a b : ℝ), a = g.s ^ 2 / (g.s ^ 2 + 1 / 10 ^ 12) ∧
    b = g.s ^ 2 / (g.s ^ 2 * Real.sqrt 3 + 1 / 10 ^ 12) ∧
    quadric (g.pt (cornerAt 1)) (g.pt (cornerAt 2)) (g.pt (cornerAt 3)) = some (K 0) ∧
    quadric (g.pt (cornerAt 3)) (g.pt (cornerAt 4)) (g.pt (cornerAt 1)) = some (K 1) ∧
    quadric (g.pt (cornerAt 2)) (g.pt (cornerAt 4)) (g.pt (cornerAt 3)) = some (K 2) ∧
    quadric (g.pt (cornerAt 1)) (g.pt (cornerAt 4)) (g.pt (cornerAt 2)) = some (K 3) ∧
    Motion.toM (Motion.sysMat ((((K 0).add (K 1)).add (K 3)).add (((K 0).add (K 2)).add (K 3)))) =
      !![2 * a ^ 2 + b ^ 2, b ^ 2, b ^ 2, -(b ^ 2 * g.s); b ^ 2, a ^ 2 + b ^ 2, b ^ 2, -(b ^ 2 * g.s);
        b ^ 2, b ^ 2, 2 * a ^ 2 + b ^ 2, -(b ^ 2 * g.s); 0, 0, 0, 1] := by
  obtain ⟨s, hs'⟩ := g
  dsimp only at hs ⊢
  have q : ∀ (x y z n : Vec3 ℝ) (l d : ℝ), (y.sub x).cross (z.sub x) = n → n.length = l → 0 < l + 1 / 10 ^ 12 →
      d = -(n.dot x / (l + 1 / 10 ^ 12)) → quadric x y z = some fun i j =>
        Motion.coef ⟨n.x / (l + 1 / 10 ^ 12), n.y / (l + 1 / 10 ^ 12), n.z / (l + 1 / 10 ^ 12)⟩ d i *
        Motion.coef ⟨n.x / (l + 1 / 10 ^ 12), n.y / (l + 1 / 10 ^ 12), n.z / (l + 1 / 10 ^ 12)⟩ d j := by
    intro x y z n l d hn hl hp hd
    have e : (Scalar.lit 1 (10 ^ 12) : ℝ) = 1 / 10 ^ 12 := by rw [R_lit]; norm_num
    rw [Motion.quadric_eq, hn, hl, e, Vec3.div?_def, if_neg hp.ne', Option.map_some]
    have : -(Vec3.dot (⟨n.x / (l + 1 / 10 ^ 12), n.y / (l + 1 / 10 ^ 12), n.z / (l + 1 / 10 ^ 12)⟩ : Vec3 ℝ) x) = d := by
      rw [hd, Vec3.dot_def, Vec3.dot_def]; ring
    rw [this]
  have s2 : Real.sqrt (s ^ 2 * s ^ 2) = s ^ 2 := Real.sqrt_mul_self (by positivity)
  have h1 := q (Zoom.pt ⟨s, hs'⟩ (cornerAt 1)) (Zoom.pt ⟨s, hs'⟩ (cornerAt 2)) (Zoom.pt ⟨s, hs'⟩ (cornerAt 3)) ⟨0, 0, -s ^ 2⟩ (s ^ 2) 0
    (by refine Vec3.ext' ?_ ?_ ?_ <;> simp [Zoom.pt, cornerAt, Vec3.cross_def, Vec3.sub_def] <;> ring)
    (by rw [Vec3.length_def, Vec3.dot_def]; simp [s2]) (by positivity) (by simp [Zoom.pt, cornerAt, Vec3.dot_def])
  have h2 := q (Zoom.pt ⟨s, hs'⟩ (cornerAt 3)) (Zoom.pt ⟨s, hs'⟩ (cornerAt 4)) (Zoom.pt ⟨s, hs'⟩ (cornerAt 1)) ⟨0, -s ^ 2, 0⟩ (s ^ 2) 0
    (by refine Vec3.ext' ?_ ?_ ?_ <;> simp [Zoom.pt, cornerAt, Vec3.cross_def, Vec3.sub_def] <;> ring)
    (by rw [Vec3.length_def, Vec3.dot_def]; simp [s2]) (by positivity) (by simp [Zoom.pt, cornerAt, Vec3.dot_def])
  have h3 := q (Zoom.pt ⟨s, hs'⟩ (cornerAt 2)) (Zoom.pt ⟨s, hs'⟩ (cornerAt 4)) (Zoom.pt ⟨s, hs'⟩ (cornerAt 3)) ⟨s ^ 2, s ^ 2, s ^ 2⟩
    (s ^ 2 * Real.sqrt 3) (-(s ^ 2 * s / (s ^ 2 * Real.sqrt 3 + 1 / 10 ^ 12)))
    (by refine Vec3.ext' ?_ ?_ ?_ <;> simp [Zoom.pt, cornerAt, Vec3.cross_def, Vec3.sub_def] <;> ring)
    (by
      rw [Vec3.length_def, Vec3.dot_def]
      show Real.sqrt (s ^ 2 * s ^ 2 + s ^ 2 * s ^ 2 + s ^ 2 * s ^ 2) = _
      rw [show s ^ 2 * s ^ 2 + s ^ 2 * s ^ 2 + s ^ 2 * s ^ 2 = (s ^ 2 * s ^ 2) * 3 by ring, Real.sqrt_mul (by positivity), s2])
    (by positivity) (by simp [Zoom.pt, cornerAt, Vec3.dot_def])
  have h4 := q (Zoom.pt ⟨s, hs'⟩ (cornerAt 1)) (Zoom.pt ⟨s, hs'⟩ (cornerAt 4)) (Zoom.pt ⟨s, hs'⟩ (cornerAt 2)) ⟨-s ^ 2, 0, 0⟩ (s ^ 2) 0
    (by refine Vec3.ext' ?_ ?_ ?_ <;> simp [Zoom.pt, cornerAt, Vec3.cross_def, Vec3.sub_def] <;> ring)
    (by rw [Vec3.length_def, Vec3.dot_def]; simp [s2]) (by positivity) (by simp [Zoom.pt, cornerAt, Vec3.dot_def])
  refine ⟨![_, _, _, _], _, _, rfl, rfl, h1, h2, h3, h4, ?_⟩
  ext i j
  fin_cases i <;> fin_cases j <;> simp [Motion.toM, Motion.sysMat, Mat4.add, Motion.coef] <;> ring

theorem corner_det (a b s : ℝ) : (!![2 * a ^ 2 + b ^ 2, b ^ 2, b ^ 2, -(b ^ 2 * s); b ^ 2, a ^ 2 + b ^ 2, b ^ 2, -(b ^ 2 * s);
        b ^ 2, b ^ 2, 2 * a ^ 2 + b ^ 2, -(b ^ 2 * s); 0, 0, 0, 1] : Matrix (Fin 4) (Fin 4) ℝ).det = 4 * a ^ 6 + 8 * a ^ 4 * b ^ 2 := by
  simp [Matrix.det_succ_row_zero, Fin.sum_univ_succ, Fin.succAbove]
  ring

/-- a ten-millionth -/
noncomputable def tiny : Zoom where
  s := 1 / 10 ^ 7
  ne := by norm_num

/-- C115 is false of simplification: for an edge of the corner tetrahedron the place that `computeQEM` returns from the quadrics of the
faces around its ends is not the midpoint in one unit, but it is in another. -/
theorem c115_simplify_false {S : Solver4 ℝ} (hS : S.ExactR) : ∃ (g g' : Zoom) (K K' : Fin 4 → Mat4 ℝ),
    (quadric (g.pt (cornerAt 1)) (g.pt (cornerAt 2)) (g.pt (cornerAt 3)) = some (K 0) ∧
      quadric (g.pt (cornerAt 3)) (g.pt (cornerAt 4)) (g.pt (cornerAt 1)) = some (K 1) ∧
      quadric (g.pt (cornerAt 2)) (g.pt (cornerAt 4)) (g.pt (cornerAt 3)) = some (K 2) ∧
      quadric (g.pt (cornerAt 1)) (g.pt (cornerAt 4)) (g.pt (cornerAt 2)) = some (K 3)) ∧
    (quadric (g'.pt (cornerAt 1)) (g'.pt (cornerAt 2)) (g'.pt (cornerAt 3)) = some (K' 0) ∧
      quadric (g'.pt (cornerAt 3)) (g'.pt (cornerAt 4)) (g'.pt (cornerAt 1)) = some (K' 1) ∧
      quadric (g'.pt (cornerAt 2)) (g'.pt (cornerAt 4)) (g'.pt (cornerAt 3)) = some (K' 2) ∧
      quadric (g'.pt (cornerAt 1)) (g'.pt (cornerAt 4)) (g'.pt (cornerAt 2)) = some (K' 3)) ∧
    qemPos S.base (((K 0).add (K 1)).add (K 3)) (((K 0).add (K 2)).add (K 3)) (g.pt (cornerAt 1)) (g.pt (cornerAt 2)) ≠ g.pt ⟨0, 1 / 2, 0⟩ ∧
    qemPos S.base (((K' 0).add (K' 1)).add (K' 3)) (((K' 0).add (K' 2)).add (K' 3)) (g'.pt (cornerAt 1)) (g'.pt (cornerAt 2)) =
      g'.pt ⟨0, 1 / 2, 0⟩ := by
  have d : ∀ K, S.det (Motion.sysMat K) = (Motion.toM (Motion.sysMat K)).det := fun K => hS.det (Motion.toM (Motion.sysMat K))
  obtain ⟨K, a, b, ha, hb, k0, k1, k2, k3, hM⟩ := corner_system ⟨1, one_ne_zero⟩ one_pos
  obtain ⟨K', a', b', ha', hb', k0', k1', k2', k3', hM'⟩ := corner_system tiny (by norm_num [tiny])
  have r3 : 1 ≤ Real.sqrt 3 := by rw [Real.one_le_sqrt]; norm_num
  refine ⟨⟨1, one_ne_zero⟩, tiny, K, K', ⟨k0, k1, k2, k3⟩, ⟨k0', k1', k2', k3'⟩, ?_, ?_⟩
  · have a1 : 1 / 2 ≤ a := by rw [ha]; norm_num
    have b1 : 0 < b := by rw [hb]; positivity
    rw [Motion.qemPos_base, Motion.vBar_eq, d, hM, corner_det, if_neg]
    · intro h
      have h0 : (Motion.toM (Motion.sysMat ((((K 0).add (K 1)).add (K 3)).add (((K 0).add (K 2)).add (K 3))))).det ≠ 0 := by
        rw [hM, corner_det]; positivity
      have l := Motion.solve_last hS _ h0
      have sol : (Motion.toM (Motion.sysMat ((((K 0).add (K 1)).add (K 3)).add (((K 0).add (K 2)).add (K 3))))).mulVec
          (S.solve (Motion.sysMat ((((K 0).add (K 1)).add (K 3)).add (((K 0).add (K 2)).add (K 3))))) = ![0, 0, 0, 1] := hS.solve _ h0
      have x0 := congrArg Vec3.x h
      have x1 := congrArg Vec3.y h
      have x2 := congrArg Vec3.z h
      rw [hM] at sol
      have e := congrFun sol 0
      simp only [Motion.cart, Zoom.pt] at x0 x1 x2
      simp [Matrix.mulVec, dotProduct, Fin.sum_univ_four, x0, x1, x2, l] at e
      nlinarith [pow_pos b1 2]
    · have : (1 / 2) ^ 6 ≤ a ^ 6 := pow_le_pow_left₀ (by norm_num) a1 6
      have : 0 ≤ a ^ 4 * b ^ 2 := by positivity
      norm_num at *
      linarith
  · have t2 : tiny.s ^ 2 = 1 / 10 ^ 14 := by norm_num [tiny]
    have a0 : 0 ≤ a' := by rw [ha', t2]; positivity
    have a1 : a' ≤ 1 / 100 := by rw [ha', t2]; norm_num
    have b0 : 0 ≤ b' := by rw [hb', t2]; positivity
    have b1 : b' ≤ 1 / 100 := by
      rw [hb', t2, div_le_iff₀ (by positivity)]
      have := Real.sqrt_nonneg 3
      nlinarith
    rw [Motion.qemPos_base, Motion.vBar_eq, d, hM', corner_det, if_pos]
    · refine Vec3.ext' ?_ ?_ ?_ <;> simp [Motion.cart, Motion.hc, Zoom.pt, cornerAt, Vec3.smul, Vec3.add_def, R_lit]
    · have e1 : a' ^ 6 ≤ (1 / 100) ^ 6 := pow_le_pow_left₀ a0 a1 6
      have e2 : a' ^ 4 ≤ (1 / 100) ^ 4 := pow_le_pow_left₀ a0 a1 4
      have e3 : b' ^ 2 ≤ (1 / 100) ^ 2 := pow_le_pow_left₀ b0 b1 2
      have e4 : a' ^ 4 * b' ^ 2 ≤ (1 / 100) ^ 4 * (1 / 100) ^ 2 := mul_le_mul e2 e3 (by positivity) (by positivity)
      norm_num at *
      linarith

/-- There is an exact solver. -/
example : ∃ S : Solver4 ℝ, S.ExactR := ⟨exactSolverR, exactSolverR_exact⟩

/-- The corner tetrahedron meets the hypotheses of `c115_cot_partial` when the unit is a hundred times as long. -/
example : ∃ (m : Mesh Rat) (g : Zoom), m.WF ∧ g.s = 1 / 100 ∧ ∀ h, m.hAlive h = true →
    1 / 10 ^ 6 ≤ 2 * m.areaOf (fun v => (cornerAt v).E) h ∧ 1 / 10 ^ 6 ≤ g.s ^ 2 * (2 * m.areaOf (fun v => (cornerAt v).E) h) := by
  obtain ⟨m, G, C⟩ := corner_tables
  refine ⟨m, ⟨1 / 100, by norm_num⟩, G.wf, rfl, fun h a => ?_⟩
  have big : 1 ≤ 2 * m.areaOf (fun v => (cornerAt v).E) h := by
    have hh := (G.wf.hDense.mem h).2 a
    obtain ⟨c1, c2, c3, d, e, f, r, t⟩ := C
    rw [c3] at e f r hh
    simp only [List.map_cons, List.map_nil, List.cons.injEq, and_true] at e f r
    have r3 : 1 ≤ Real.sqrt 3 := by rw [Real.one_le_sqrt]; norm_num
    simp only [List.mem_cons, List.not_mem_nil, or_false] at hh
    rcases hh with rfl | rfl | rfl | rfl | rfl | rfl | rfl | rfl | rfl | rfl | rfl | rfl <;>
      simp only [Mesh.areaOf, e, f, triArea_E] <;>
      norm_num [cornerAt, Vec3.length_def, Vec3.dot_def, Vec3.cross_def, Vec3.sub_def]
    all_goals linarith
  constructor
  · linarith
  · dsimp only; linarith

end TinyMesh
