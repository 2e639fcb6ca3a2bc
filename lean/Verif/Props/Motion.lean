import Verif.Proof.MotionD
import Verif.Proof.MotionF
import Verif.Proof.MotionG
import Verif.Proof.RemC
import Verif.Props.Fill
/-
C99, C100: nothing the library computes depends on where the mesh lies. Turning and shifting a mesh changes no length, area, angle,
curvature or Laplacian (C99), and every algorithm run on the moved mesh yields the moved result (C100). The statements are about exact
real numbers; a quotient of numbers by zero is totalised, the exception of vec.h on a division of a vector by zero is an outcome.
-/
namespace TinyMesh
open Motion

/-- The motions of Spec/Motion.lean keep distances. -/
theorem Motion.keeps_distances (g : Motion) (p q : Vec3 ℝ) : ((g.pt p).sub (g.pt q)).length = (p.sub q).length := by
  rw [pt_sub, length_vec]

/-! ### C99 -/

/-- C99: lengths, areas, angles and their means do not depend on where the mesh lies. -/
theorem c99_sizes (g : Motion) (h f : Nat) : g.Same (heLength h) ∧ g.Same (faceArea (F := ℝ) f) ∧ g.Same (edgeAngle (F := ℝ) h) ∧
    g.Same (meanEdgeLength (F := ℝ)) ∧ g.Same (meanFaceArea (F := ℝ)) ∧ g.Same (meanDihedralAngle (F := ℝ)) :=
  ⟨Sim.heLength, Sim.faceArea, Sim.edgeAngle, Sim.meanEdgeLength, Sim.meanFaceArea, Sim.meanDihedralAngle⟩

/-- C99: neither do cotangent weights and the three Laplacians, entry by entry. -/
theorem c99_laplacian (g : Motion) (h : Nat) (t : LaplaceType) :
    g.Same (cotWeight (F := ℝ) h) ∧ g.Same (meshLaplacian (F := ℝ) t) :=
  ⟨Sim.cotWeight, Sim.meshLaplacian t⟩

/-- C99: the normal of a vertex turns with the mesh; Voronoi areas, Gaussian and mean curvature stay. -/
theorem c99_vertex (g : Motion) (v f : Nat) : g.Sim g.vec (vertNormal v) (vertNormal v) ∧ g.Same (vorArea (F := ℝ) v) ∧
    g.Same (vorFace (F := ℝ) v f) ∧ g.Same (gaussK (F := ℝ) v) ∧ g.Same (meanH (F := ℝ) v) :=
  ⟨Sim.vertNormal, Sim.vorArea, Sim.vorFace, Sim.gaussK, Sim.meanH⟩

/-- C99: principal curvatures and their derivatives stay, the principal directions turn with the mesh; whatever is used to solve the
least-squares problems of single faces, the equations are the same. -/
theorem c99_curvature (g : Motion) (solve : LinSolve ℝ) (smooth : Bool) :
    g.Sim (List.map g.princ) (principalCurvatures solve smooth) (principalCurvatures solve smooth) ∧
    g.Sim (fun r => (r.1.map g.princ, r.2)) (principalDerivatives solve smooth) (principalDerivatives solve smooth) :=
  ⟨Sim.principalCurvatures, Sim.principalDerivatives⟩

/-! ### C100 -/

/-- C100: a mesh built from moved vertices is the moved mesh, and a soup that is rejected is rejected wherever it lies. -/
theorem c100_construct (g : Motion) (V : List (Vec3 ℝ)) (I : List Nat) (m : Mesh ℝ) :
    construct (V.map g.pt) I (g.mesh m) = g.out id (construct V I m) := Sim.construct m

/-- C100: the edits. -/
theorem c100_edits (g : Motion) (h f : Nat) : g.Same (splitHE (F := ℝ) h) ∧ g.Same (flipHE (F := ℝ) h) ∧ g.Same (collapseHE (F := ℝ) h) ∧
    g.Same (collapseFace (F := ℝ) f) ∧ g.Same (verify (F := ℝ)) :=
  ⟨Sim.splitHE, Sim.flipHE, Sim.collapseHE, Sim.collapseFace, Sim.verify⟩

/-- C100: what is read off the mesh for a file. -/
theorem c100_report (g : Motion) : g.Sim (List.map g.pt) getVertices getVertices ∧ g.Same (getVertexIndices (F := ℝ)) ∧
    g.Same (numEdges (F := ℝ)) :=
  ⟨Sim.getVertices, Sim.getVertexIndices, Sim.numEdges⟩

/-- C100: smoothing, and denoising by filtered normals. -/
theorem c100_smooth (g : Motion) (a b : ℝ) (cotan : Bool) (n : Nat) : g.Same (smoothLaplacian a cotan n) ∧ g.Same (smoothTaubin a b n) ∧
    g.Same (denoiseNormalGaussian a n) ∧ g.Same (denoiseNormalBilateral a b n) :=
  ⟨Sim.smoothLaplacian n, Sim.smoothTaubin, Sim.denoiseNormalGaussian, Sim.denoiseNormalBilateral⟩

/-- C100: the filling of holes of least area and angle. -/
theorem c100_fill (g : Motion) (f : Nat) (bound : ℝ) : g.Same (holeFillMinDihedral f bound) ∧ g.Same (triangulate (F := ℝ) f) ∧
    g.Same (fillHoles (F := ℝ)) :=
  ⟨Sim.holeFillMinDihedral, Sim.triangulate, Sim.fillHoles⟩

/-- C100: remeshing, when the random shuffles are the same. -/
theorem c100_remesh (g : Motion) (sh : Nat → Bool → Nat → List Nat) (short long keep : ℝ) (n : Nat) : g.Same (remesh sh short long keep n) :=
  Sim.remesh

/-- C100: simplification, when the linear systems are solved exactly and the candidates come in the same order. -/
theorem c100_simplify (g : Motion) {S : Solver4 ℝ} (hS : S.ExactR) {ord ord' : Nat → List (Nat × Vec3 ℝ) → List (Nat × Vec3 ℝ)}
    (ho : ∀ k l, ord' k (l.map g.cand) = (ord k l).map g.cand) (numTarget maxTrials : Int) :
    g.Sim id (simplifyQEM S.base ord numTarget maxTrials) (simplifyQEM S.base ord' numTarget maxTrials) :=
  Sim.simplifyQEM hS ho

/-- C100: one trial of simplification with the priority queue: the costs in the queue are the same, wherever the mesh lies. -/
theorem c100_queue (g : Motion) {S : Solver4 ℝ} (hS : S.ExactR) {pop pop' : List (QEMNode ℝ) → List (QEMNode ℝ)}
    (ho : ∀ l, pop' (l.map g.node) = (pop l).map g.node) (target nr : Int) :
    g.Sim id (queueTrial S pop target nr) (queueTrial S pop' target nr) :=
  Sim.queueTrial hS ho

/-! ### The hypotheses can be met -/

/-- a quarter turn about the third axis, and a shift -/
def quarter : Motion where
  u := ⟨0, 1, 0⟩
  v := ⟨-1, 0, 0⟩
  t := ⟨1, 2, 3⟩
  u_unit := by norm_num
  v_unit := by norm_num
  orth := by norm_num

theorem quarter_pt (p : Vec3 ℝ) : quarter.pt p = ⟨1 - p.y, 2 + p.x, 3 + p.z⟩ := by
  refine Vec3.ext' ?_ ?_ ?_ <;> simp [Motion.pt, Motion.vec, Motion.w, quarter] <;> ring

/-- The diagonal of the square has the same length after the motion, which moves both of its ends. -/
example : ∃ m : Mesh ℝ, m.Good ∧ m.vPos 2 = ⟨0, 1, 0⟩ ∧ (quarter.mesh m).vPos 2 = ⟨0, 2, 3⟩ ∧ m.vPos 1 = ⟨1, 0, 0⟩ ∧
    (quarter.mesh m).vPos 1 = ⟨1, 3, 3⟩ ∧ heLength 4 m = .ok (Real.sqrt 2) m ∧
    heLength 4 (quarter.mesh m) = .ok (Real.sqrt 2) (quarter.mesh m) := by
  obtain ⟨m, -, S⟩ := squareMesh_ok
  have e : heLength 4 (m.over squareAt) = .ok (Real.sqrt 2) (m.over squareAt) := by
    obtain ⟨a, s, t⟩ := S.diag
    have W : (m.over squareAt).WF := S.good.wf.over _
    have a : (m.over squareAt).hAlive 4 = true := a
    have s : (m.over squareAt).hSrc 4 = 2 := s
    have t : (m.over squareAt).hSrc ((m.over squareAt).hNext 4) = 1 := t
    have p2 : (m.over squareAt).vPos 2 = ⟨0, 1, 0⟩ := by norm_num [Mesh.over, squareAt]
    have p1 : (m.over squareAt).vPos 1 = ⟨1, 0, 0⟩ := by norm_num [Mesh.over, squareAt]
    rw [heLength_ok W a, s, t, p2, p1]
    have e : ∀ x : ℝ, Scalar.sqrt x = Real.sqrt x := fun _ => rfl
    norm_num [Vec3.sub, Vec3.length, Vec3.dot, Vec3.add, Vec3.neg, R_lit0, e]
  refine ⟨m.over squareAt, S.good.over _, ?_, ?_, ?_, ?_, e, ?_⟩
  · norm_num [Mesh.over, squareAt]
  · simp only [Motion.mesh, Mesh.over, squareAt, quarter_pt]; norm_num
  · norm_num [Mesh.over, squareAt]
  · simp only [Motion.mesh, Mesh.over, squareAt, quarter_pt]; norm_num
  · rw [(c99_sizes quarter 4 1).1, e]; rfl

/-- an exact solver -/
noncomputable def exactSolverR : Solver4 ℝ where
  det A := Matrix.det A
  solve A := (Matrix.of A)⁻¹.mulVec ![(0 : ℝ), 0, 0, 1]

theorem exactSolverR_exact : exactSolverR.ExactR where
  det A := rfl
  solve A h := by
    show A.mulVec (A⁻¹.mulVec ![0, 0, 0, 1]) = _
    rw [Matrix.mulVec_mulVec, Matrix.mul_nonsing_inv _ (isUnit_iff_ne_zero.2 h), Matrix.one_mulVec]

/-- the cheapest candidates first -/
noncomputable def cheapest (l : List (QEMNode ℝ)) : List (QEMNode ℝ) :=
  open Classical in l.mergeSort fun a b => decide (a.value ≤ b.value)

theorem cheapest_moved (g : Motion) (l : List (QEMNode ℝ)) : cheapest (l.map g.node) = (cheapest l).map g.node := by
  unfold cheapest
  rw [List.map_mergeSort]
  intros
  rfl

/-- Simplification of the moved square with an exact solver and a queue that yields the cheapest candidates first. -/
example (m : Mesh ℝ) (target nr : Int) : queueTrial exactSolverR cheapest target nr (quarter.mesh m) =
    quarter.out id (queueTrial exactSolverR cheapest target nr m) :=
  c100_queue quarter exactSolverR_exact (cheapest_moved quarter) target nr m

/-- in the order of the half-edges, backwards -/
example (m : Mesh ℝ) (n k : Int) : simplifyQEM exactSolverR.base (fun _ => List.reverse) n k (quarter.mesh m) =
    quarter.out id (simplifyQEM exactSolverR.base (fun _ => List.reverse) n k m) :=
  c100_simplify quarter exactSolverR_exact (fun _ l => List.map_reverse.symm) n k m

end TinyMesh
