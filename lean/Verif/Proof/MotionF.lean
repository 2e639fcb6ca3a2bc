import Verif.Proof.MotionE
import Verif.Spec.Moved
import Mathlib.LinearAlgebra.Matrix.NonsingularInverse
import Mathlib.LinearAlgebra.Matrix.Determinant.Basic
import Mathlib.Tactic.FinCases
/-
Simplification moves with the mesh.
-/
namespace TinyMesh

namespace Motion
variable {g : Motion} {α β γ δ : Type}

/-! ### Quadrics -/

/-- the motion in homogeneous coordinates -/
def hom (g : Motion) : Matrix (Fin 4) (Fin 4) ℝ :=
  !![g.u.x, g.v.x, g.w.x, g.t.x; g.u.y, g.v.y, g.w.y, g.t.y; g.u.z, g.v.z, g.w.z, g.t.z; 0, 0, 0, 1]

/-- its rotation -/
def rot (g : Motion) : Matrix (Fin 4) (Fin 4) ℝ :=
  !![g.u.x, g.v.x, g.w.x, 0; g.u.y, g.v.y, g.w.y, 0; g.u.z, g.v.z, g.w.z, 0; 0, 0, 0, 1]

/-- the motion of planes: the transposed inverse of `hom` -/
def pl (g : Motion) : Matrix (Fin 4) (Fin 4) ℝ :=
  !![g.u.x, g.v.x, g.w.x, 0; g.u.y, g.v.y, g.w.y, 0; g.u.z, g.v.z, g.w.z, 0;
    -(g.u.x * g.t.x + g.u.y * g.t.y + g.u.z * g.t.z), -(g.v.x * g.t.x + g.v.y * g.t.y + g.v.z * g.t.z),
    -(g.w.x * g.t.x + g.w.y * g.t.y + g.w.z * g.t.z), 1]

/-- a quadric as a matrix of Mathlib -/
def toM (K : Mat4 ℝ) : Matrix (Fin 4) (Fin 4) ℝ := K

theorem toM_apply (K : Mat4 ℝ) (i j : Fin 4) : toM K i j = K i j := rfl

/-- the quadric of a moved mesh -/
def quad (g : Motion) (K : Mat4 ℝ) : Mat4 ℝ := g.pl * toM K * g.pl.transpose

theorem pl_hom : g.pl.transpose * g.hom = 1 := by
  have h1 := g.u_unit
  have h2 := g.v_unit
  have h3 := g.orth
  have h4 := g.w_unit
  have h5 := g.uw
  have h6 := g.vw
  ext i j
  fin_cases i <;> fin_cases j <;> simp [pl, hom, Matrix.mul_apply, Fin.sum_univ_four] <;> linarith

theorem det3 : g.u.x * (g.v.y * g.w.z - g.v.z * g.w.y) + g.u.y * (g.v.z * g.w.x - g.v.x * g.w.z) + g.u.z * (g.v.x * g.w.y - g.v.y * g.w.x) = 1 := by
  obtain ⟨a, b, c⟩ := g.vw_cross
  rw [a, b, c]; exact g.u_unit

theorem det_rot : g.rot.det = 1 := by
  have := g.det3
  simp [rot, Matrix.det_succ_row_zero, Fin.sum_univ_succ]
  simp [Matrix.submatrix, Fin.succAbove] 
  linarith

theorem det_pl : g.pl.det = 1 := by
  have := g.det3
  simp [pl, Matrix.det_succ_row_zero, Fin.sum_univ_succ]
  simp [Matrix.submatrix, Fin.succAbove] 
  linarith

theorem quad_add (K K' : Mat4 ℝ) : g.quad (K.add K') = (g.quad K).add (g.quad K') := by
  show g.pl * (toM K + toM K') * g.pl.transpose = g.pl * toM K * g.pl.transpose + g.pl * toM K' * g.pl.transpose
  rw [Matrix.mul_add, Matrix.add_mul]

theorem quad_zero : g.quad Mat4.zero = Mat4.zero := by
  have : toM Mat4.zero = 0 := by
    funext i j; exact R_lit0
  show g.pl * toM Mat4.zero * g.pl.transpose = toM Mat4.zero
  rw [this]
  simp

/-- the coefficients of a plane -/
def coef (n : Vec3 ℝ) (d : ℝ) : Fin 4 → ℝ := ![n.x, n.y, n.z, d]

theorem quadric_eq (a b c : Vec3 ℝ) : quadric a b c =
    (((b.sub a).cross (c.sub a)).div? (((b.sub a).cross (c.sub a)).length + Scalar.lit 1 (10 ^ 12))).map
      fun n i j => coef n (-n.dot a) i * coef n (-n.dot a) j := by
  unfold quadric
  simp only
  cases (((b.sub a).cross (c.sub a)).div? _) with
  | none => rfl
  | some n =>
    simp only [Option.map_some, Option.some.injEq]
    funext i j
    fin_cases i <;> fin_cases j <;> rfl

theorem coef_pl (n a : Vec3 ℝ) : coef (g.vec n) (-(g.vec n).dot (g.pt a)) = g.pl.mulVec (coef n (-n.dot a)) := by
  have hd : (g.vec n).dot (g.pt a) = n.dot a + ((g.vec n).x * g.t.x + (g.vec n).y * g.t.y + (g.vec n).z * g.t.z) := by
    rw [← dot_vec g n a]
    show (g.vec n).dot ((g.vec a).add g.t) = _
    simp only [Vec3.dot, Vec3.add]; ring
  rw [hd]
  generalize n.dot a = d
  funext i
  fin_cases i
  · simp [coef, pl, Matrix.mulVec, dotProduct, Fin.sum_univ_four, vec]; ring
  · simp [coef, pl, Matrix.mulVec, dotProduct, Fin.sum_univ_four, vec]; ring
  · simp [coef, pl, Matrix.mulVec, dotProduct, Fin.sum_univ_four, vec]; ring
  · simp [coef, pl, Matrix.mulVec, dotProduct, Fin.sum_univ_four, vec]; ring

theorem quadric_pt (a b c : Vec3 ℝ) : quadric (g.pt a) (g.pt b) (g.pt c) = (quadric a b c).map g.quad := by
  rw [quadric_eq, quadric_eq]
  simp only [pt_sub, cross_vec, length_vec, vec_div, Option.map_map]
  congr 1
  funext n i j
  simp only [Function.comp, coef_pl]
  generalize coef n (-n.dot a) = c
  simp only [quad, toM_apply, Matrix.mul_apply, Matrix.mulVec, dotProduct, Fin.sum_univ_four, Matrix.transpose_apply]
  ring

/-- `Q` of `computeQEM` -/
def sysMat (K : Mat4 ℝ) : Mat4 ℝ := fun i j => if i = 3 then (if j = 3 then 1 else 0) else K i j

theorem sysMat_quad (K : Mat4 ℝ) : toM (sysMat (g.quad K)) = g.rot * toM (sysMat K) * g.pl.transpose := by
  ext i j
  fin_cases i <;> fin_cases j <;>
    simp [sysMat, quad, toM_apply, rot, pl, Matrix.mul_apply, Fin.sum_univ_four, Matrix.vecMul, dotProduct] <;> ring

theorem det_sysMat (K : Mat4 ℝ) : (toM (sysMat (g.quad K))).det = (toM (sysMat K)).det := by
  rw [sysMat_quad, Matrix.det_mul, Matrix.det_mul, Matrix.det_transpose, det_rot, det_pl]; ring

theorem solve_sysMat {S : Solver4 ℝ} (hS : S.ExactR) (K : Mat4 ℝ) (h : (toM (sysMat K)).det ≠ 0) :
    S.solve (sysMat (g.quad K)) = g.hom.mulVec (S.solve (sysMat K)) := by
  have h' : (toM (sysMat (g.quad K))).det ≠ 0 := by rwa [det_sysMat]
  have e1 : (toM (sysMat K)).mulVec (S.solve (sysMat K)) = ![0, 0, 0, 1] := hS.solve _ h
  have e2 : (toM (sysMat (g.quad K))).mulVec (S.solve (sysMat (g.quad K))) = ![0, 0, 0, 1] := hS.solve _ h'
  have e3 : (toM (sysMat (g.quad K))).mulVec (g.hom.mulVec (S.solve (sysMat K))) = ![0, 0, 0, 1] := by
    rw [sysMat_quad, Matrix.mulVec_mulVec, Matrix.mul_assoc, pl_hom, Matrix.mul_one, ← Matrix.mulVec_mulVec, e1]
    funext i
    fin_cases i <;> simp [rot, Matrix.mulVec, dotProduct, Fin.sum_univ_four]
  exact Matrix.mulVec_injective_of_isUnit ((Matrix.isUnit_iff_isUnit_det _).2 (Ne.isUnit h')) (by
    show (toM (sysMat (g.quad K))).mulVec _ = (toM (sysMat (g.quad K))).mulVec _
    rw [e2, e3])

theorem solve_last {S : Solver4 ℝ} (hS : S.ExactR) (K : Mat4 ℝ) (h : (toM (sysMat K)).det ≠ 0) : S.solve (sysMat K) 3 = 1 := by
  have e1 : (toM (sysMat K)).mulVec (S.solve (sysMat K)) = ![0, 0, 0, 1] := hS.solve _ h
  have e := congrFun e1 3
  simpa [sysMat, toM_apply, Matrix.mulVec, dotProduct, Fin.sum_univ_four] using e

/-- homogeneous coordinates -/
def hc (p : Vec3 ℝ) : Fin 4 → ℝ := ![p.x, p.y, p.z, 1]

theorem hom_hc (p : Vec3 ℝ) : g.hom.mulVec (hc p) = hc (g.pt p) := by
  funext i
  fin_cases i <;> simp [hom, hc, Matrix.mulVec, dotProduct, Fin.sum_univ_four, pt, vec] <;> ring

theorem vBar_eq (S : Solver4 ℝ) (m1 m2 : Mat4 ℝ) (p1 p2 : Vec3 ℝ) : vBar S m1 m2 p1 p2 =
    if S.det (sysMat (m1.add m2)) < 1 / 10 ^ 8 then hc (Vec3.smul (Scalar.lit 1 2) (p1.add p2)) else S.solve (sysMat (m1.add m2)) := by
  have e : (fun i j => if i = 3 then (if j = 3 then Scalar.lit 1 1 else Scalar.lit 0 1) else m1 i j + m2 i j : Mat4 ℝ) = sysMat (m1.add m2) := by
    funext i j
    simp only [sysMat, Mat4.add, R_lit0, R_lit1]
  unfold vBar
  rw [e]
  have e2 : Scalar.lt (S.det (sysMat (m1.add m2))) (Scalar.lit 1 (10 ^ 8)) = decide (S.det (sysMat (m1.add m2)) < 1 / 10 ^ 8) := by
    rw [R_lit]
    show decide _ = decide _
    norm_num
  simp only [e2]
  by_cases hc : S.det (sysMat (m1.add m2)) < 1 / 10 ^ 8
  · simp only [hc, decide_true, if_true]
    funext i
    fin_cases i
    · rfl
    · rfl
    · rfl
    · show (Scalar.lit 1 1 : ℝ) = 1
      exact R_lit1
  · simp only [hc, decide_false, if_false, Bool.false_eq_true]

/-- the place a moved edge is contracted to, in homogeneous coordinates -/
theorem vBar_pt {S : Solver4 ℝ} (hS : S.ExactR) (m1 m2 : Mat4 ℝ) (p1 p2 : Vec3 ℝ) :
    vBar S (g.quad m1) (g.quad m2) (g.pt p1) (g.pt p2) = g.hom.mulVec (vBar S m1 m2 p1 p2) ∧ vBar S m1 m2 p1 p2 3 = 1 := by
  have d : ∀ K, S.det (sysMat K) = (toM (sysMat K)).det := fun K => hS.det (toM (sysMat K))
  rw [vBar_eq, vBar_eq, ← quad_add, d, d, det_sysMat, pt_mid]
  by_cases h : (toM (sysMat (m1.add m2))).det < 1 / 10 ^ 8
  · simp only [h, if_true, hom_hc, true_and]
    rfl
  · have h0 : (toM (sysMat (m1.add m2))).det ≠ 0 := by
      intro h0; apply h; rw [h0]; norm_num
    simp only [h, if_false]
    exact ⟨solve_sysMat hS _ h0, solve_last hS _ h0⟩

/-- the first three coordinates -/
def cart (x : Fin 4 → ℝ) : Vec3 ℝ := ⟨x 0, x 1, x 2⟩

theorem cart_hom {x : Fin 4 → ℝ} (h : x 3 = 1) : cart (g.hom.mulVec x) = g.pt (cart x) := by
  refine Vec3.ext' ?_ ?_ ?_ <;> simp [cart, hom, Matrix.mulVec, dotProduct, Fin.sum_univ_four, pt, vec, h] <;> ring

theorem qemPos_base (S : Solver4 ℝ) (m1 m2 : Mat4 ℝ) (p1 p2 : Vec3 ℝ) : qemPos S.base m1 m2 p1 p2 = cart (vBar S m1 m2 p1 p2) := by
  unfold qemPos vBar Solver4.base
  simp only
  split <;> rfl

theorem qemPos_pt {S : Solver4 ℝ} (hS : S.ExactR) (m1 m2 : Mat4 ℝ) (p1 p2 : Vec3 ℝ) :
    qemPos S.base (g.quad m1) (g.quad m2) (g.pt p1) (g.pt p2) = g.pt (qemPos S.base m1 m2 p1 p2) := by
  rw [qemPos_base, qemPos_base, (vBar_pt hS m1 m2 p1 p2).1, cart_hom (vBar_pt (g := g) hS m1 m2 p1 p2).2]

theorem dot4_eq (a b : Fin 4 → ℝ) : dot4 a b = dotProduct a b := by
  simp [dot4, dotProduct, Fin.sum_univ_four]

/-- the cost does not change -/
theorem qemValue_pt {S : Solver4 ℝ} (hS : S.ExactR) (m1 m2 : Mat4 ℝ) (p1 p2 : Vec3 ℝ) :
    qemValue S (g.quad m1) (g.quad m2) (g.pt p1) (g.pt p2) = qemValue S m1 m2 p1 p2 := by
  unfold qemValue
  simp only [(vBar_pt (g := g) hS m1 m2 p1 p2).1, ← quad_add]
  generalize vBar S m1 m2 p1 p2 = x
  generalize m1.add m2 = A
  have e : ∀ (A : Mat4 ℝ) (y : Fin 4 → ℝ), (fun i => dot4 (A i) y) = (toM A).mulVec y := by
    intro A y; funext i; exact dot4_eq _ _
  rw [e, e, dot4_eq, dot4_eq]
  show dotProduct _ ((g.pl * toM A * g.pl.transpose).mulVec _) = dotProduct _ ((toM A).mulVec _)
  rw [Matrix.mulVec_mulVec, Matrix.mul_assoc (g.pl * toM A), pl_hom, Matrix.mul_one, ← Matrix.mulVec_mulVec, Matrix.dotProduct_mulVec,
    ← Matrix.mulVec_transpose, Matrix.mulVec_mulVec, pl_hom, Matrix.one_mulVec]

/-! ### Programs -/

theorem Sim.inRange {n : Nat} {i : Int} : g.Sim id (TinyMesh.inRange (F := ℝ) n i) (TinyMesh.inRange n i) := Sim.ite Sim.pureId Sim.fail

/-- moved quadrics -/
def quads (g : Motion) (qs : Nat → Mat4 ℝ) : Nat → Mat4 ℝ := fun i => g.quad (qs i)

theorem Sim.addQuadric {nv : Nat} {K : Mat4 ℝ} {qs : Nat → Mat4 ℝ} {v : Nat} :
    g.Sim g.quads (TinyMesh.addQuadric nv K qs v) (TinyMesh.addQuadric nv (g.quad K) (g.quads qs) v) := by
  unfold TinyMesh.addQuadric
  refine Sim.bindId Sim.getVIdx (fun i => Sim.bindId Sim.inRange (fun k => Sim.ret ?_))
  funext j
  unfold quads upd
  split
  · rw [quad_add]
  · rfl

theorem Sim.quadrics {nv : Nat} (fs : List Nat) : ∀ qs : Nat → Mat4 ℝ,
    g.Sim (Option.map g.quads) (TinyMesh.quadrics nv fs qs) (TinyMesh.quadrics nv fs (g.quads qs)) := by
  induction fs with
  | nil => intro qs; exact Sim.ret rfl
  | cons f fs ih =>
    intro qs
    unfold TinyMesh.quadrics
    refine Sim.bindId Sim.fIsBoundary (fun b => Sim.ite (ih _) (Sim.bindId Sim.faceVerts (fun vs => ?_)))
    match vs with
    | [] => exact Sim.ret rfl
    | [_] => exact Sim.ret rfl
    | [_, _] => exact Sim.ret rfl
    | _ :: _ :: _ :: _ :: _ => exact Sim.ret rfl
    | [a, b, c] =>
      refine Sim.bindPt Sim.getPos (fun p0 => Sim.bindPt Sim.getPos (fun p1 => Sim.bindPt Sim.getPos (fun p2 => ?_)))
      rw [quadric_pt]
      cases quadric p0 p1 p2 with
      | none => exact Sim.fail
      | some K =>
        exact Sim.bind Sim.addQuadric (fun qs => Sim.bind Sim.addQuadric (fun qs => Sim.bind Sim.addQuadric (fun qs => ih _)))

theorem Sim.candidates {S : Solver4 ℝ} (hS : S.ExactR) {nv : Nat} {qs : Nat → Mat4 ℝ} (hs : List Nat) :
    g.Sim (List.map g.cand) (TinyMesh.candidates S.base nv qs hs) (TinyMesh.candidates S.base nv (g.quads qs) hs) := by
  induction hs with
  | nil => exact Sim.ret rfl
  | cons h hs ih =>
    unfold TinyMesh.candidates
    refine Sim.bindId Sim.getSrc (fun v1 => Sim.bindId Sim.getDst (fun v2 => Sim.bindId Sim.getVIdx (fun i1 => Sim.bindId Sim.getVIdx (fun i2 => ?_))))
    refine Sim.bindId Sim.inRange (fun k1 => Sim.bindId Sim.inRange (fun k2 => Sim.bindPt Sim.getPos (fun p1 => Sim.bindPt Sim.getPos (fun p2 => ?_))))
    refine Sim.bind ih (fun rest => Sim.ret ?_)
    simp only [quads, qemPos_pt hS, List.map_cons, cand]

theorem replaceFirst_pt (vi vj : Nat) (v : Vec3 ℝ) (us : List Nat) : ∀ ps : List (Vec3 ℝ),
    replaceFirst vi vj (g.pt v) us (ps.map g.pt) = (replaceFirst vi vj v us ps).map g.pt := by
  induction us with
  | nil => intro ps; cases ps <;> rfl
  | cons u us ih =>
    intro ps
    cases ps with
    | nil => rfl
    | cons p ps =>
      simp only [replaceFirst, List.map_cons]
      split
      · rfl
      · rw [ih]; rfl

theorem Sim.crossOf (ps : List (Vec3 ℝ)) : g.Sim g.vec (TinyMesh.crossOf ps) (TinyMesh.crossOf (ps.map g.pt)) := by
  match ps with
  | [] => exact Sim.fail
  | [_] => exact Sim.fail
  | [_, _] => exact Sim.fail
  | p0 :: p1 :: p2 :: ps =>
    refine Sim.ret ?_
    rw [pt_sub, pt_sub, cross_vec]

theorem Sim.faceFlips {vi vj : Nat} {v : Vec3 ℝ} {f : Nat} :
    g.Sim id (TinyMesh.faceFlips vi vj v f) (TinyMesh.faceFlips vi vj (g.pt v) f) := by
  unfold TinyMesh.faceFlips
  refine Sim.bindId Sim.faceVerts (fun vs => Sim.bindPts (Sim.getPosList _) (fun ps => Sim.ite ?_ Sim.pureId))
  rw [replaceFirst_pt]
  refine Sim.bindVec (Sim.crossOf _) (fun n0 => Sim.bindVec (Sim.crossOf _) (fun n1 => ?_))
  rw [dot_vec, length_vec, length_vec]
  exact Sim.pureId

theorem Sim.anyFlips {vi vj : Nat} {v : Vec3 ℝ} (fs : List Nat) : ∀ r,
    g.Sim id (TinyMesh.anyFlips vi vj v fs r) (TinyMesh.anyFlips vi vj (g.pt v) fs r) := by
  induction fs with
  | nil => intro r; exact Sim.pureId
  | cons f fs ih => intro r; exact Sim.bindId Sim.faceFlips (fun _ => ih _)

theorem Sim.anyThin (vs : List Nat) : g.Same (TinyMesh.anyThin (F := ℝ) vs) := by
  induction vs with
  | nil => exact Sim.pureId
  | cons v vs ih => exact Sim.bindId Sim.degree (fun d => Sim.ite Sim.pureId ih)

theorem Sim.qemAllowed {nv : Nat} {ck : Nat → Bool} {h : Nat} {v : Vec3 ℝ} :
    g.Sim id (TinyMesh.qemAllowed nv ck h v) (TinyMesh.qemAllowed nv ck h (g.pt v)) := by
  unfold TinyMesh.qemAllowed
  refine Sim.bindId Sim.getSrc (fun a => Sim.bindId Sim.getVIdx (fun ii => Sim.bindId Sim.getDst (fun b => Sim.bindId Sim.getVIdx (fun jj => ?_))))
  refine Sim.bindId Sim.vertexAt (fun vi => Sim.bindId Sim.vertexAt (fun vj => Sim.bindId Sim.getVIdx (fun i => Sim.bindId Sim.inRange (fun i => ?_))))
  refine Sim.ite Sim.pureId (Sim.bindId Sim.getVIdx (fun j => Sim.bindId Sim.inRange (fun j => Sim.ite Sim.pureId ?_)))
  refine Sim.bindId Sim.vIsBoundary (fun b1 => Sim.ite Sim.pureId (Sim.bindId Sim.vIsBoundary (fun b2 => Sim.ite Sim.pureId ?_)))
  refine Sim.bindId Sim.degree (fun b1 => Sim.ite Sim.pureId (Sim.bindId Sim.degree (fun b2 => Sim.ite Sim.pureId ?_)))
  refine Sim.bindId Sim.vertFaces (fun f1 => Sim.bindId Sim.vertFaces (fun f2 => Sim.bindId (Sim.anyFlips _ _) (fun fl => Sim.ite Sim.pureId ?_)))
  exact Sim.bindId Sim.ringVerts (fun si => Sim.bindId Sim.ringVerts (fun sj => Sim.bindId (Sim.anyThin _) (fun _ => Sim.pureId)))

theorem Sim.sixHalfedges {h : Nat} : g.Same (TinyMesh.sixHalfedges (F := ℝ) h) := by
  unfold TinyMesh.sixHalfedges
  exact Sim.bindId Sim.getNext (fun _ => Sim.bindId Sim.getNext (fun _ => Sim.bindId Sim.getRev (fun _ => Sim.bindId Sim.getNext (fun _ =>
    Sim.bindId Sim.getNext (fun _ => Sim.pureId)))))

theorem Sim.qemPass {nv : Nat} {target : Int} (q : List (Nat × Vec3 ℝ)) : ∀ (rm : List Nat) (ck : Nat → Bool) (nr : Int),
    g.Sim id (TinyMesh.qemPass nv target q rm ck nr) (TinyMesh.qemPass nv target (q.map g.cand) rm ck nr) := by
  induction q with
  | nil => intro rm ck nr; exact Sim.pureId
  | cons c q ih =>
    intro rm ck nr
    obtain ⟨h, v⟩ := c
    rw [List.map_cons]
    unfold TinyMesh.qemPass
    refine Sim.ite (Sim.ite (ih _ _ _) (Sim.bindId Sim.qemAllowed (fun ok => Sim.ite ?_ (ih _ _ _)))) Sim.pureId
    refine Sim.bindId Sim.sixHalfedges (fun six => Sim.bindId Sim.getSrc (fun a => Sim.bindId Sim.setPos (fun _ => Sim.bindId Sim.getVIdx (fun i => ?_))))
    exact Sim.bindId Sim.inRange (fun i => Sim.bindId Sim.collapseHE (fun d => ih _ _ _))

theorem Sim.qemFlipOne {i : Nat} : g.Same (TinyMesh.qemFlipOne (F := ℝ) i) := by
  unfold TinyMesh.qemFlipOne
  refine Sim.bindId Sim.halfedgeAt (fun h => Sim.bindId Sim.getFace (fun f => Sim.bindId Sim.fIsBoundary (fun l1 => Sim.ite Sim.pureId ?_)))
  refine Sim.bindId Sim.getRev (fun r => Sim.bindId Sim.getFace (fun f => Sim.bindId Sim.fIsBoundary (fun l1 => Sim.ite Sim.pureId ?_)))
  refine Sim.bindId Sim.getSrc (fun v0 => Sim.bindId Sim.getDst (fun v1 => Sim.bindId Sim.getNext (fun n => Sim.bindId Sim.getDst (fun v2 => ?_))))
  refine Sim.bindId Sim.getNext (fun n => Sim.bindId Sim.getDst (fun v3 => ?_))
  refine Sim.bindId Sim.degree (fun _ => Sim.bindId Sim.degree (fun _ => Sim.bindId Sim.degree (fun _ => Sim.bindId Sim.degree (fun _ => ?_))))
  exact Sim.ite (Sim.bindId Sim.flipHE (fun _ => Sim.pureId)) Sim.pureId

theorem quads_zero : g.quads (fun _ => Mat4.zero) = fun _ => Mat4.zero := by
  funext i; exact quad_zero

theorem Sim.qemTrial {S : Solver4 ℝ} (hS : S.ExactR) {ord ord' : List (Nat × Vec3 ℝ) → List (Nat × Vec3 ℝ)}
    (ho : ∀ l, ord' (l.map g.cand) = (ord l).map g.cand) {target nr : Int} :
    g.Sim id (TinyMesh.qemTrial S.base ord target nr) (TinyMesh.qemTrial S.base ord' target nr) := by
  unfold TinyMesh.qemTrial
  refine Sim.bindId (Sim.read fun _ => rfl) (fun vs => Sim.bindId (Sim.read fun _ => rfl) (fun hs => Sim.bindId (Sim.read fun _ => rfl) (fun fs => ?_)))
  have := Sim.quadrics (g := g) (nv := vs.length) fs (fun _ => Mat4.zero)
  rw [quads_zero] at this
  refine Sim.bind this (fun qs => ?_)
  cases qs with
  | none => exact Sim.pureId
  | some qs =>
    refine Sim.bind (Sim.candidates hS _) (fun cs => ?_)
    rw [ho]
    exact Sim.bindId (Sim.qemPass _ _ _ _) (fun _ => Sim.pureId)

theorem Sim.qemLoop {S : Solver4 ℝ} (hS : S.ExactR) {ord ord' : Nat → List (Nat × Vec3 ℝ) → List (Nat × Vec3 ℝ)}
    (ho : ∀ k l, ord' k (l.map g.cand) = (ord k l).map g.cand) {target mt : Int} (fuel : Nat) : ∀ (k : Nat) (trial nr : Int),
    g.Sim id (TinyMesh.qemLoop S.base ord target mt fuel k trial nr) (TinyMesh.qemLoop S.base ord' target mt fuel k trial nr) := by
  induction fuel with
  | zero => intro k trial nr; exact Sim.fail
  | succ n ih =>
    intro k trial nr
    unfold TinyMesh.qemLoop
    refine Sim.ite (Sim.bindId (Sim.read fun _ => rfl) (fun nf => Sim.bindId (Sim.qemTrial hS (ho k)) (fun r => ?_))) Sim.pureId
    cases r with
    | none => exact Sim.pureId
    | some nr =>
      refine Sim.bindId (Sim.forHalfedges (fun _ => Sim.qemFlipOne)) (fun _ => Sim.bindId Sim.smoothTaubinDefault (fun _ => Sim.ite Sim.pureId ?_))
      exact Sim.bindId (Sim.read fun _ => rfl) (fun nf' => ih _ _ _)

theorem Sim.simplifyQEM {S : Solver4 ℝ} (hS : S.ExactR) {ord ord' : Nat → List (Nat × Vec3 ℝ) → List (Nat × Vec3 ℝ)}
    (ho : ∀ k l, ord' k (l.map g.cand) = (ord k l).map g.cand) {numTarget mt : Int} :
    g.Sim id (TinyMesh.simplifyQEM S.base ord numTarget mt) (TinyMesh.simplifyQEM S.base ord' numTarget mt) := by
  unfold TinyMesh.simplifyQEM
  refine Sim.bindId (Sim.read fun _ => rfl) (fun nf => Sim.ite Sim.fail (Sim.ite Sim.fail (Sim.ite Sim.pureId ?_)))
  exact Sim.bindId (Sim.smoothLaplacian _) (fun _ => Sim.qemLoop hS ho _ _ _ _)

/-! ### The queue -/

theorem Sim.qemNodes {S : Solver4 ℝ} (hS : S.ExactR) {nv : Nat} {qs : Nat → Mat4 ℝ} (hs : List Nat) :
    g.Sim (List.map g.node) (TinyMesh.qemNodes S nv qs hs) (TinyMesh.qemNodes S nv (g.quads qs) hs) := by
  induction hs with
  | nil => exact Sim.ret rfl
  | cons h hs ih =>
    unfold TinyMesh.qemNodes
    refine Sim.bindId Sim.getSrc (fun v1 => Sim.bindId Sim.getDst (fun v2 => Sim.bindId Sim.getVIdx (fun i1 => Sim.bindId Sim.getVIdx (fun i2 => ?_))))
    refine Sim.bindId Sim.inRange (fun k1 => Sim.bindId Sim.inRange (fun k2 => Sim.bindPt Sim.getPos (fun p1 => Sim.bindPt Sim.getPos (fun p2 => ?_))))
    refine Sim.bind ih (fun rest => Sim.ret ?_)
    have e := vBar_pt (g := g) hS (qs k1) (qs k2) p1 p2
    have e2 := cart_hom (g := g) e.2
    rw [← e.1] at e2
    simp only [quads, qemValue_pt hS, List.map_cons, node]
    exact congrArg (fun x => (⟨_, h, x⟩ : QEMNode ℝ) :: rest.map g.node) e2

theorem Sim.queueTrial {S : Solver4 ℝ} (hS : S.ExactR) {pop pop' : List (QEMNode ℝ) → List (QEMNode ℝ)}
    (ho : ∀ l, pop' (l.map g.node) = (pop l).map g.node) {target nr : Int} :
    g.Sim id (TinyMesh.queueTrial S pop target nr) (TinyMesh.queueTrial S pop' target nr) := by
  unfold TinyMesh.queueTrial
  refine Sim.bindId (Sim.read fun _ => rfl) (fun vs => Sim.bindId (Sim.read fun _ => rfl) (fun hs => Sim.bindId (Sim.read fun _ => rfl) (fun fs => ?_)))
  have := Sim.quadrics (g := g) (nv := vs.length) fs (fun _ => Mat4.zero)
  rw [quads_zero] at this
  refine Sim.bind this (fun qs => ?_)
  cases qs with
  | none => exact Sim.pureId
  | some qs =>
    refine Sim.bind (Sim.qemNodes hS _) (fun ns => ?_)
    rw [ho]
    have := Sim.qemPass (g := g) (nv := vs.length) (target := target) ((pop ns).map fun n => (n.he, n.v)) [] (fun _ => false) nr
    rw [List.map_map] at this ⊢
    exact Sim.bindId this (fun _ => Sim.pureId)

end Motion
end TinyMesh
