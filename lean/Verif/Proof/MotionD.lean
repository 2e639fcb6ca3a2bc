import Verif.Proof.MotionC
import Verif.Spec.Moved
import Verif.Model.Lines
/-
Curvature tensors, principal curvatures and feature lines turn with the mesh.
-/
namespace TinyMesh
namespace Motion
variable {g : Motion} {α β γ δ : Type}

/-- a turned frame -/
def frame (g : Motion) (f : LFrame ℝ) : LFrame ℝ := ⟨g.vec f.u, g.vec f.v, g.vec f.n⟩

theorem rotAxis_apply (θ : ℝ) (k x : Vec3 ℝ) : (rotAxis θ k).apply x =
    (x.add ((k.cross x).smul (Real.sin θ))).add ((k.cross (k.cross x)).smul (1 - Real.cos θ)) := by
  simp only [rotAxis, Mat3.apply, Mat3.add, Mat3.mul, Mat3.scale, Mat3.one, crossMat, Vec3.add, Vec3.smul, Vec3.cross, R_lit0, R_lit1,
    R_sin, R_cos]
  refine Vec3.ext' ?_ ?_ ?_ <;> simp <;> ring

theorem one_apply (x : Vec3 ℝ) : (Mat3.one : Mat3 ℝ).apply x = x := by
  simp only [Mat3.apply, Mat3.one, R_lit0, R_lit1]
  refine Vec3.ext' ?_ ?_ ?_ <;> simp

/-- the rotation between two turned vectors is the turned rotation -/
theorem rotTwo_vec (a b : Vec3 ℝ) : (rotTwo a b = none ∧ rotTwo (g.vec a) (g.vec b) = none) ∨
    ∃ R R', rotTwo a b = some R ∧ rotTwo (g.vec a) (g.vec b) = some R' ∧ ∀ x, R'.apply (g.vec x) = g.vec (R.apply x) := by
  unfold rotTwo
  simp only [cross_vec, length_vec, dot_vec, vec_normalize]
  split
  · exact .inr ⟨_, _, rfl, rfl, fun x => by rw [one_apply, one_apply]⟩
  · cases (a.cross b).normalize? with
    | none => exact .inl ⟨rfl, rfl⟩
    | some n =>
      refine .inr ⟨_, _, rfl, rfl, fun x => ?_⟩
      simp only [rotAxis_apply, cross_vec, vec_smul, vec_add]

theorem coords2_vec (x u v : Vec3 ℝ) : coords2 (g.vec x) (g.vec u) (g.vec v) = coords2 x u v := by
  simp only [coords2, dot_vec]

theorem turned_frame (f f' : LFrame ℝ) : turned (g.frame f) (g.frame f') = turned f f' := by
  unfold turned
  simp only [frame]
  rcases rotTwo_vec (g := g) f.n f'.n with ⟨h1, h2⟩ | ⟨R, R', h1, h2, h⟩
  · rw [h1, h2]; rfl
  · rw [h1, h2]; simp only [Option.map_some, h, coords2_vec]

theorem turnedUnit_frame (f f' : LFrame ℝ) : turnedUnit (g.frame f) (g.frame f') = turnedUnit f f' := by
  unfold turnedUnit
  simp only [frame]
  rcases rotTwo_vec (g := g) f.n f'.n with ⟨h1, h2⟩ | ⟨R, R', h1, h2, h⟩
  · rw [h1, h2]; rfl
  · rw [h1, h2]
    simp only [Option.bind_eq_bind, Option.bind_some, h, vec_normalize]
    cases (R.apply f.u).normalize? with
    | none => rfl
    | some x =>
      cases (R.apply f.v).normalize? with
      | none => rfl
      | some y => simp only [Option.map_some, Option.bind_some, coords2_vec]

theorem cornerForm_vec (f : LFrame ℝ) (k : Principal ℝ) (n : Vec3 ℝ) : cornerForm (g.frame f) (g.princ k) (g.vec n) = cornerForm f k n := by
  unfold cornerForm
  simp only [frame, princ]
  rcases rotTwo_vec (g := g) f.n n with ⟨h1, h2⟩ | ⟨R, R', h1, h2, h⟩
  · rw [h1, h2]; rfl
  · rw [h1, h2]; simp only [Option.map_some, h, coords2_vec]

theorem faceFrame_pt (a b c : Vec3 ℝ) : faceFrame (g.pt a) (g.pt b) (g.pt c) = (faceFrame a b c).map g.frame := by
  unfold faceFrame
  simp only [pt_sub, cross_vec, vec_normalize, Option.bind_eq_bind]
  cases (c.sub b).normalize? with
  | none => rfl
  | some u =>
    cases ((c.sub b).cross (a.sub c)).normalize? with
    | none => rfl
    | some n =>
      simp only [Option.map_some, Option.bind_some, cross_vec, vec_normalize]
      cases (n.cross u).normalize? with
      | none => rfl
      | some v => rfl

theorem faceTensor_pt (solve : LinSolve ℝ) (f : LFrame ℝ) (a b c n0 n1 n2 : Vec3 ℝ) :
    faceTensor solve (g.frame f) (g.pt a) (g.pt b) (g.pt c) (g.vec n0) (g.vec n1) (g.vec n2) = faceTensor solve f a b c n0 n1 n2 := by
  simp only [faceTensor, edgeDiffs, gramSums, curvRhs, List.map_cons, List.map_nil, List.foldl_cons, List.foldl_nil, pt_sub, vec_sub,
    frame, dot_vec]

theorem faceDeriv_pt (solve : LinSolve ℝ) (f : LFrame ℝ) (a b c : Vec3 ℝ) (m0 m1 m2 : ℝ × ℝ × ℝ) :
    faceDeriv solve (g.frame f) (g.pt a) (g.pt b) (g.pt c) m0 m1 m2 = faceDeriv solve f a b c m0 m1 m2 := by
  simp only [faceDeriv, edgeDiffs, gramSums, derivRhs, List.map_cons, List.map_nil, List.foldl_cons, List.foldl_nil, pt_sub,
    frame, dot_vec]

theorem principal_vec (M : Mat2 ℝ) (u v n : Vec3 ℝ) :
    principal M (g.vec u) (g.vec v) (g.vec n) = (principal M u v n).map g.princ := by
  unfold principal
  simp only [vec_smul, vec_sub, vec_add]
  by_cases hc : Scalar.lt (M.m00 - (jacobi M).2.2 * M.m01) (M.m11 + (jacobi M).2.2 * M.m01) = true
  · simp only [hc, if_true, cross_vec, vec_normalize]
    cases (n.cross _).normalize? with
    | none => rfl
    | some x =>
      simp only [Option.map_some]
      split
      · simp only [Except.map, princ, vec_zero]
      · rfl
  · simp only [hc, if_false, Bool.false_eq_true, cross_vec, vec_normalize]
    cases (n.cross _).normalize? with
    | none => rfl
    | some x =>
      simp only [Option.map_some]
      split
      · simp only [Except.map, princ, vec_zero]
      · rfl

/-! ### Programs -/

theorem Sim.eachM {φ : α → β} {f : Nat → M ℝ α} {f' : Nat → M ℝ β} (h : ∀ i, g.Sim φ (f i) (f' i)) (l : List Nat) :
    g.Sim (List.map φ) (TinyMesh.eachM f l) (TinyMesh.eachM f' l) := by
  induction l with
  | nil => exact Sim.ret rfl
  | cons i l ih =>
    unfold TinyMesh.eachM
    exact Sim.bind (h i) (fun a => Sim.bind ih (fun r => Sim.ret rfl))

theorem Sim.atIdx {φ : α → β} {l : List α} {i : Int} : g.Sim φ (TinyMesh.atIdx l i) (TinyMesh.atIdx (l.map φ) i) := by
  unfold TinyMesh.atIdx
  refine Sim.ite Sim.fail ?_
  rw [List.getElem?_map]
  cases l[i.toNat]? with
  | none => exact Sim.fail
  | some a => exact Sim.ret rfl

theorem Sim.atIdxId {l : List α} {i : Int} : g.Sim id (TinyMesh.atIdx (F := ℝ) l i) (TinyMesh.atIdx l i) := by
  have := Sim.atIdx (g := g) (φ := (id : α → α)) (l := l) (i := i)
  rwa [List.map_id] at this

theorem Sim.triVerts {f : Nat} : g.Sim id (TinyMesh.triVerts (F := ℝ) f) (TinyMesh.triVerts f) := by
  unfold TinyMesh.triVerts
  sim
  split
  · exact Sim.pureId
  · exact Sim.fail

/-- tensors with turned frames -/
def tens (g : Motion) (t : Mat2 ℝ × LFrame ℝ) : Mat2 ℝ × LFrame ℝ := (t.1, g.frame t.2)

theorem Sim.curvFace {solve : LinSolve ℝ} {i : Nat} : g.Sim g.tens (TinyMesh.curvFace solve i) (TinyMesh.curvFace solve i) := by
  unfold TinyMesh.curvFace
  refine Sim.bindId Sim.faceAt (fun f => Sim.bindId Sim.triVerts (fun abc => ?_))
  obtain ⟨a, b, c⟩ := abc
  refine Sim.bindPt Sim.getPos (fun p0 => Sim.bindPt Sim.getPos (fun p1 => Sim.bindPt Sim.getPos (fun p2 => ?_)))
  refine Sim.bindVec Sim.vertNormal (fun n0 => Sim.bindVec Sim.vertNormal (fun n1 => Sim.bindVec Sim.vertNormal (fun n2 => ?_)))
  refine Sim.bind (Sim.orThrowM (faceFrame_pt p0 p1 p2)) (fun fr => ?_)
  rw [faceTensor_pt]
  exact Sim.ret rfl

theorem Sim.smoothNormLoop (ns : List (Vec3 ℝ)) (avg : ℝ) (v : Nat) (l : List Nat) : ∀ (n : Vec3 ℝ) (s : ℝ),
    g.Sim (Prod.map g.vec id) (TinyMesh.smoothNormLoop ns avg v l n s) (TinyMesh.smoothNormLoop (ns.map g.vec) avg v l (g.vec n) s) := by
  induction l with
  | nil => intro n s; exact Sim.ret rfl
  | cons u l ih =>
    intro n s
    unfold TinyMesh.smoothNormLoop
    sim
    refine Sim.bindVec Sim.atIdx (fun nj => ?_)
    rw [gaussW_pt, vec_smul, vec_add]
    exact ih _ _

theorem Sim.smoothNorm {ns : List (Vec3 ℝ)} {avg : ℝ} {i : Nat} :
    g.Sim g.vec (TinyMesh.smoothNorm ns avg i) (TinyMesh.smoothNorm (ns.map g.vec) avg i) := by
  unfold TinyMesh.smoothNorm
  refine Sim.bindId Sim.vertexAt (fun v => Sim.bindVec Sim.atIdx (fun n => Sim.bindId Sim.ringVerts (fun us => ?_)))
  refine Sim.bind (Sim.smoothNormLoop _ _ _ _ _ _) (fun r => ?_)
  obtain ⟨n, s⟩ := r
  exact Sim.bindVec (Sim.orThrowM (vec_div g s n)) (fun n => Sim.orThrowM (vec_normalize g n))

theorem Sim.vertFrame {v : Nat} : g.Sim g.frame (TinyMesh.vertFrame v) (TinyMesh.vertFrame v) := by
  unfold TinyMesh.vertFrame
  refine Sim.bindVec Sim.vertNormal (fun np => Sim.bindId Sim.ringVerts (fun us => ?_))
  refine Sim.bindVec ?_ (fun up => ?_)
  · cases us with
    | nil => exact Sim.ret g.vec_zero.symm
    | cons u us =>
      refine Sim.bindPt Sim.getPos (fun q => Sim.bindPt Sim.getPos (fun p => ?_))
      rw [pt_sub]
      exact Sim.orThrowM (vec_normalize g _)
  · rw [cross_vec]
    exact Sim.bindVec (Sim.orThrowM (vec_normalize g _)) (fun vp => Sim.ret rfl)

theorem Sim.orThrowId {o : Option α} : g.Sim id (TinyMesh.orThrowM (F := ℝ) o) (TinyMesh.orThrowM o) := Sim.orThrowM (by cases o <;> rfl)

theorem Sim.curvVertLoop (faces : List (Mat2 ℝ × LFrame ℝ)) (fr : LFrame ℝ) (v : Nat) (l : List Nat) : ∀ (M : Mat2 ℝ) (s : ℝ),
    g.Sim id (TinyMesh.curvVertLoop faces fr v l M s) (TinyMesh.curvVertLoop (faces.map g.tens) (g.frame fr) v l M s) := by
  induction l with
  | nil => intro M s; exact Sim.pureId
  | cons f l ih =>
    intro M s
    unfold TinyMesh.curvVertLoop
    refine Sim.bindId Sim.getFIdx (fun j => Sim.bind Sim.atIdx (fun t => ?_))
    obtain ⟨Mf, ff⟩ := t
    simp only [tens]
    rw [turned_frame]
    refine Sim.bindId Sim.orThrowId (fun xy => Sim.bindId Sim.vorFace (fun w => ih _ _))

theorem Sim.curvVert {faces : List (Mat2 ℝ × LFrame ℝ)} {i : Nat} :
    g.Sim g.tens (TinyMesh.curvVert faces i) (TinyMesh.curvVert (faces.map g.tens) i) := by
  unfold TinyMesh.curvVert
  refine Sim.bindId Sim.vertexAt (fun v => Sim.bind Sim.vertFrame (fun fr => Sim.bindId Sim.vertFaces (fun gs => ?_)))
  exact Sim.bindId (Sim.curvVertLoop _ _ _ _ _ _) (fun r => Sim.ret rfl)

theorem Sim.curvatureTensors {solve : LinSolve ℝ} :
    g.Sim (List.map g.tens) (TinyMesh.curvatureTensors solve) (TinyMesh.curvatureTensors solve) := by
  unfold TinyMesh.curvatureTensors
  refine Sim.bindId (Sim.read fun _ => rfl) (fun nv => Sim.bindId (Sim.read fun _ => rfl) (fun nf => ?_))
  refine Sim.bind (Sim.eachM (φ := g.vec) (fun i => Sim.bindId Sim.vertexAt (fun v => Sim.vertNormal)) _) (fun normals => ?_)
  refine Sim.bindId Sim.meanEdgeLength (fun avg => Sim.bind (Sim.eachM (fun i => Sim.smoothNorm) _) (fun _ => ?_))
  exact Sim.bind (Sim.eachM (fun i => Sim.curvFace) _) (fun faces => Sim.eachM (fun i => Sim.curvVert) _)

theorem Sim.smoothTensorLoop (ts : List (Mat2 ℝ × LFrame ℝ)) (avg : ℝ) (fr : LFrame ℝ) (v : Nat) (l : List Nat) : ∀ (M : Mat2 ℝ) (s : ℝ),
    g.Sim id (TinyMesh.smoothTensorLoop ts avg fr v l M s) (TinyMesh.smoothTensorLoop (ts.map g.tens) avg (g.frame fr) v l M s) := by
  induction l with
  | nil => intro M s; exact Sim.pureId
  | cons u l ih =>
    intro M s
    unfold TinyMesh.smoothTensorLoop
    sim
    refine Sim.bind Sim.atIdx (fun t => ?_)
    obtain ⟨Mp, fp⟩ := t
    simp only [tens]
    rw [turnedUnit_frame, gaussW_pt]
    exact Sim.bindId Sim.orThrowId (fun xy => ih _ _)

theorem Sim.smoothTensor {ts : List (Mat2 ℝ × LFrame ℝ)} {avg : ℝ} {i : Nat} :
    g.Sim g.tens (TinyMesh.smoothTensor ts avg i) (TinyMesh.smoothTensor (ts.map g.tens) avg i) := by
  unfold TinyMesh.smoothTensor
  refine Sim.bindId Sim.vertexAt (fun v => Sim.bind Sim.atIdx (fun t => Sim.bindId Sim.ringVerts (fun us => ?_)))
  obtain ⟨M, fr⟩ := t
  exact Sim.bindId (Sim.smoothTensorLoop _ _ _ _ _ _ _) (fun r => Sim.ret rfl)

theorem Sim.smoothTensors {ts : List (Mat2 ℝ × LFrame ℝ)} :
    g.Sim (List.map g.tens) (TinyMesh.smoothTensors ts) (TinyMesh.smoothTensors (ts.map g.tens)) := by
  unfold TinyMesh.smoothTensors
  rw [List.length_map]
  exact Sim.bindId Sim.meanEdgeLength (fun avg => Sim.eachM (fun i => Sim.smoothTensor) _)

theorem Sim.tensorsFor {solve : LinSolve ℝ} {smooth : Bool} :
    g.Sim (List.map g.tens) (TinyMesh.tensorsFor solve smooth) (TinyMesh.tensorsFor solve smooth) := by
  unfold TinyMesh.tensorsFor
  refine Sim.bind Sim.curvatureTensors (fun t => ?_)
  exact Sim.ite Sim.smoothTensors (Sim.ret rfl)

theorem Sim.liftE {φ : α → β} {x : Except Err α} {y : Except Err β} (h : y = x.map φ) : g.Sim φ (TinyMesh.liftE x) (TinyMesh.liftE y) := by
  subst h
  cases x
  · exact Sim.fail
  · exact Sim.ret rfl

theorem Sim.principals (ts : List (Mat2 ℝ × LFrame ℝ)) :
    g.Sim (List.map g.princ) (TinyMesh.principals ts) (TinyMesh.principals (ts.map g.tens)) := by
  induction ts with
  | nil => exact Sim.ret rfl
  | cons t ts ih =>
    rw [List.map_cons]
    unfold TinyMesh.principals
    exact Sim.bind (Sim.liftE (principal_vec _ _ _ _)) (fun k => Sim.bind ih (fun ks => Sim.ret rfl))

theorem Sim.principalCurvatures {solve : LinSolve ℝ} {smooth : Bool} :
    g.Sim (List.map g.princ) (TinyMesh.principalCurvatures solve smooth) (TinyMesh.principalCurvatures solve smooth) := by
  unfold TinyMesh.principalCurvatures
  exact Sim.bind Sim.tensorsFor (fun t => Sim.principals t)

/-! ### Derivatives -/

/-- cubic forms with turned frames -/
def cubs (g : Motion) (t : Cubic ℝ × LFrame ℝ) : Cubic ℝ × LFrame ℝ := (t.1, g.frame t.2)

theorem Sim.derivFace {solve : LinSolve ℝ} {ks : List (Principal ℝ)} {ts : List (Mat2 ℝ × LFrame ℝ)} {i : Nat} :
    g.Sim g.cubs (TinyMesh.derivFace solve ks ts i) (TinyMesh.derivFace solve (ks.map g.princ) (ts.map g.tens) i) := by
  unfold TinyMesh.derivFace
  refine Sim.bindId Sim.faceAt (fun f => Sim.bindId Sim.triVerts (fun abc => ?_))
  obtain ⟨a, b, c⟩ := abc
  refine Sim.bindPt Sim.getPos (fun p0 => Sim.bindPt Sim.getPos (fun p1 => Sim.bindPt Sim.getPos (fun p2 => ?_)))
  refine Sim.bindId Sim.getVIdx (fun i0 => Sim.bindId Sim.getVIdx (fun i1 => Sim.bindId Sim.getVIdx (fun i2 => ?_)))
  refine Sim.bind (Sim.orThrowM (faceFrame_pt p0 p1 p2)) (fun fr => ?_)
  refine Sim.bind Sim.atIdx (fun k0 => Sim.bind Sim.atIdx (fun t0 => ?_))
  refine Sim.bindId (by rw [show (g.tens t0).2.n = g.vec t0.2.n from rfl, cornerForm_vec]; exact Sim.orThrowId) (fun m0 => ?_)
  refine Sim.bind Sim.atIdx (fun k1 => Sim.bind Sim.atIdx (fun t1 => ?_))
  refine Sim.bindId (by rw [show (g.tens t1).2.n = g.vec t1.2.n from rfl, cornerForm_vec]; exact Sim.orThrowId) (fun m1 => ?_)
  refine Sim.bind Sim.atIdx (fun k2 => Sim.bind Sim.atIdx (fun t2 => ?_))
  refine Sim.bindId (by rw [show (g.tens t2).2.n = g.vec t2.2.n from rfl, cornerForm_vec]; exact Sim.orThrowId) (fun m2 => ?_)
  rw [faceDeriv_pt]
  exact Sim.ret rfl

theorem Sim.derivVertLoop (faces : List (Cubic ℝ × LFrame ℝ)) (fr : LFrame ℝ) (v : Nat) (l : List Nat) : ∀ (C : Cubic ℝ) (s : ℝ),
    g.Sim id (TinyMesh.derivVertLoop faces fr v l C s) (TinyMesh.derivVertLoop (faces.map g.cubs) (g.frame fr) v l C s) := by
  induction l with
  | nil => intro M s; exact Sim.pureId
  | cons f l ih =>
    intro M s
    unfold TinyMesh.derivVertLoop
    refine Sim.bindId Sim.getFIdx (fun j => Sim.bind Sim.atIdx (fun t => ?_))
    obtain ⟨Cf, ff⟩ := t
    simp only [cubs]
    rw [turned_frame]
    refine Sim.bindId Sim.orThrowId (fun xy => Sim.bindId Sim.vorFace (fun w => ih _ _))

theorem Sim.derivVert {ks : List (Principal ℝ)} {ts : List (Mat2 ℝ × LFrame ℝ)} {faces : List (Cubic ℝ × LFrame ℝ)} {i : Nat} :
    g.Sim id (TinyMesh.derivVert ks ts faces i) (TinyMesh.derivVert (ks.map g.princ) (ts.map g.tens) (faces.map g.cubs) i) := by
  unfold TinyMesh.derivVert
  refine Sim.bindId Sim.vertexAt (fun v => Sim.bind Sim.atIdx (fun t => Sim.bindId Sim.vertFaces (fun gs => ?_)))
  refine Sim.bindId (Sim.derivVertLoop _ _ _ _ _ _) (fun r => Sim.bind Sim.atIdx (fun k => ?_))
  simp only [tens, princ, frame, coords2_vec]
  exact Sim.pureId

theorem Sim.principalDerivatives {solve : LinSolve ℝ} {smooth : Bool} :
    g.Sim (Prod.map (List.map g.princ) id) (TinyMesh.principalDerivatives solve smooth) (TinyMesh.principalDerivatives solve smooth) := by
  unfold TinyMesh.principalDerivatives
  refine Sim.bind Sim.tensorsFor (fun t => Sim.bind (Sim.principals t) (fun ks => Sim.bindId (Sim.read fun _ => rfl) (fun nf => ?_)))
  refine Sim.bind (Sim.eachM (fun i => Sim.derivFace) _) (fun faces => Sim.bindId (Sim.read fun _ => rfl) (fun nv => ?_))
  refine Sim.bind (Sim.eachM (fun i => Sim.derivVert) _) (fun es => ?_)
  rw [List.map_id]
  exact Sim.ret rfl

end Motion
end TinyMesh
