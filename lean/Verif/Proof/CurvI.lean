import Verif.Proof.CurvH
import Verif.Proof.Reads
/-
Faces that are no triangles in the curvature functions.
-/
namespace TinyMesh
open Orbit

theorem OnlyReads.orThrowM {F α : Type} (o : Option α) : OnlyReads (TinyMesh.orThrowM o : M F α) := by
  cases o with
  | none => exact OnlyReads.fail _
  | some a => exact OnlyReads.pure a

theorem OnlyReads.atIdx {F α : Type} (l : List α) (i : Int) : OnlyReads (TinyMesh.atIdx l i : M F α) := by
  unfold TinyMesh.atIdx
  refine OnlyReads.ite (OnlyReads.fail _) ?_
  split
  · exact OnlyReads.pure _
  · exact OnlyReads.fail _

theorem OnlyReads.eachM {F α : Type} {f : Nat → M F α} (h : ∀ i, OnlyReads (f i)) : ∀ is, OnlyReads (TinyMesh.eachM f is)
  | [] => OnlyReads.pure _
  | i :: is => OnlyReads.bind (h i) fun _ => OnlyReads.bind (eachM h is) fun _ => OnlyReads.pure _

theorem OnlyReads.ringVerts {F : Type} (v : Nat) : OnlyReads (TinyMesh.ringVerts v : M F (List Nat)) := by
  unfold TinyMesh.ringVerts
  exact OnlyReads.bind (OnlyReads.getVHe _) fun _ => OnlyReads.circ OnlyReads.ringStep fun _ _ =>
    OnlyReads.bind (OnlyReads.getDst _) fun _ => OnlyReads.pure _

theorem OnlyReads.faceVerts {F : Type} (v : Nat) : OnlyReads (TinyMesh.faceVerts v : M F (List Nat)) := by
  unfold TinyMesh.faceVerts
  exact OnlyReads.bind (OnlyReads.getFHe _) fun _ => OnlyReads.circ OnlyReads.faceStep fun _ _ => by only_reads

/-- a step of a program that returns normally -/
theorem OnlyReads.step {F α β : Type} {x : M F α} (hx : OnlyReads x) {f : α → M F β} {m m' : Mesh F} {b : β}
    (h : (x >>= f) m = .ok b m') : ∃ a, x m = .ok a m ∧ f a m = .ok b m' := by
  rw [bind_apply] at h
  split at h
  · next a m1 e =>
    cases hx m a m1 e
    exact ⟨a, e, h⟩
  · cases h

section
variable {F : Type} [ScalarX F]

theorem OnlyReads.vertNormal (v : Nat) : OnlyReads (TinyMesh.vertNormal v : M F (Vec3 F)) := by
  unfold TinyMesh.vertNormal
  refine OnlyReads.bind (OnlyReads.getVHe _) fun _ => OnlyReads.bind (OnlyReads.circ OnlyReads.ringStep fun _ _ => ?_) fun _ => OnlyReads.orThrowM _
  only_reads
  all_goals first | exact OnlyReads.getDst _ | exact OnlyReads.orThrowM _

theorem OnlyReads.smoothNormLoop (ns : List (Vec3 F)) (avg : F) (v : Nat) : ∀ us n s, OnlyReads (TinyMesh.smoothNormLoop ns avg v us n s)
  | [], _, _ => OnlyReads.pure _
  | u :: us, n, s => by
    unfold TinyMesh.smoothNormLoop
    exact OnlyReads.bind (OnlyReads.getPos _) fun _ => OnlyReads.bind (OnlyReads.getPos _) fun _ => OnlyReads.bind (OnlyReads.getVIdx _) fun _ =>
      OnlyReads.bind (OnlyReads.atIdx _ _) fun _ => smoothNormLoop ns avg v us _ _

theorem OnlyReads.smoothNorm (ns : List (Vec3 F)) (avg : F) (i : Nat) : OnlyReads (TinyMesh.smoothNorm ns avg i) := by
  unfold TinyMesh.smoothNorm
  exact OnlyReads.bind (OnlyReads.vertexAt _) fun _ => OnlyReads.bind (OnlyReads.atIdx _ _) fun _ => OnlyReads.bind (OnlyReads.ringVerts _) fun _ =>
    OnlyReads.bind (OnlyReads.smoothNormLoop _ _ _ _ _ _) fun _ => OnlyReads.bind (OnlyReads.orThrowM _) fun _ => OnlyReads.orThrowM _

theorem OnlyReads.triVerts (f : Nat) : OnlyReads (TinyMesh.triVerts f : M F (Nat × Nat × Nat)) := by
  unfold TinyMesh.triVerts
  refine OnlyReads.bind (OnlyReads.faceVerts _) fun l => ?_
  split
  · exact OnlyReads.pure _
  · exact OnlyReads.fail _

theorem OnlyReads.curvFace (solve : LinSolve F) (i : Nat) : OnlyReads (TinyMesh.curvFace solve i) := by
  unfold TinyMesh.curvFace
  exact OnlyReads.bind (OnlyReads.faceAt _) fun _ => OnlyReads.bind (OnlyReads.triVerts _) fun _ => OnlyReads.bind (OnlyReads.getPos _) fun _ =>
    OnlyReads.bind (OnlyReads.getPos _) fun _ => OnlyReads.bind (OnlyReads.getPos _) fun _ => OnlyReads.bind (OnlyReads.vertNormal _) fun _ =>
    OnlyReads.bind (OnlyReads.vertNormal _) fun _ => OnlyReads.bind (OnlyReads.vertNormal _) fun _ => OnlyReads.bind (OnlyReads.orThrowM _) fun _ =>
    OnlyReads.pure _

/-- every round of a loop that returns normally returns normally -/
theorem eachM_inv {α : Type} {f : Nat → M F α} (h : ∀ i, OnlyReads (f i)) {m m' : Mesh F} : ∀ {is : List Nat} {rs : List α},
    eachM f is m = .ok rs m' → ∀ i ∈ is, ∃ r, f i m = .ok r m
  | [], _, _, _, hi => by cases hi
  | i :: is, rs, e, j, hj => by
    obtain ⟨r, h1, h2⟩ := OnlyReads.step (h i) (show (f i >>= _) m = _ from e)
    obtain ⟨rs', h3, -⟩ := OnlyReads.step (OnlyReads.eachM h is) (show (eachM f is >>= _) m = _ from h2)
    rcases List.mem_cons.1 hj with rfl | hj
    · exact ⟨r, h1⟩
    · exact eachM_inv h h3 j hj

/-- the faces of a mesh whose curvature tensors are returned have three corners -/
theorem curvatureTensors_tri {m m' : Mesh F} (w : m.WF) {solve : LinSolve F} {ts : List (Mat2 F × LFrame F)}
    (e : curvatureTensors solve m = .ok ts m') {f : Nat} (a : m.fAlive f = true) : (orbit m.hNext (m.fHe f)).length = 3 := by
  unfold curvatureTensors at e
  obtain ⟨nv, h1, e⟩ := OnlyReads.step (OnlyReads.read _) e
  obtain ⟨nf, h2, e⟩ := OnlyReads.step (OnlyReads.read _) e
  obtain ⟨ns, -, e⟩ := OnlyReads.step (OnlyReads.eachM (fun i => OnlyReads.bind (OnlyReads.vertexAt _) fun _ => OnlyReads.vertNormal _) _) e
  obtain ⟨avg, -, e⟩ := OnlyReads.step OnlyReads.meanEdgeLength e
  obtain ⟨-, -, e⟩ := OnlyReads.step (OnlyReads.eachM (OnlyReads.smoothNorm _ _) _) e
  obtain ⟨faces, h3, e⟩ := OnlyReads.step (OnlyReads.eachM (OnlyReads.curvFace _) _) e
  obtain ⟨i, hi⟩ := List.mem_iff_getElem?.1 ((w.fDense.mem f).2 a)
  have hl : nf = m.fs.length := by cases h2; rfl
  obtain ⟨r, hr⟩ := eachM_inv (OnlyReads.curvFace solve) h3 i (List.mem_range.2 (by rw [hl]; exact (List.getElem?_eq_some_iff.1 hi).1))
  unfold curvFace at hr
  have hf : faceAt (i : Int) m = .ok f m := by
    unfold faceAt arrayAt
    rw [if_neg (by omega)]
    simp [hi]
  rw [bind_apply, hf] at hr
  obtain ⟨x, hx, -⟩ := OnlyReads.step (OnlyReads.triVerts f) hr
  unfold triVerts at hx
  rw [bind_apply, w.faceVerts_ok a] at hx
  dsimp only at hx
  rw [← List.length_map (f := m.hSrc)]
  generalize (orbit m.hNext (m.fHe f)).map m.hSrc = l at hx ⊢
  rcases l with _ | ⟨_, _ | ⟨_, _ | ⟨_, _ | ⟨_, _⟩⟩⟩⟩
  · cases hx
  · cases hx
  · cases hx
  · rfl
  · cases hx

theorem tensorsFor_tri {m m' : Mesh F} (w : m.WF) {solve : LinSolve F} {sm : Bool} {ts : List (Mat2 F × LFrame F)}
    (e : tensorsFor solve sm m = .ok ts m') {f : Nat} (a : m.fAlive f = true) : (orbit m.hNext (m.fHe f)).length = 3 := by
  unfold tensorsFor at e
  rw [bind_apply] at e
  split at e
  · next h => exact curvatureTensors_tri w h a
  · cases e

theorem principalCurvatures_tri {m m' : Mesh F} (w : m.WF) {solve : LinSolve F} {sm : Bool} {ks : List (Principal F)}
    (e : principalCurvatures solve sm m = .ok ks m') {f : Nat} (a : m.fAlive f = true) : (orbit m.hNext (m.fHe f)).length = 3 := by
  unfold principalCurvatures at e
  rw [bind_apply] at e
  split at e
  · next h => exact tensorsFor_tri w h a
  · cases e

theorem principalDerivatives_tri {m m' : Mesh F} (w : m.WF) {solve : LinSolve F} {sm : Bool} {r : List (Principal F) × List (F × F)}
    (e : principalDerivatives solve sm m = .ok r m') {f : Nat} (a : m.fAlive f = true) : (orbit m.hNext (m.fHe f)).length = 3 := by
  unfold principalDerivatives at e
  rw [bind_apply] at e
  split at e
  · next h => exact tensorsFor_tri w h a
  · cases e

end
end TinyMesh
