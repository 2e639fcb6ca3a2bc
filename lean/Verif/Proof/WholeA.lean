import Verif.Proof.SettleB
import Verif.Proof.CurvI
import Verif.Model.Context
/-
The curvatures, the feature lines and the search of an iteration of the context coherent completion only read the mesh.
-/
namespace TinyMesh

/-- one step of `reads`; every lemma below adds itself -/
syntax "reads1" : tactic
macro_rules | `(tactic| reads1) => `(tactic| with_reducible exact OnlyReads.pure _)
macro_rules | `(tactic| reads1) => `(tactic| with_reducible exact OnlyReads.read _)
macro_rules | `(tactic| reads1) => `(tactic| with_reducible exact OnlyReads.fail _)
macro_rules | `(tactic| reads1) => `(tactic| with_reducible exact OnlyReads.getSrc _)
macro_rules | `(tactic| reads1) => `(tactic| with_reducible exact OnlyReads.getNext _)
macro_rules | `(tactic| reads1) => `(tactic| with_reducible exact OnlyReads.getRev _)
macro_rules | `(tactic| reads1) => `(tactic| with_reducible exact OnlyReads.getFace _)
macro_rules | `(tactic| reads1) => `(tactic| with_reducible exact OnlyReads.getBd _)
macro_rules | `(tactic| reads1) => `(tactic| with_reducible exact OnlyReads.getPos _)
macro_rules | `(tactic| reads1) => `(tactic| with_reducible exact OnlyReads.getVHe _)
macro_rules | `(tactic| reads1) => `(tactic| with_reducible exact OnlyReads.getVIdx _)
macro_rules | `(tactic| reads1) => `(tactic| with_reducible exact OnlyReads.getLock _)
macro_rules | `(tactic| reads1) => `(tactic| with_reducible exact OnlyReads.getFHe _)
macro_rules | `(tactic| reads1) => `(tactic| with_reducible exact OnlyReads.getFIdx _)
macro_rules | `(tactic| reads1) => `(tactic| with_reducible exact OnlyReads.getDst _)
macro_rules | `(tactic| reads1) => `(tactic| with_reducible exact OnlyReads.vertexAt _)
macro_rules | `(tactic| reads1) => `(tactic| with_reducible exact OnlyReads.halfedgeAt _)
macro_rules | `(tactic| reads1) => `(tactic| with_reducible exact OnlyReads.faceAt _)
macro_rules | `(tactic| reads1) => `(tactic| with_reducible exact OnlyReads.ringList _)
macro_rules | `(tactic| reads1) => `(tactic| with_reducible exact OnlyReads.ringVerts _)
macro_rules | `(tactic| reads1) => `(tactic| with_reducible exact OnlyReads.faceVerts _)
macro_rules | `(tactic| reads1) => `(tactic| with_reducible exact OnlyReads.orThrowM _)
macro_rules | `(tactic| reads1) => `(tactic| with_reducible exact OnlyReads.atIdx _ _)
macro_rules | `(tactic| reads1) => `(tactic| with_reducible exact OnlyReads.assert _)
macro_rules | `(tactic| reads1) => `(tactic| with_reducible exact OnlyReads.cotWeight _)
macro_rules | `(tactic| reads1) => `(tactic| with_reducible exact OnlyReads.ofTripletsRect _ _ _)
macro_rules | `(tactic| reads1) => `(tactic| with_reducible exact OnlyReads.meanEdgeLength)
macro_rules | `(tactic| reads1) => `(tactic| with_reducible exact OnlyReads.vertNormal _)
macro_rules | `(tactic| reads1) => `(tactic| with_reducible exact OnlyReads.smoothNorm _ _ _)
macro_rules | `(tactic| reads1) => `(tactic| with_reducible exact OnlyReads.triVerts _)
macro_rules | `(tactic| reads1) => `(tactic| with_reducible exact OnlyReads.curvFace _ _)
macro_rules | `(tactic| reads1) => `(tactic| with_reducible exact OnlyReads.getPosList _)

/-- splits a program into its steps -/
macro "reads" : tactic => `(tactic| repeat' (first
  | assumption | reads1 | (apply_assumption; done)
  | (refine OnlyReads.bind ?_ fun _ => ?_) | (refine OnlyReads.ite ?_ ?_)
  | (refine OnlyReads.circ OnlyReads.ringStep fun _ _ => ?_) | (refine OnlyReads.circ OnlyReads.faceStep fun _ _ => ?_)
  | (refine OnlyReads.eachM (fun _ => ?_) _) | (refine OnlyReads.foldAll (fun _ _ => ?_) _ _) | split))

theorem OnlyReads.getHIdx {F : Type} (x : Nat) : OnlyReads (TinyMesh.getHIdx x : M F Int) := OnlyReads.guard
macro_rules | `(tactic| reads1) => `(tactic| with_reducible exact OnlyReads.getHIdx _)

theorem OnlyReads.liftE {F α : Type} (e : Except Err α) : OnlyReads (TinyMesh.liftE e : M F α) := by
  unfold TinyMesh.liftE; reads
macro_rules | `(tactic| reads1) => `(tactic| with_reducible exact OnlyReads.liftE _)

section
variable {F : Type}

theorem OnlyReads.faceList (f : Nat) : OnlyReads (TinyMesh.faceList f : M F (List Nat)) := by
  unfold TinyMesh.faceList; reads
macro_rules | `(tactic| reads1) => `(tactic| with_reducible exact OnlyReads.faceList _)

theorem OnlyReads.faceFaces (f : Nat) : OnlyReads (TinyMesh.faceFaces f : M F (List Nat)) := by
  unfold TinyMesh.faceFaces; reads
macro_rules | `(tactic| reads1) => `(tactic| with_reducible exact OnlyReads.faceFaces _)

theorem OnlyReads.vertFaces (v : Nat) : OnlyReads (TinyMesh.vertFaces v : M F (List Nat)) := by
  unfold TinyMesh.vertFaces; reads
macro_rules | `(tactic| reads1) => `(tactic| with_reducible exact OnlyReads.vertFaces _)

theorem OnlyReads.inRange (n : Nat) (i : Int) : OnlyReads (TinyMesh.inRange n i : M F Nat) := by
  unfold TinyMesh.inRange; reads
macro_rules | `(tactic| reads1) => `(tactic| with_reducible exact OnlyReads.inRange _ _)

end

section
variable {F : Type} [ScalarX F]

theorem OnlyReads.vorFace (v f : Nat) : OnlyReads (TinyMesh.vorFace v f : M F F) := by
  unfold TinyMesh.vorFace; reads
macro_rules | `(tactic| reads1) => `(tactic| with_reducible exact OnlyReads.vorFace _ _)

theorem OnlyReads.vertFrame (v : Nat) : OnlyReads (TinyMesh.vertFrame v : M F (LFrame F)) := by
  unfold TinyMesh.vertFrame; reads
macro_rules | `(tactic| reads1) => `(tactic| with_reducible exact OnlyReads.vertFrame _)

theorem OnlyReads.curvVertLoop (fs : List (Mat2 F × LFrame F)) (fr : LFrame F) (v : Nat) : ∀ gs A s, OnlyReads (TinyMesh.curvVertLoop fs fr v gs A s : M F _)
  | [], _, _ => OnlyReads.pure _
  | g :: gs, A, s => by
    have ih := curvVertLoop fs fr v gs
    unfold TinyMesh.curvVertLoop; reads
macro_rules | `(tactic| reads1) => `(tactic| with_reducible exact OnlyReads.curvVertLoop _ _ _ _ _ _)

theorem OnlyReads.curvVert (fs : List (Mat2 F × LFrame F)) (i : Nat) : OnlyReads (TinyMesh.curvVert fs i : M F _) := by
  unfold TinyMesh.curvVert; reads
macro_rules | `(tactic| reads1) => `(tactic| with_reducible exact OnlyReads.curvVert _ _)

theorem OnlyReads.curvatureTensors (solve : LinSolve F) : OnlyReads (TinyMesh.curvatureTensors solve : M F _) := by
  unfold TinyMesh.curvatureTensors; reads
macro_rules | `(tactic| reads1) => `(tactic| with_reducible exact OnlyReads.curvatureTensors _)

theorem OnlyReads.smoothTensorLoop (t : List (Mat2 F × LFrame F)) (avg : F) (fr : LFrame F) (v : Nat) : ∀ gs A s, OnlyReads (TinyMesh.smoothTensorLoop t avg fr v gs A s : M F _)
  | [], _, _ => OnlyReads.pure _
  | g :: gs, A, s => by
    have ih := smoothTensorLoop t avg fr v gs
    unfold TinyMesh.smoothTensorLoop; reads
macro_rules | `(tactic| reads1) => `(tactic| with_reducible exact OnlyReads.smoothTensorLoop _ _ _ _ _ _ _)

theorem OnlyReads.smoothTensor (t : List (Mat2 F × LFrame F)) (avg : F) (i : Nat) : OnlyReads (TinyMesh.smoothTensor t avg i : M F _) := by
  unfold TinyMesh.smoothTensor; reads
macro_rules | `(tactic| reads1) => `(tactic| with_reducible exact OnlyReads.smoothTensor _ _ _)

theorem OnlyReads.smoothTensors (t : List (Mat2 F × LFrame F)) : OnlyReads (TinyMesh.smoothTensors t : M F _) := by
  unfold TinyMesh.smoothTensors; reads
macro_rules | `(tactic| reads1) => `(tactic| with_reducible exact OnlyReads.smoothTensors _)

theorem OnlyReads.tensorsFor (solve : LinSolve F) (b : Bool) : OnlyReads (TinyMesh.tensorsFor solve b : M F _) := by
  unfold TinyMesh.tensorsFor; reads
macro_rules | `(tactic| reads1) => `(tactic| with_reducible exact OnlyReads.tensorsFor _ _)

theorem OnlyReads.principals : ∀ (ts : List (Mat2 F × LFrame F)), OnlyReads (TinyMesh.principals ts : M F _)
  | [] => OnlyReads.pure _
  | t :: ts => by
    have ih := principals ts
    unfold TinyMesh.principals; reads
macro_rules | `(tactic| reads1) => `(tactic| with_reducible exact OnlyReads.principals _)

theorem OnlyReads.principalCurvatures (solve : LinSolve F) (b : Bool) : OnlyReads (TinyMesh.principalCurvatures solve b : M F _) := by
  unfold TinyMesh.principalCurvatures; reads
macro_rules | `(tactic| reads1) => `(tactic| with_reducible exact OnlyReads.principalCurvatures _ _)

theorem OnlyReads.derivFace (solve : LinSolve F) (ks : List (Principal F)) (t : List (Mat2 F × LFrame F)) (i : Nat) : OnlyReads (TinyMesh.derivFace solve ks t i : M F _) := by
  unfold TinyMesh.derivFace; reads
macro_rules | `(tactic| reads1) => `(tactic| with_reducible exact OnlyReads.derivFace _ _ _ _)

theorem OnlyReads.derivVertLoop (fs : List (Cubic F × LFrame F)) (fr : LFrame F) (v : Nat) : ∀ gs A s, OnlyReads (TinyMesh.derivVertLoop fs fr v gs A s : M F _)
  | [], _, _ => OnlyReads.pure _
  | g :: gs, A, s => by
    have ih := derivVertLoop fs fr v gs
    unfold TinyMesh.derivVertLoop; reads
macro_rules | `(tactic| reads1) => `(tactic| with_reducible exact OnlyReads.derivVertLoop _ _ _ _ _ _)

theorem OnlyReads.derivVert (ks : List (Principal F)) (t : List (Mat2 F × LFrame F)) (fs : List (Cubic F × LFrame F)) (i : Nat) : OnlyReads (TinyMesh.derivVert ks t fs i : M F _) := by
  unfold TinyMesh.derivVert; reads
macro_rules | `(tactic| reads1) => `(tactic| with_reducible exact OnlyReads.derivVert _ _ _ _)

theorem OnlyReads.principalDerivatives (solve : LinSolve F) (b : Bool) : OnlyReads (TinyMesh.principalDerivatives solve b : M F _) := by
  unfold TinyMesh.principalDerivatives; reads
macro_rules | `(tactic| reads1) => `(tactic| with_reducible exact OnlyReads.principalDerivatives _ _)

theorem OnlyReads.edgeRV (ks : List (Principal F)) (es : List (F × F)) (u v : Nat) : OnlyReads (TinyMesh.edgeRV ks es u v : M F _) := by
  unfold TinyMesh.edgeRV; reads
macro_rules | `(tactic| reads1) => `(tactic| with_reducible exact OnlyReads.edgeRV _ _ _ _)

theorem OnlyReads.markFace (ks : List (Principal F)) (es : List (F × F)) (i : Nat) : OnlyReads (TinyMesh.markFace ks es i : M F _) := by
  unfold TinyMesh.markFace; reads
macro_rules | `(tactic| reads1) => `(tactic| with_reducible exact OnlyReads.markFace _ _ _)

theorem OnlyReads.countMarked (fl : List Int) : ∀ gs s, OnlyReads (TinyMesh.countMarked fl gs s : M F _)
  | [], _ => OnlyReads.pure _
  | g :: gs, s => by
    have ih := countMarked fl gs
    unfold TinyMesh.countMarked; reads
macro_rules | `(tactic| reads1) => `(tactic| with_reducible exact OnlyReads.countMarked _ _ _)

theorem OnlyReads.firstTo (g : Nat) : ∀ hs, OnlyReads (TinyMesh.firstTo g hs : M F _)
  | [] => OnlyReads.pure _
  | h :: hs => by
    have ih := firstTo g hs
    unfold TinyMesh.firstTo; reads
macro_rules | `(tactic| reads1) => `(tactic| with_reducible exact OnlyReads.firstTo _ _)

theorem OnlyReads.push (s : LineAcc F) (nv v : Nat) (x : Vec3 F) : OnlyReads (s.push nv v x) := by
  unfold LineAcc.push; reads
macro_rules | `(tactic| reads1) => `(tactic| with_reducible exact OnlyReads.push _ _ _ _)

theorem OnlyReads.lineFace (fl : List Int) (nv i : Nat) (s : LineAcc F) : OnlyReads (TinyMesh.lineFace fl nv i s : M F _) := by
  unfold TinyMesh.lineFace; reads
macro_rules | `(tactic| reads1) => `(tactic| with_reducible exact OnlyReads.lineFace _ _ _ _)

theorem OnlyReads.lineMean (i : Nat) (s : LineAcc F) : OnlyReads (TinyMesh.lineMean i s : M F _) := by
  unfold TinyMesh.lineMean; reads
macro_rules | `(tactic| reads1) => `(tactic| with_reducible exact OnlyReads.lineMean _ _)

theorem OnlyReads.lineRowLoop (c : Nat → F) (nv row : Nat) : ∀ hs s t, OnlyReads (TinyMesh.lineRowLoop c nv row hs s t : M F _)
  | [], _, _ => OnlyReads.pure _
  | h :: hs, s, t => by
    have ih := lineRowLoop c nv row hs
    unfold TinyMesh.lineRowLoop; reads
macro_rules | `(tactic| reads1) => `(tactic| with_reducible exact OnlyReads.lineRowLoop _ _ _ _ _ _)

theorem OnlyReads.lineRow (c : Nat → F) (nv i : Nat) (t : LineSys F) : OnlyReads (TinyMesh.lineRow c nv i t : M F _) := by
  unfold TinyMesh.lineRow; reads
macro_rules | `(tactic| reads1) => `(tactic| with_reducible exact OnlyReads.lineRow _ _ _ _)

theorem OnlyReads.putDirs (xx : Nat → Vec3 F) : ∀ k is d, OnlyReads (TinyMesh.putDirs xx k is d : M F _)
  | _, [], _ => OnlyReads.pure _
  | k, i :: is, d => by
    have ih := fun k d => putDirs xx k is d
    unfold TinyMesh.putDirs; reads
macro_rules | `(tactic| reads1) => `(tactic| with_reducible exact OnlyReads.putDirs _ _ _ _)

theorem OnlyReads.lineField (solve : LinSolve F) (ks : List (Principal F)) (es : List (F × F)) : OnlyReads (TinyMesh.lineField solve ks es : M F _) := by
  unfold TinyMesh.lineField; reads
macro_rules | `(tactic| reads1) => `(tactic| with_reducible exact OnlyReads.lineField _ _ _)

theorem OnlyReads.featureLines (solve solve' : LinSolve F) (b : Bool) : OnlyReads (TinyMesh.featureLines solve solve' b : M F _) := by
  unfold TinyMesh.featureLines; reads
macro_rules | `(tactic| reads1) => `(tactic| with_reducible exact OnlyReads.featureLines _ _ _)

theorem OnlyReads.patchRadiusM (solve : LinSolve F) : OnlyReads (TinyMesh.patchRadiusM solve : M F Int) := by
  unfold TinyMesh.patchRadiusM; reads
macro_rules | `(tactic| reads1) => `(tactic| with_reducible exact OnlyReads.patchRadiusM _)

theorem OnlyReads.patchSearch (r : Int) : ∀ k q seen, OnlyReads (TinyMesh.patchSearch r k q seen : M F (List Nat))
  | _, [], _ => by unfold TinyMesh.patchSearch; reads
  | 0, _ :: _, _ => by unfold TinyMesh.patchSearch; reads
  | k + 1, (f, d) :: q, seen => by
    have ih := patchSearch r k
    unfold TinyMesh.patchSearch; reads
macro_rules | `(tactic| reads1) => `(tactic| with_reducible exact OnlyReads.patchSearch _ _ _ _)

theorem OnlyReads.patchFaces (r : Int) (v : Nat) : OnlyReads (TinyMesh.patchFaces r v : M F _) := by
  unfold TinyMesh.patchFaces; reads
macro_rules | `(tactic| reads1) => `(tactic| with_reducible exact OnlyReads.patchFaces _ _)

theorem OnlyReads.patchSet (fs : List Nat) : OnlyReads (TinyMesh.patchSet fs : M F _) := by
  unfold TinyMesh.patchSet; reads
macro_rules | `(tactic| reads1) => `(tactic| with_reducible exact OnlyReads.patchSet _)

theorem OnlyReads.patchOf (oF oV : List Nat → List Nat) (r : Int) (i : Nat) : OnlyReads (TinyMesh.patchOf oF oV r i : M F _) := by
  unfold TinyMesh.patchOf; reads
macro_rules | `(tactic| reads1) => `(tactic| with_reducible exact OnlyReads.patchOf _ _ _ _)

theorem OnlyReads.srcTgt : ∀ is, OnlyReads (TinyMesh.srcTgt is : M F _)
  | [] => OnlyReads.pure _
  | i :: is => by
    have ih := srcTgt is
    unfold TinyMesh.srcTgt; reads
macro_rules | `(tactic| reads1) => `(tactic| with_reducible exact OnlyReads.srcTgt _)

theorem OnlyReads.closestMoved (r : RigidFit F) (p : Vec3 F) : ∀ us s, OnlyReads (TinyMesh.closestMoved r p us s : M F _)
  | [], _ => OnlyReads.pure _
  | u :: us, s => by
    have ih := closestMoved r p us
    unfold TinyMesh.closestMoved; reads
macro_rules | `(tactic| reads1) => `(tactic| with_reducible exact OnlyReads.closestMoved _ _ _ _)

theorem OnlyReads.dissimLoop (fl : List (Vec3 F × F)) (r : RigidFit F) (src : List Nat) (n : Nat) : ∀ us s, OnlyReads (TinyMesh.dissimLoop fl r src n us s : M F _)
  | [], _ => OnlyReads.pure _
  | u :: us, s => by
    have ih := dissimLoop fl r src n us
    unfold TinyMesh.dissimLoop; reads
macro_rules | `(tactic| reads1) => `(tactic| with_reducible exact OnlyReads.dissimLoop _ _ _ _ _ _)

theorem OnlyReads.dissim (fl : List (Vec3 F × F)) (r : RigidFit F) (tgt src : List Nat) : OnlyReads (TinyMesh.dissim fl r tgt src : M F _) := by
  unfold TinyMesh.dissim; reads
macro_rules | `(tactic| reads1) => `(tactic| with_reducible exact OnlyReads.dissim _ _ _ _)

theorem OnlyReads.moveCorners (r : RigidFit F) : ∀ fs s, OnlyReads (TinyMesh.moveCorners r fs s : M F _)
  | [], _ => OnlyReads.pure _
  | f :: fs, s => by
    have ih := moveCorners r fs
    unfold TinyMesh.moveCorners; reads
macro_rules | `(tactic| reads1) => `(tactic| with_reducible exact OnlyReads.moveCorners _ _ _)

theorem OnlyReads.patchBvh (lib : Lib F) (r : RigidFit F) (fs : List Nat) : OnlyReads (TinyMesh.patchBvh lib r fs : M F _) := by
  unfold TinyMesh.patchBvh; reads
macro_rules | `(tactic| reads1) => `(tactic| with_reducible exact OnlyReads.patchBvh _ _ _)

theorem OnlyReads.voteLoop (p : Vec3 F) : ∀ ts s, OnlyReads (TinyMesh.voteLoop p ts s : M F _)
  | [], _ => OnlyReads.pure _
  | t :: ts, s => by
    have ih := voteLoop p ts
    unfold TinyMesh.voteLoop; reads
macro_rules | `(tactic| reads1) => `(tactic| with_reducible exact OnlyReads.voteLoop _ _ _)

theorem OnlyReads.voteOne (ts : List (Target F)) (k : Nat) (s) : OnlyReads (TinyMesh.voteOne ts k s : M F _) := by
  unfold TinyMesh.voteOne; reads
macro_rules | `(tactic| reads1) => `(tactic| with_reducible exact OnlyReads.voteOne _ _ _)

theorem OnlyReads.votes (ts : List (Target F)) : OnlyReads (TinyMesh.votes ts : M F _) := by
  unfold TinyMesh.votes; reads
macro_rules | `(tactic| reads1) => `(tactic| with_reducible exact OnlyReads.votes _)

theorem OnlyReads.offsetLoop (tgt : List Nat) (row : Nat) : ∀ hs s t, OnlyReads (TinyMesh.offsetLoop tgt row hs s t : M F _)
  | [], _, _ => OnlyReads.pure _
  | h :: hs, s, t => by
    have ih := offsetLoop tgt row hs
    unfold TinyMesh.offsetLoop; reads
macro_rules | `(tactic| reads1) => `(tactic| with_reducible exact OnlyReads.offsetLoop _ _ _ _ _)

theorem OnlyReads.offsetRow (tgt : List Nat) (row : Nat) (t : OffSys F) : OnlyReads (TinyMesh.offsetRow tgt row t : M F _) := by
  unfold TinyMesh.offsetRow; reads
macro_rules | `(tactic| reads1) => `(tactic| with_reducible exact OnlyReads.offsetRow _ _ _)

theorem OnlyReads.smoothOffsets (solve : LinSolve F) (tgt : List Nat) (off : Nat → Vec3 F) : OnlyReads (TinyMesh.smoothOffsets solve tgt off : M F _) := by
  unfold TinyMesh.smoothOffsets; reads
macro_rules | `(tactic| reads1) => `(tactic| with_reducible exact OnlyReads.smoothOffsets _ _ _)

theorem OnlyReads.sqDist (a b : List F) : OnlyReads (TinyMesh.sqDist a b : M F F) := by
  unfold TinyMesh.sqDist; reads
macro_rules | `(tactic| reads1) => `(tactic| with_reducible exact OnlyReads.sqDist _ _)

theorem OnlyReads.hksOf (h : Nat → Option (List F)) (v : Nat) : OnlyReads (TinyMesh.hksOf h v : M F _) := by
  unfold TinyMesh.hksOf; reads
macro_rules | `(tactic| reads1) => `(tactic| with_reducible exact OnlyReads.hksOf _ _)

theorem OnlyReads.closestHks (h : Nat → Option (List F)) (s : Nat) : ∀ ts j r, OnlyReads (TinyMesh.closestHks h s ts j r : M F _)
  | [], _, _ => OnlyReads.pure _
  | t :: ts, j, r => by
    have ih := closestHks h s ts
    unfold TinyMesh.closestHks; reads
macro_rules | `(tactic| reads1) => `(tactic| with_reducible exact OnlyReads.closestHks _ _ _ _ _)

theorem OnlyReads.rigidPairs (h : Nat → Option (List F)) (tgt : List Nat) : ∀ ss, OnlyReads (TinyMesh.rigidPairs h tgt ss : M F _)
  | [] => OnlyReads.pure _
  | s :: ss => by
    have ih := rigidPairs h tgt ss
    unfold TinyMesh.rigidPairs; reads
macro_rules | `(tactic| reads1) => `(tactic| with_reducible exact OnlyReads.rigidPairs _ _ _)

theorem OnlyReads.solveRigidICP (svd : SvdLib F) (h : Nat → Option (List F)) (tgt src : List Nat) : OnlyReads (TinyMesh.solveRigidICP svd h tgt src : M F _) := by
  unfold TinyMesh.solveRigidICP; reads
macro_rules | `(tactic| reads1) => `(tactic| with_reducible exact OnlyReads.solveRigidICP _ _ _ _)

theorem OnlyReads.rowMax (l : List F) : OnlyReads (TinyMesh.rowMax l : M F F) := by
  unfold TinyMesh.rowMax; reads
macro_rules | `(tactic| reads1) => `(tactic| with_reducible exact OnlyReads.rowMax _)

theorem OnlyReads.addRow (a b : List F) : OnlyReads (TinyMesh.addRow a b : M F _) := by
  unfold TinyMesh.addRow; reads
macro_rules | `(tactic| reads1) => `(tactic| with_reducible exact OnlyReads.addRow _ _)

theorem OnlyReads.hksSums (h : Nat → Option (List F)) : ∀ vs s, OnlyReads (TinyMesh.hksSums h vs s : M F _)
  | [], _ => OnlyReads.pure _
  | v :: vs, s => by
    have ih := hksSums h vs
    unfold TinyMesh.hksSums; reads
macro_rules | `(tactic| reads1) => `(tactic| with_reducible exact OnlyReads.hksSums _ _ _)

theorem OnlyReads.descriptor (h : Nat → Option (List F)) (dims n : Nat) (p : List Nat) : OnlyReads (TinyMesh.descriptor h dims n p : M F _) := by
  unfold TinyMesh.descriptor; reads
macro_rules | `(tactic| reads1) => `(tactic| with_reducible exact OnlyReads.descriptor _ _ _ _)

theorem OnlyReads.candDists (d : List (List F)) (t : Int) : ∀ ss, OnlyReads (TinyMesh.candDists d t ss : M F _)
  | [] => OnlyReads.pure _
  | s :: ss => by
    have ih := candDists d t ss
    unfold TinyMesh.candDists; reads
macro_rules | `(tactic| reads1) => `(tactic| with_reducible exact OnlyReads.candDists _ _ _)

theorem OnlyReads.candidatesOf (sort : List (F × Int) → List (F × Int)) (d : List (List F)) (src : List Int) (t : Int) : OnlyReads (TinyMesh.candidatesOf sort d src t : M F _) := by
  unfold TinyMesh.candidatesOf; reads
macro_rules | `(tactic| reads1) => `(tactic| with_reducible exact OnlyReads.candidatesOf _ _ _ _)

theorem OnlyReads.bestPatch {fit : Int → M F (RigidFit F)} (h : ∀ c, OnlyReads (fit c)) : ∀ cs s, OnlyReads (TinyMesh.bestPatch fit cs s)
  | [], _ => OnlyReads.pure _
  | c :: cs, s => OnlyReads.bind (h c) fun _ => bestPatch h cs _

theorem OnlyReads.matchTarget (L : CohLib F) (hks : Nat → Option (List F)) (field : List (Vec3 F × F)) (patches : List Patch) (desc : List (List F))
    (src : List Nat) (i : Nat) : OnlyReads (TinyMesh.matchTarget L hks field patches desc src i) := by
  unfold TinyMesh.matchTarget
  refine OnlyReads.bind (OnlyReads.atIdx _ _) fun _ => OnlyReads.bind (OnlyReads.candidatesOf _ _ _ _) fun _ =>
    OnlyReads.bind (OnlyReads.bestPatch (fun _ => ?_) _ _) fun _ => ?_
  · reads
  · reads
macro_rules | `(tactic| reads1) => `(tactic| with_reducible exact OnlyReads.matchTarget _ _ _ _ _ _ _)

theorem OnlyReads.targets (L : CohLib F) (r : Int) (dims : Nat) (hks : Nat → Option (List F)) : OnlyReads (TinyMesh.targets L r dims hks : M F _) := by
  unfold TinyMesh.targets; reads
macro_rules | `(tactic| reads1) => `(tactic| with_reducible exact OnlyReads.targets _ _ _ _)

theorem OnlyReads.hksNear (h : Nat → Option (List F)) : ∀ us s, OnlyReads (TinyMesh.hksNear h us s : M F _)
  | [], _ => OnlyReads.pure _
  | u :: us, s => by
    have ih := hksNear h us
    unfold TinyMesh.hksNear; reads
macro_rules | `(tactic| reads1) => `(tactic| with_reducible exact OnlyReads.hksNear _ _ _)

theorem OnlyReads.hksNew (dims v : Nat) (h : Nat → Option (List F)) : OnlyReads (TinyMesh.hksNew dims v h : M F _) := by
  unfold TinyMesh.hksNew; reads
macro_rules | `(tactic| reads1) => `(tactic| with_reducible exact OnlyReads.hksNew _ _ _)

theorem OnlyReads.hksUpdate (dims : Nat) (h : Nat → Option (List F)) : OnlyReads (TinyMesh.hksUpdate dims h : M F _) := by
  unfold TinyMesh.hksUpdate; reads
macro_rules | `(tactic| reads1) => `(tactic| with_reducible exact OnlyReads.hksUpdate _ _)

theorem OnlyReads.hksTable (rows : List (List F)) : OnlyReads (TinyMesh.hksTable rows : M F _) := by
  unfold TinyMesh.hksTable; reads
macro_rules | `(tactic| reads1) => `(tactic| with_reducible exact OnlyReads.hksTable _)

theorem OnlyReads.verifyVertex (v : Nat) : OnlyReads (TinyMesh.verifyVertex v : M F Bool) := by
  unfold TinyMesh.verifyVertex; reads
macro_rules | `(tactic| reads1) => `(tactic| with_reducible exact OnlyReads.verifyVertex _)

theorem OnlyReads.verifyVs : ∀ i vs, OnlyReads (TinyMesh.verifyVs i vs : M F Bool)
  | _, [] => OnlyReads.pure _
  | i, v :: vs => by
    have ih := fun i => verifyVs i vs
    unfold TinyMesh.verifyVs; reads
macro_rules | `(tactic| reads1) => `(tactic| with_reducible exact OnlyReads.verifyVs _ _)

theorem OnlyReads.verifyHs : ∀ i vs, OnlyReads (TinyMesh.verifyHs i vs : M F Bool)
  | _, [] => OnlyReads.pure _
  | i, v :: vs => by
    have ih := fun i => verifyHs i vs
    unfold TinyMesh.verifyHs; reads
macro_rules | `(tactic| reads1) => `(tactic| with_reducible exact OnlyReads.verifyHs _ _)

theorem OnlyReads.verifyFs : ∀ i vs, OnlyReads (TinyMesh.verifyFs i vs : M F Bool)
  | _, [] => OnlyReads.pure _
  | i, v :: vs => by
    have ih := fun i => verifyFs i vs
    unfold TinyMesh.verifyFs; reads
macro_rules | `(tactic| reads1) => `(tactic| with_reducible exact OnlyReads.verifyFs _ _)

theorem OnlyReads.verify : OnlyReads (TinyMesh.verify : M F Bool) := by
  unfold TinyMesh.verify; reads
macro_rules | `(tactic| reads1) => `(tactic| with_reducible exact OnlyReads.verify)

theorem OnlyReads.heLength (h : Nat) : OnlyReads (TinyMesh.heLength h : M F F) := by
  unfold TinyMesh.heLength; reads
macro_rules | `(tactic| reads1) => `(tactic| with_reducible exact OnlyReads.heLength _)

theorem OnlyReads.sideAngles (h : Nat) : OnlyReads (TinyMesh.sideAngles h : M F _) := by
  unfold TinyMesh.sideAngles; reads
macro_rules | `(tactic| reads1) => `(tactic| with_reducible exact OnlyReads.sideAngles _)

theorem OnlyReads.posList : ∀ vs, OnlyReads (TinyMesh.posList vs : M F (List (Vec3 F)))
  | [] => OnlyReads.pure _
  | v :: vs => by
    have ih := posList vs
    unfold TinyMesh.posList; reads
macro_rules | `(tactic| reads1) => `(tactic| with_reducible exact OnlyReads.posList _)

theorem OnlyReads.faceArea (f : Nat) : OnlyReads (TinyMesh.faceArea f : M F F) := by
  unfold TinyMesh.faceArea; reads
macro_rules | `(tactic| reads1) => `(tactic| with_reducible exact OnlyReads.faceArea _)

end
end TinyMesh
