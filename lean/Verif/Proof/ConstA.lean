import Verif.Proof.WholeA
import Verif.Model.Const
/-
The functions for constant objects only read.
-/
namespace TinyMesh
section
variable {F : Type}

theorem OnlyReads.prevLoop (h : Nat) : ∀ fuel it, OnlyReads (TinyMesh.prevLoop h fuel it : M F Nat)
  | 0, _ => .fail _
  | fuel + 1, it => by
    have := OnlyReads.prevLoop h fuel
    unfold TinyMesh.prevLoop; reads
macro_rules | `(tactic| reads1) => `(tactic| with_reducible exact OnlyReads.prevLoop _ _ _)
theorem OnlyReads.getPrev (h : Nat) : OnlyReads (TinyMesh.getPrev h : M F Nat) := by unfold TinyMesh.getPrev; reads
macro_rules | `(tactic| reads1) => `(tactic| with_reducible exact OnlyReads.getPrev _)
theorem OnlyReads.degree (v : Nat) : OnlyReads (TinyMesh.degree v : M F Nat) := by unfold TinyMesh.degree; reads
theorem OnlyReads.vIsBoundary (v : Nat) : OnlyReads (TinyMesh.vIsBoundary v : M F Bool) := by unfold TinyMesh.vIsBoundary; reads
theorem OnlyReads.numCorners (v : Nat) : OnlyReads (TinyMesh.numCorners v : M F Nat) := by unfold TinyMesh.numCorners; reads
theorem OnlyReads.fIsHole (v : Nat) : OnlyReads (TinyMesh.fIsHole v : M F Bool) := by unfold TinyMesh.fIsHole; reads
macro_rules | `(tactic| reads1) => `(tactic| with_reducible exact OnlyReads.fIsHole _)
theorem OnlyReads.fIsBoundary (v : Nat) : OnlyReads (TinyMesh.fIsBoundary v : M F Bool) := by unfold TinyMesh.fIsBoundary; reads

variable [ScalarX F]

theorem OnlyReads.ringPos (v : Nat) : OnlyReads (TinyMesh.ringPos v : M F _) := by unfold TinyMesh.ringPos; reads
macro_rules | `(tactic| reads1) => `(tactic| with_reducible exact OnlyReads.ringPos _)
theorem OnlyReads.vorArea (v : Nat) : OnlyReads (TinyMesh.vorArea v : M F _) := by unfold TinyMesh.vorArea; reads
theorem OnlyReads.gaussK (v : Nat) : OnlyReads (TinyMesh.gaussK v : M F _) := by unfold TinyMesh.gaussK; reads
theorem OnlyReads.meanH (v : Nat) : OnlyReads (TinyMesh.meanH v : M F _) := by unfold TinyMesh.meanH; reads
theorem OnlyReads.toTriangle (v : Nat) : OnlyReads (TinyMesh.toTriangle v : M F _) := by unfold TinyMesh.toTriangle; reads
theorem OnlyReads.getVertices : OnlyReads (TinyMesh.getVertices : M F _) := by unfold TinyMesh.getVertices; reads
macro_rules | `(tactic| reads1) => `(tactic| with_reducible exact OnlyReads.getVertices)
theorem OnlyReads.vertexIndicesLoop : ∀ fs, OnlyReads (TinyMesh.vertexIndicesLoop fs : M F _)
  | [] => .pure _
  | f :: fs => by
    have := OnlyReads.vertexIndicesLoop fs
    unfold TinyMesh.vertexIndicesLoop; reads
macro_rules | `(tactic| reads1) => `(tactic| with_reducible exact OnlyReads.vertexIndicesLoop _)
theorem OnlyReads.getVertexIndices : OnlyReads (TinyMesh.getVertexIndices : M F _) := by unfold TinyMesh.getVertexIndices; reads
macro_rules | `(tactic| reads1) => `(tactic| with_reducible exact OnlyReads.getVertexIndices)
theorem OnlyReads.saveOBJ (r) : OnlyReads (TinyMesh.saveOBJ r : M F _) := by unfold TinyMesh.saveOBJ; reads
theorem OnlyReads.savePLY (r) : OnlyReads (TinyMesh.savePLY r : M F _) := by unfold TinyMesh.savePLY; reads
theorem OnlyReads.saveText (fmt o) : OnlyReads (TinyMesh.saveText fmt o : M F _) := by unfold TinyMesh.saveText; reads
theorem OnlyReads.areaSum : ∀ fs (s : F), OnlyReads (TinyMesh.areaSum fs s)
  | [], s => .pure _
  | f :: fs, s => by
    have := OnlyReads.areaSum fs
    unfold TinyMesh.areaSum; reads
macro_rules | `(tactic| reads1) => `(tactic| with_reducible exact OnlyReads.areaSum _ _)
theorem OnlyReads.meanFaceArea : OnlyReads (TinyMesh.meanFaceArea : M F _) := by unfold TinyMesh.meanFaceArea; reads
theorem OnlyReads.idxList : ∀ l, OnlyReads (TinyMesh.idxList l : M F _)
  | [] => .pure _
  | f :: fs => by
    have := OnlyReads.idxList fs
    unfold TinyMesh.idxList; reads
macro_rules | `(tactic| reads1) => `(tactic| with_reducible exact OnlyReads.idxList _)
theorem OnlyReads.adjRow (i) : OnlyReads (TinyMesh.adjRow i : M F _) := by unfold TinyMesh.adjRow; reads
theorem OnlyReads.cotRowLoop (i) : ∀ l (s : F), OnlyReads (TinyMesh.cotRowLoop i l s)
  | [], _ => .pure _
  | f :: fs, _ => by
    have := OnlyReads.cotRowLoop i fs
    unfold TinyMesh.cotRowLoop; reads
macro_rules | `(tactic| reads1) => `(tactic| with_reducible exact OnlyReads.cotRowLoop _ _ _)
theorem OnlyReads.cotRow (i) : OnlyReads (TinyMesh.cotRow i : M F _) := by unfold TinyMesh.cotRow; reads
theorem OnlyReads.belRowLoop (avg : F) (v i) : ∀ l (s : F), OnlyReads (TinyMesh.belRowLoop avg v i l s)
  | [], _ => .pure _
  | f :: fs, _ => by
    have := OnlyReads.belRowLoop avg v i fs
    unfold TinyMesh.belRowLoop; reads
macro_rules | `(tactic| reads1) => `(tactic| with_reducible exact OnlyReads.belRowLoop _ _ _ _ _)
theorem OnlyReads.belRow (avg : F) (i) : OnlyReads (TinyMesh.belRow avg i : M F _) := by unfold TinyMesh.belRow; reads
theorem OnlyReads.meshLaplacian : ∀ t, OnlyReads (TinyMesh.meshLaplacian t : M F _)
  | .adjacent => .bind (.read _) fun _ => .bind (.rows (fun _ => .adjRow _) _) fun _ => .ofTriplets _ _
  | .cotangent => .bind (.read _) fun _ => .bind (.rows (fun _ => .cotRow _) _) fun _ => .ofTriplets _ _
  | .belkin08 => .bind .meanEdgeLength fun _ => .bind (.read _) fun _ => .bind (.rows (fun _ => .belRow _ _) _) fun _ => .ofTriplets _ _
  | .other => .fail _
theorem OnlyReads.featureField (s s' : LinSolve F) (b : Bool) : OnlyReads (TinyMesh.featureField s s' b) := by
  unfold TinyMesh.featureField
  exact .bind (.featureLines _ _ _) fun _ => .pure _

theorem OnlyReads.query : ∀ {α : Type} (q : Query F α), OnlyReads q.run
  | _, .pos v => .getPos v
  | _, .vIndex v => .getVIdx v
  | _, .vLocked v => .getLock v
  | _, .degree v => .degree v
  | _, .vNormal v => .vertNormal v
  | _, .vorArea v => .vorArea v
  | _, .vorFace v f => .vorFace v f
  | _, .K v => .gaussK v
  | _, .H v => .meanH v
  | _, .vBoundary v => .vIsBoundary v
  | _, .vVerts v => .ringVerts v
  | _, .vFaces v => .vertFaces v
  | _, .vHalfedges v => .ringList v
  | _, .fIndex f => .getFIdx f
  | _, .fNormal f => .faceNormal f
  | _, .area f => .faceArea f
  | _, .corners f => .numCorners f
  | _, .hole f => .fIsHole f
  | _, .fBoundary f => .fIsBoundary f
  | _, .fLocked f => .fIsLocked f
  | _, .triangle f => .toTriangle f
  | _, .fVerts f => .faceVerts f
  | _, .fFaces f => .faceFaces f
  | _, .fHalfedges f => .faceList f
  | _, .length h => .heLength h
  | _, .cot h => .cotWeight h
  | _, .src h => .getSrc h
  | _, .dst h => .getDst h
  | _, .next h => .getNext h
  | _, .prev h => .getPrev h
  | _, .rev h => .getRev h
  | _, .face h => .getFace h
  | _, .hIndex h => .getHIdx h
  | _, .hBoundary h => .getBd h
  | _, .saveOBJ r => .saveOBJ r
  | _, .savePLY r => .savePLY r
  | _, .saveText fmt o => .saveText fmt o
  | _, .vertices => .getVertices
  | _, .indices => .getVertexIndices
  | _, .meanLength => .meanEdgeLength
  | _, .meanAngle => .meanDihedralAngle
  | _, .meanArea => .meanFaceArea
  | _, .verify => .verify
  | _, .vertexAt i => .vertexAt i
  | _, .halfedgeAt i => .halfedgeAt i
  | _, .faceAt i => .faceAt i
  | _, .edges => .numEdges
  | _, .laplacian t => .meshLaplacian t
  | _, .tensors s => .curvatureTensors s
  | _, .curvatures s b => .principalCurvatures s b
  | _, .derivatives s b => .principalDerivatives s b
  | _, .lines s s' b => .featureLines s s' b
  | _, .field s s' b => .featureField s s' b

end
end TinyMesh
