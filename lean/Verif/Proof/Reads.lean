import Verif.Model.L0
/-
Programs that only read the mesh.
-/
namespace TinyMesh
variable {F : Type} {α β : Type}

/-- a program that leaves the mesh as it is when it returns normally -/
def OnlyReads (x : M F α) : Prop := ∀ m a m', x m = .ok a m' → m' = m

theorem OnlyReads.bind {x : M F α} {f : α → M F β} (h1 : OnlyReads x) (h2 : ∀ a, OnlyReads (f a)) : OnlyReads (x >>= f) := by
  intro m b m' h
  change M.bind x f m = _ at h
  unfold M.bind at h
  split at h
  · next a m1 e => rw [h1 m a m1 e] at h; exact h2 a m b m' h
  · cases h

theorem OnlyReads.pure (a : α) : OnlyReads (Pure.pure a : M F α) := by intro m b m' h; cases h; rfl
theorem OnlyReads.read (f : Mesh F → α) : OnlyReads (M.read f) := by intro m b m' h; cases h; rfl
theorem OnlyReads.fail (e : Err) : OnlyReads (M.fail e : M F α) := by intro m b m' h; cases h
theorem OnlyReads.ite {c : Prop} [Decidable c] {x y : M F α} (hx : OnlyReads x) (hy : OnlyReads y) : OnlyReads (if c then x else y) := by
  split
  · exact hx
  · exact hy

theorem OnlyReads.guard {f : Mesh F → α} {c : Mesh F → Bool} {e : Err} : OnlyReads (fun m => if c m = true then .ok (f m) m else .err e : M F α) := by
  intro m b m' h
  dsimp only at h
  split at h
  · cases h; rfl
  · cases h

theorem OnlyReads.getSrc (h : Nat) : OnlyReads (getSrc h : M F Nat) := OnlyReads.guard
theorem OnlyReads.getNext (h : Nat) : OnlyReads (getNext h : M F Nat) := OnlyReads.guard
theorem OnlyReads.getRev (h : Nat) : OnlyReads (getRev h : M F Nat) := OnlyReads.guard
theorem OnlyReads.getFace (h : Nat) : OnlyReads (getFace h : M F Nat) := OnlyReads.guard
theorem OnlyReads.getBd (h : Nat) : OnlyReads (getBd h : M F Bool) := OnlyReads.guard
theorem OnlyReads.getPos (h : Nat) : OnlyReads (getPos h : M F (Vec3 F)) := OnlyReads.guard
theorem OnlyReads.getVHe (h : Nat) : OnlyReads (getVHe h : M F Nat) := OnlyReads.guard
theorem OnlyReads.getVIdx (h : Nat) : OnlyReads (getVIdx h : M F Int) := OnlyReads.guard
theorem OnlyReads.getLock (h : Nat) : OnlyReads (getLock h : M F Bool) := OnlyReads.guard
theorem OnlyReads.getFHe (h : Nat) : OnlyReads (getFHe h : M F Nat) := OnlyReads.guard
theorem OnlyReads.getFIdx (h : Nat) : OnlyReads (getFIdx h : M F Int) := OnlyReads.guard
theorem OnlyReads.vertexAt (i : Int) : OnlyReads (vertexAt i : M F Nat) := by
  intro m b m' h
  unfold TinyMesh.vertexAt at h
  split at h
  · cases h
  · cases h; rfl
theorem OnlyReads.halfedgeAt (i : Int) : OnlyReads (halfedgeAt i : M F Nat) := by
  intro m b m' h
  unfold TinyMesh.halfedgeAt at h
  split at h
  · cases h
  · cases h; rfl
theorem OnlyReads.faceAt (i : Int) : OnlyReads (faceAt i : M F Nat) := by
  intro m b m' h
  unfold TinyMesh.faceAt at h
  split at h
  · cases h
  · cases h; rfl

/-- splits a program into its steps -/
macro "only_reads" : tactic => `(tactic| repeat' (first
  | exact OnlyReads.pure _ | exact OnlyReads.read _ | exact OnlyReads.fail _
  | exact OnlyReads.getSrc _ | exact OnlyReads.getNext _ | exact OnlyReads.getRev _ | exact OnlyReads.getFace _ | exact OnlyReads.getBd _ | exact OnlyReads.getPos _
  | exact OnlyReads.getVHe _ | exact OnlyReads.getVIdx _ | exact OnlyReads.getLock _ | exact OnlyReads.getFHe _ | exact OnlyReads.getFIdx _
  | exact OnlyReads.vertexAt _ | exact OnlyReads.halfedgeAt _ | exact OnlyReads.faceAt _
  | assumption
  | (refine OnlyReads.bind ?_ fun _ => ?_) | (refine OnlyReads.ite ?_ ?_)))

theorem OnlyReads.circLoop {step : Nat → M F Nat} {body : Nat → β → M F (Bool × β)} {start : Nat} (hs : ∀ x, OnlyReads (step x))
    (hb : ∀ x b, OnlyReads (body x b)) : ∀ fuel cur b, OnlyReads (circLoop step body start fuel cur b)
  | 0, _, _ => OnlyReads.fail _
  | fuel + 1, cur, b => by
    unfold TinyMesh.circLoop
    refine OnlyReads.bind (hb _ _) fun x => ?_
    refine OnlyReads.ite (OnlyReads.pure _) (OnlyReads.bind (hs _) fun n => OnlyReads.ite (OnlyReads.pure _) (circLoop hs hb fuel _ _))

theorem OnlyReads.circ {step : Nat → M F Nat} {start : Nat} {b : β} {body : Nat → β → M F (Bool × β)} (hs : ∀ x, OnlyReads (step x))
    (hb : ∀ x b, OnlyReads (body x b)) : OnlyReads (circ step start b body) := by
  intro m a m' h
  unfold TinyMesh.circ at h
  split at h
  · cases h; rfl
  · exact OnlyReads.circLoop hs hb _ _ _ m a m' h

theorem OnlyReads.ringStep (x : Nat) : OnlyReads (ringStep x : M F Nat) := by unfold TinyMesh.ringStep; only_reads
theorem OnlyReads.faceStep (x : Nat) : OnlyReads (faceStep x : M F Nat) := by unfold TinyMesh.faceStep; only_reads
theorem OnlyReads.getDst (x : Nat) : OnlyReads (getDst x : M F Nat) := by unfold TinyMesh.getDst; only_reads
theorem OnlyReads.ringList (v : Nat) : OnlyReads (ringList v : M F (List Nat)) := by
  unfold TinyMesh.ringList
  exact OnlyReads.bind (OnlyReads.getVHe _) fun _ => OnlyReads.circ OnlyReads.ringStep fun _ _ => by only_reads

section
variable [Scalar F]

theorem OnlyReads.numEdgesLoop : ∀ hs seen, OnlyReads (numEdgesLoop hs seen : M F (List Nat))
  | [], _ => OnlyReads.pure _
  | h :: hs, seen => by
    unfold TinyMesh.numEdgesLoop
    exact OnlyReads.bind (OnlyReads.getRev _) fun _ => OnlyReads.ite (numEdgesLoop _ _) (numEdgesLoop _ _)

theorem OnlyReads.numEdges : OnlyReads (numEdges : M F Nat) := by
  unfold TinyMesh.numEdges
  exact OnlyReads.bind (OnlyReads.read _) fun _ => OnlyReads.bind (OnlyReads.numEdgesLoop _ _) fun _ => OnlyReads.pure _

theorem OnlyReads.meanEdgeLoop : ∀ hs seen (s : F), OnlyReads (meanEdgeLoop hs seen s)
  | [], _, _ => OnlyReads.pure _
  | h :: hs, seen, s => by
    unfold TinyMesh.meanEdgeLoop
    have ih := fun seen s => meanEdgeLoop hs seen s
    only_reads
    all_goals first | exact OnlyReads.getDst _ | exact ih _ _

theorem OnlyReads.meanEdgeLength : OnlyReads (meanEdgeLength : M F F) := by
  unfold TinyMesh.meanEdgeLength
  refine OnlyReads.bind (OnlyReads.read _) fun _ => OnlyReads.bind (OnlyReads.meanEdgeLoop _ _ _) fun _ => OnlyReads.pure _

theorem OnlyReads.edgeAngle (h : Nat) : OnlyReads (edgeAngle h : M F F) := by
  unfold TinyMesh.edgeAngle
  only_reads
  all_goals exact OnlyReads.getDst _

theorem OnlyReads.meanAngleLoop : ∀ hs seen (s : F), OnlyReads (meanAngleLoop hs seen s)
  | [], _, _ => OnlyReads.pure _
  | h :: hs, seen, s => by
    unfold TinyMesh.meanAngleLoop
    have ih := fun seen s => meanAngleLoop hs seen s
    only_reads
    all_goals first | exact OnlyReads.edgeAngle _ | exact ih _ _

theorem OnlyReads.meanDihedralAngle : OnlyReads (meanDihedralAngle : M F F) := by
  unfold TinyMesh.meanDihedralAngle
  refine OnlyReads.bind (OnlyReads.read _) fun _ => OnlyReads.bind (OnlyReads.meanAngleLoop _ _ _) fun _ => OnlyReads.pure _

theorem OnlyReads.rows {row : Nat → M F (List (Triplet F))} (h : ∀ i, OnlyReads (row i)) : ∀ is, OnlyReads (rows row is)
  | [] => OnlyReads.pure _
  | i :: is => OnlyReads.bind (h i) fun _ => OnlyReads.bind (rows h is) fun _ => OnlyReads.pure _

theorem OnlyReads.ofTriplets (n : Nat) (ts : List (Triplet F)) : OnlyReads (ofTriplets n ts) := by
  unfold TinyMesh.ofTriplets
  exact OnlyReads.ite (OnlyReads.pure _) (OnlyReads.fail _)

theorem OnlyReads.ofTripletsRect (n k : Nat) (ts : List (Triplet F)) : OnlyReads (ofTripletsRect n k ts) := by
  unfold TinyMesh.ofTripletsRect
  exact OnlyReads.ite (OnlyReads.pure _) (OnlyReads.fail _)

theorem OnlyReads.posRows : ∀ is, OnlyReads (posRows is : M F (List (Vec3 F)))
  | [] => OnlyReads.pure _
  | i :: is => OnlyReads.bind (OnlyReads.vertexAt _) fun _ => OnlyReads.bind (OnlyReads.getPos _) fun _ => OnlyReads.bind (posRows is) fun _ => OnlyReads.pure _

theorem OnlyReads.cotWeight (h : Nat) : OnlyReads (cotWeight h : M F F) := by
  unfold TinyMesh.cotWeight
  refine OnlyReads.bind ?_ fun _ => by only_reads
  unfold cotVerts
  only_reads
  all_goals exact OnlyReads.getDst _

theorem OnlyReads.fairLoop : ∀ hs (s : F), OnlyReads (fairLoop hs s)
  | [], _ => OnlyReads.pure _
  | h :: hs, s => OnlyReads.bind (OnlyReads.cotWeight h) fun _ => OnlyReads.bind (OnlyReads.getDst _) fun _ => OnlyReads.bind (OnlyReads.getVIdx _) fun _ =>
    OnlyReads.bind (fairLoop hs _) fun _ => OnlyReads.pure _

theorem OnlyReads.fairRow (i : Nat) : OnlyReads (fairRow i : M F (List (Triplet F))) := by
  unfold TinyMesh.fairRow
  exact OnlyReads.bind (OnlyReads.vertexAt _) fun _ => OnlyReads.bind (OnlyReads.ringList _) fun _ => OnlyReads.bind (OnlyReads.fairLoop _ _) fun _ =>
    OnlyReads.bind (OnlyReads.getPos _) fun _ => OnlyReads.pure _

theorem OnlyReads.fairMatrix (eps : F) : OnlyReads (fairMatrix eps) := by
  unfold TinyMesh.fairMatrix
  exact OnlyReads.bind (OnlyReads.read _) fun _ => OnlyReads.bind (OnlyReads.rows OnlyReads.fairRow _) fun _ => OnlyReads.bind (OnlyReads.ofTriplets _ _) fun _ => OnlyReads.pure _

theorem OnlyReads.edgeNo (es : List Nat) (e : Nat) : OnlyReads (edgeNo es e : M F Nat) := by
  unfold TinyMesh.edgeNo
  split
  · exact OnlyReads.pure _
  · exact OnlyReads.fail _

theorem OnlyReads.edgeQuad (h : Nat) : OnlyReads (edgeQuad h : M F (Nat × Nat × Nat × Nat)) := by
  unfold TinyMesh.edgeQuad
  only_reads
  all_goals exact OnlyReads.getDst _

theorem OnlyReads.quadTriplets (e : Nat) (q : Nat × Nat × Nat × Nat) (c : F × F × F × F) : OnlyReads (quadTriplets e q c) := by
  unfold TinyMesh.quadTriplets
  only_reads

theorem OnlyReads.l0RowR (es : List Nat) (e : Nat) : OnlyReads (l0RowR es e : M F (List (Triplet F))) := by
  unfold TinyMesh.l0RowR
  exact OnlyReads.bind (OnlyReads.edgeNo _ _) fun _ => OnlyReads.bind (OnlyReads.edgeQuad _) fun _ => OnlyReads.quadTriplets _ _ _

theorem OnlyReads.l0RowD (es : List Nat) (e : Nat) : OnlyReads (l0RowD es e : M F (List (Triplet F))) := by
  unfold TinyMesh.l0RowD
  exact OnlyReads.bind (OnlyReads.edgeNo _ _) fun _ => OnlyReads.bind (OnlyReads.edgeQuad _) fun _ => OnlyReads.bind (OnlyReads.getPos _) fun _ =>
    OnlyReads.bind (OnlyReads.getPos _) fun _ => OnlyReads.bind (OnlyReads.getPos _) fun _ => OnlyReads.bind (OnlyReads.getPos _) fun _ => OnlyReads.quadTriplets _ _ _

theorem OnlyReads.l0Loop (solve : LinSolve F) (ne nv : Nat) (es : List Nat) (R : Nat → Nat → F) (p0 : Nat → Vec3 F) (lambda bmax : F) :
    ∀ (fuel : Nat) (alpha beta : F) (p : Nat → Vec3 F), OnlyReads (l0Loop solve ne nv es R p0 lambda bmax fuel alpha beta p)
  | 0, _, _, _ => OnlyReads.fail _
  | n + 1, _, _, _ => by
    unfold TinyMesh.l0Loop
    refine OnlyReads.ite (OnlyReads.bind ?_ fun _ => l0Loop solve ne nv es R p0 lambda bmax n _ _ _) (OnlyReads.pure _)
    unfold l0Round
    exact OnlyReads.bind (OnlyReads.rows (OnlyReads.l0RowD _) _) fun _ => OnlyReads.bind (OnlyReads.ofTripletsRect _ _ _) fun _ => OnlyReads.pure _

end
end TinyMesh
