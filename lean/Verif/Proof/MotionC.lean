import Verif.Proof.MotionB
/-
Edits, queries, operators and curvatures do the same wherever the mesh lies.
-/
namespace TinyMesh
namespace Motion
variable {g : Motion} {α β γ δ : Type}

/-! ### Edits -/

theorem Sim.splitHE {h : Nat} : g.Sim id (TinyMesh.splitHE h) (TinyMesh.splitHE h) := by
  unfold TinyMesh.splitHE
  sim
  refine Sim.bindId (by rw [pt_mid]; exact Sim.newVertex) (fun _ => ?_)
  sim

theorem Sim.flipHE {h : Nat} : g.Sim id (TinyMesh.flipHE h) (TinyMesh.flipHE h) := by
  unfold TinyMesh.flipHE
  sim

theorem Sim.collapseHE {h : Nat} : g.Sim id (TinyMesh.collapseHE h) (TinyMesh.collapseHE h) := by
  unfold TinyMesh.collapseHE
  sim
  rw [collapseGeomOK_pt]
  split
  · exact Sim.fail
  · exact Sim.pureId
  · sim

theorem Sim.collapseFace {f : Nat} : g.Sim id (TinyMesh.collapseFace f) (TinyMesh.collapseFace f) := by
  unfold TinyMesh.collapseFace
  sim
  refine Sim.bindId Sim.collapseHE (fun _ => ?_)
  sim
  refine Sim.bindId Sim.collapseHE (fun _ => ?_)
  sim

/-! ### Queries -/

theorem Sim.verifyVertex {v : Nat} : g.Sim id (TinyMesh.verifyVertex v) (TinyMesh.verifyVertex v) := by
  unfold TinyMesh.verifyVertex
  sim

theorem Sim.verifyVs (l : List Nat) : ∀ i, g.Sim id (TinyMesh.verifyVs i l) (TinyMesh.verifyVs i l) := by
  induction l with
  | nil => intro i; exact Sim.pureId
  | cons v l ih =>
    intro i
    unfold TinyMesh.verifyVs
    have := ih (i + 1)
    refine Sim.bindId Sim.getVIdx (fun _ => Sim.bindId Sim.verifyVertex (fun _ => ?_))
    sim

theorem Sim.verifyHs (l : List Nat) : ∀ i, g.Sim id (TinyMesh.verifyHs i l) (TinyMesh.verifyHs i l) := by
  induction l with
  | nil => intro i; exact Sim.pureId
  | cons v l ih =>
    intro i
    unfold TinyMesh.verifyHs
    have := ih (i + 1)
    sim

theorem Sim.verifyFs (l : List Nat) : ∀ i, g.Sim id (TinyMesh.verifyFs i l) (TinyMesh.verifyFs i l) := by
  induction l with
  | nil => intro i; exact Sim.pureId
  | cons v l ih =>
    intro i
    unfold TinyMesh.verifyFs
    have := ih (i + 1)
    sim

theorem Sim.verify : g.Sim id TinyMesh.verify TinyMesh.verify := by
  unfold TinyMesh.verify
  refine Sim.bindId (Sim.read fun _ => rfl) (fun _ => Sim.bindId (Sim.verifyVs _ _) (fun _ => ?_))
  refine Sim.bindId (Sim.read fun _ => rfl) (fun _ => Sim.bindId (Sim.verifyHs _ _) (fun _ => ?_))
  refine Sim.bindId (Sim.read fun _ => rfl) (fun _ => Sim.bindId (Sim.verifyFs _ _) (fun _ => ?_))
  sim

theorem Sim.numEdgesLoop (l : List Nat) : ∀ s, g.Sim id (TinyMesh.numEdgesLoop l s) (TinyMesh.numEdgesLoop l s) := by
  induction l with
  | nil => intro i; exact Sim.pureId
  | cons v l ih =>
    intro i
    unfold TinyMesh.numEdgesLoop
    sim
    · exact ih _
    · exact ih _

theorem Sim.numEdges : g.Sim id TinyMesh.numEdges TinyMesh.numEdges := by
  unfold TinyMesh.numEdges
  refine Sim.bindId (Sim.read fun _ => rfl) (fun _ => Sim.bindId (Sim.numEdgesLoop _ _) (fun _ => ?_))
  sim

theorem Sim.getVertices : g.Sim (List.map g.pt) TinyMesh.getVertices TinyMesh.getVertices := by
  unfold TinyMesh.getVertices
  sim

theorem Sim.vertexIndicesLoop (l : List Nat) : g.Sim id (TinyMesh.vertexIndicesLoop l) (TinyMesh.vertexIndicesLoop l) := by
  induction l with
  | nil => exact Sim.pureId
  | cons v l ih =>
    unfold TinyMesh.vertexIndicesLoop
    sim

theorem Sim.getVertexIndices : g.Sim id TinyMesh.getVertexIndices TinyMesh.getVertexIndices := by
  unfold TinyMesh.getVertexIndices
  refine Sim.bindId (Sim.read fun _ => rfl) (fun _ => Sim.vertexIndicesLoop _)

/-! ### Lengths, areas, angles -/

theorem Sim.heLength {h : Nat} : g.Sim id (TinyMesh.heLength h) (TinyMesh.heLength h) := by
  unfold TinyMesh.heLength
  sim
  rw [pt_sub, length_vec]
  sim

theorem Sim.meanEdgeLoop (l : List Nat) : ∀ (seen : List Nat) (s : ℝ),
    g.Sim id (TinyMesh.meanEdgeLoop l seen s) (TinyMesh.meanEdgeLoop l seen s) := by
  induction l with
  | nil => intro seen s; exact Sim.pureId
  | cons v l ih =>
    intro seen s
    unfold TinyMesh.meanEdgeLoop
    sim
    · exact ih _ _
    · exact ih _ _
    · rw [pt_sub, length_vec]; exact ih _ _

theorem Sim.meanEdgeLength : g.Sim id (TinyMesh.meanEdgeLength (F := ℝ)) TinyMesh.meanEdgeLength := by
  unfold TinyMesh.meanEdgeLength
  refine Sim.bindId (Sim.read fun _ => rfl) (fun _ => Sim.bindId (Sim.meanEdgeLoop _ _ _) (fun _ => ?_))
  sim

theorem Sim.faceArea {f : Nat} : g.Sim id (TinyMesh.faceArea (F := ℝ) f) (TinyMesh.faceArea f) := by
  unfold TinyMesh.faceArea
  sim
  rw [polyArea_pt]
  sim

theorem Sim.areaSum (l : List Nat) : ∀ (s : ℝ), g.Sim id (TinyMesh.areaSum l s) (TinyMesh.areaSum l s) := by
  induction l with
  | nil => intro s; exact Sim.pureId
  | cons v l ih =>
    intro s
    unfold TinyMesh.areaSum
    exact Sim.bindId Sim.faceArea (fun _ => ih _)

theorem Sim.meanFaceArea : g.Sim id (TinyMesh.meanFaceArea (F := ℝ)) TinyMesh.meanFaceArea := by
  unfold TinyMesh.meanFaceArea
  refine Sim.bindId (Sim.read fun _ => rfl) (fun _ => Sim.bindId (Sim.areaSum _ _) (fun _ => ?_))
  sim

theorem Sim.edgeAngle {h : Nat} : g.Sim id (TinyMesh.edgeAngle (F := ℝ) h) (TinyMesh.edgeAngle h) := by
  unfold TinyMesh.edgeAngle
  sim
  rw [dihedral_pt]
  sim

theorem Sim.meanAngleLoop (l : List Nat) : ∀ (seen : List Nat) (s : ℝ),
    g.Sim id (TinyMesh.meanAngleLoop l seen s) (TinyMesh.meanAngleLoop l seen s) := by
  induction l with
  | nil => intro seen s; exact Sim.pureId
  | cons v l ih =>
    intro seen s
    unfold TinyMesh.meanAngleLoop
    sim
    · exact ih _ _
    · exact ih _ _
    · exact Sim.bindId Sim.edgeAngle (fun _ => ih _ _)

theorem Sim.meanDihedralAngle : g.Sim id (TinyMesh.meanDihedralAngle (F := ℝ)) TinyMesh.meanDihedralAngle := by
  unfold TinyMesh.meanDihedralAngle
  refine Sim.bindId (Sim.read fun _ => rfl) (fun _ => Sim.bindId (Sim.meanAngleLoop _ _ _) (fun _ => ?_))
  sim

/-! ### Laplacians -/

theorem Sim.cotVerts {h : Nat} : g.Sim id (TinyMesh.cotVerts h) (TinyMesh.cotVerts h) := by
  unfold TinyMesh.cotVerts
  sim

theorem Sim.cotWeight {h : Nat} : g.Sim id (TinyMesh.cotWeight (F := ℝ) h) (TinyMesh.cotWeight h) := by
  unfold TinyMesh.cotWeight
  refine Sim.bindId Sim.cotVerts (fun _ => ?_)
  sim
  rw [cotW_pt]
  sim

theorem Sim.adjRow {i : Nat} : g.Sim id (TinyMesh.adjRow (F := ℝ) i) (TinyMesh.adjRow i) := by
  unfold TinyMesh.adjRow
  sim

theorem Sim.cotRowLoop (i : Nat) (l : List Nat) : ∀ (s : ℝ), g.Sim id (TinyMesh.cotRowLoop i l s) (TinyMesh.cotRowLoop i l s) := by
  induction l with
  | nil => intro s; exact Sim.pureId
  | cons v l ih =>
    intro s
    unfold TinyMesh.cotRowLoop
    refine Sim.bindId Sim.getDst (fun _ => Sim.bindId Sim.getVIdx (fun _ => Sim.bindId Sim.cotWeight (fun _ => ?_)))
    exact Sim.bindId (ih _) (fun _ => Sim.pureId)

theorem Sim.cotRow {i : Nat} : g.Sim id (TinyMesh.cotRow (F := ℝ) i) (TinyMesh.cotRow i) := by
  unfold TinyMesh.cotRow
  sim
  exact Sim.bindId (Sim.cotRowLoop _ _ _) (fun _ => Sim.pureId)

theorem Sim.belRowLoop (avg : ℝ) (v i : Nat) (l : List Nat) : ∀ (s : ℝ),
    g.Sim id (TinyMesh.belRowLoop avg v i l s) (TinyMesh.belRowLoop avg v i l s) := by
  induction l with
  | nil => intro s; exact Sim.pureId
  | cons x l ih =>
    intro s
    unfold TinyMesh.belRowLoop
    sim
    rw [belkinW_pt]
    exact Sim.bindId (ih _) (fun _ => Sim.pureId)

theorem Sim.belRow {avg : ℝ} {i : Nat} : g.Sim id (TinyMesh.belRow avg i) (TinyMesh.belRow avg i) := by
  unfold TinyMesh.belRow
  sim
  exact Sim.bindId (Sim.belRowLoop _ _ _ _ _) (fun _ => Sim.pureId)

theorem Sim.rows {row : Nat → M ℝ (List (Triplet ℝ))} (h : ∀ i, g.Sim id (row i) (row i)) (l : List Nat) :
    g.Sim id (TinyMesh.rows row l) (TinyMesh.rows row l) := by
  induction l with
  | nil => exact Sim.pureId
  | cons v l ih =>
    unfold TinyMesh.rows
    exact Sim.bindId (h _) (fun _ => Sim.bindId ih (fun _ => Sim.pureId))

theorem Sim.ofTriplets {n : Nat} {ts : List (Triplet ℝ)} : g.Sim id (TinyMesh.ofTriplets n ts) (TinyMesh.ofTriplets n ts) := by
  unfold TinyMesh.ofTriplets
  sim

theorem Sim.meshLaplacian (t : LaplaceType) : g.Sim id (TinyMesh.meshLaplacian (F := ℝ) t) (TinyMesh.meshLaplacian t) := by
  cases t <;> unfold TinyMesh.meshLaplacian
  · exact Sim.bindId (Sim.read fun _ => rfl) (fun _ => Sim.bindId (Sim.rows (fun _ => Sim.adjRow) _) (fun _ => Sim.ofTriplets))
  · exact Sim.bindId (Sim.read fun _ => rfl) (fun _ => Sim.bindId (Sim.rows (fun _ => Sim.cotRow) _) (fun _ => Sim.ofTriplets))
  · exact Sim.bindId Sim.meanEdgeLength (fun _ => Sim.bindId (Sim.read fun _ => rfl) (fun _ =>
      Sim.bindId (Sim.rows (fun _ => Sim.belRow) _) (fun _ => Sim.ofTriplets)))
  · exact Sim.fail

/-! ### Vertices -/

theorem Sim.orThrowM {φ : α → β} {o : Option α} {o' : Option β} (h : o' = o.map φ) :
    g.Sim φ (TinyMesh.orThrowM o) (TinyMesh.orThrowM o') := by
  subst h
  cases o
  · exact Sim.fail
  · exact Sim.ret rfl

theorem Sim.circ' {φ : α → β} {step : Nat → M ℝ Nat} {body : Nat → α → M ℝ (Bool × α)} {body' : Nat → β → M ℝ (Bool × β)} {s : Nat} {a : α}
    {b : β} (hz : b = φ a) (hs : ∀ x, g.Sim id (step x) (step x))
    (hb : ∀ x a, g.Sim (Prod.map id φ) (body x a) (body' x (φ a))) :
    g.Sim φ (TinyMesh.circ step s a body) (TinyMesh.circ step s b body') := by
  subst hz
  exact Sim.circ hs hb

theorem Sim.vertNormal {v : Nat} : g.Sim g.vec (TinyMesh.vertNormal v) (TinyMesh.vertNormal v) := by
  unfold TinyMesh.vertNormal
  refine Sim.bindId Sim.getVHe (fun h => ?_)
  refine Sim.bindVec ?_ (fun s => Sim.orThrowM (vec_normalize g s))
  refine Sim.circ' g.vec_zero.symm (fun _ => Sim.ringStep) (fun x s => ?_)
  sim
  refine Sim.bindVec (Sim.orThrowM (maxTerm_pt g _ _ _)) (fun t => ?_)
  rw [vec_add]
  exact Sim.ret rfl

theorem Sim.ringPos {v : Nat} : g.Sim (List.map g.pt) (TinyMesh.ringPos v) (TinyMesh.ringPos v) := by
  unfold TinyMesh.ringPos
  sim

theorem Sim.vorArea {v : Nat} : g.Sim id (TinyMesh.vorArea (F := ℝ) v) (TinyMesh.vorArea v) := by
  unfold TinyMesh.vorArea
  refine Sim.bindPts Sim.ringPos (fun ps => Sim.bindPt Sim.getPos (fun p => ?_))
  rw [sumPairs_pt g (vorCorner p) _ (fun a b => vorCorner_pt g p a b)]
  exact Sim.pureId

theorem Sim.gaussK {v : Nat} : g.Sim id (TinyMesh.gaussK (F := ℝ) v) (TinyMesh.gaussK v) := by
  unfold TinyMesh.gaussK
  refine Sim.bindPts Sim.ringPos (fun ps => Sim.bindPt Sim.getPos (fun p => ?_))
  dsimp only
  rw [← List.map_reverse, sumPairs_pt g (vorCorner p) _ (fun a b => vorCorner_pt g p a b),
    sumPairs_pt g (cornerAngle p) _ (fun a b => cornerAngle_pt g p a b)]
  exact Sim.pureId

theorem Sim.meanH {v : Nat} : g.Sim id (TinyMesh.meanH (F := ℝ) v) (TinyMesh.meanH v) := by
  unfold TinyMesh.meanH
  refine Sim.bindPts Sim.ringPos (fun ps => Sim.bindPt Sim.getPos (fun p => Sim.bindVec Sim.vertNormal (fun n => ?_)))
  rw [← List.map_reverse, sumPairs_pt g (vorCorner p) _ (fun a b => vorCorner_pt g p a b), ringLaplace_pt, dot_vec]
  exact Sim.pureId

theorem Sim.vorFace {v f : Nat} : g.Sim id (TinyMesh.vorFace (F := ℝ) v f) (TinyMesh.vorFace v f) := by
  unfold TinyMesh.vorFace
  sim
  rename_i l
  cases lastIdx v l with
  | none => exact Sim.fail
  | some i =>
    dsimp only
    sim
    cases l[i]? <;> cases l[(i + 1) % l.length]? <;> cases l[(i + 2) % l.length]? <;> dsimp only
    all_goals first | exact Sim.fail | skip
    sim
    rw [vorCorner_pt]
    sim

end Motion
end TinyMesh
