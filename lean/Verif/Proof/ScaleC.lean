import Verif.Proof.ScaleB
/-
Edits, queries, lengths, areas, angles and normals in every unit of length.
-/
namespace TinyMesh
namespace Zoom
variable {g : Zoom} {α β γ δ : Type}

/-! ### Edits -/

theorem Sim.splitHE {h : Nat} : g.Sim id (TinyMesh.splitHE h) (TinyMesh.splitHE h) := by
  unfold TinyMesh.splitHE
  zoom
  refine Sim.bindId (by rw [pt_mid]; exact Sim.newVertex) (fun _ => ?_)
  zoom

theorem Sim.flipHE {h : Nat} : g.Sim id (TinyMesh.flipHE h) (TinyMesh.flipHE h) := by
  unfold TinyMesh.flipHE
  zoom

theorem Sim.collapseHE {h : Nat} : g.Sim id (TinyMesh.collapseHE h) (TinyMesh.collapseHE h) := by
  unfold TinyMesh.collapseHE
  zoom
  rw [collapseGeomOK_pt]
  split
  · exact Sim.fail
  · exact Sim.pureId
  · zoom

theorem Sim.collapseFace {f : Nat} : g.Sim id (TinyMesh.collapseFace f) (TinyMesh.collapseFace f) := by
  unfold TinyMesh.collapseFace
  zoom
  refine Sim.bindId Sim.collapseHE (fun _ => ?_)
  zoom
  refine Sim.bindId Sim.collapseHE (fun _ => ?_)
  zoom

/-! ### Queries -/

theorem Sim.verifyVertex {v : Nat} : g.Sim id (TinyMesh.verifyVertex v) (TinyMesh.verifyVertex v) := by
  unfold TinyMesh.verifyVertex
  zoom

theorem Sim.verifyVs (l : List Nat) : ∀ i, g.Sim id (TinyMesh.verifyVs i l) (TinyMesh.verifyVs i l) := by
  induction l with
  | nil => intro i; exact Sim.pureId
  | cons v l ih =>
    intro i
    unfold TinyMesh.verifyVs
    have := ih (i + 1)
    refine Sim.bindId Sim.getVIdx (fun _ => Sim.bindId Sim.verifyVertex (fun _ => ?_))
    zoom

theorem Sim.verifyHs (l : List Nat) : ∀ i, g.Sim id (TinyMesh.verifyHs i l) (TinyMesh.verifyHs i l) := by
  induction l with
  | nil => intro i; exact Sim.pureId
  | cons v l ih =>
    intro i
    unfold TinyMesh.verifyHs
    have := ih (i + 1)
    zoom

theorem Sim.verifyFs (l : List Nat) : ∀ i, g.Sim id (TinyMesh.verifyFs i l) (TinyMesh.verifyFs i l) := by
  induction l with
  | nil => intro i; exact Sim.pureId
  | cons v l ih =>
    intro i
    unfold TinyMesh.verifyFs
    have := ih (i + 1)
    zoom

theorem Sim.verify : g.Sim id TinyMesh.verify TinyMesh.verify := by
  unfold TinyMesh.verify
  refine Sim.bindId (Sim.read fun _ => rfl) (fun _ => Sim.bindId (Sim.verifyVs _ _) (fun _ => ?_))
  refine Sim.bindId (Sim.read fun _ => rfl) (fun _ => Sim.bindId (Sim.verifyHs _ _) (fun _ => ?_))
  refine Sim.bindId (Sim.read fun _ => rfl) (fun _ => Sim.bindId (Sim.verifyFs _ _) (fun _ => ?_))
  zoom

theorem Sim.numEdgesLoop (l : List Nat) : ∀ s, g.Sim id (TinyMesh.numEdgesLoop l s) (TinyMesh.numEdgesLoop l s) := by
  induction l with
  | nil => intro i; exact Sim.pureId
  | cons v l ih =>
    intro i
    unfold TinyMesh.numEdgesLoop
    zoom
    · exact ih _
    · exact ih _

theorem Sim.numEdges : g.Sim id TinyMesh.numEdges TinyMesh.numEdges := by
  unfold TinyMesh.numEdges
  refine Sim.bindId (Sim.read fun _ => rfl) (fun _ => Sim.bindId (Sim.numEdgesLoop _ _) (fun _ => ?_))
  zoom

theorem Sim.getVertices : g.Sim (List.map g.pt) TinyMesh.getVertices TinyMesh.getVertices := by
  unfold TinyMesh.getVertices
  zoom

theorem Sim.vertexIndicesLoop (l : List Nat) : g.Sim id (TinyMesh.vertexIndicesLoop l) (TinyMesh.vertexIndicesLoop l) := by
  induction l with
  | nil => exact Sim.pureId
  | cons v l ih =>
    unfold TinyMesh.vertexIndicesLoop
    zoom

theorem Sim.getVertexIndices : g.Sim id TinyMesh.getVertexIndices TinyMesh.getVertexIndices := by
  unfold TinyMesh.getVertexIndices
  refine Sim.bindId (Sim.read fun _ => rfl) (fun _ => Sim.vertexIndicesLoop _)

/-! ### Lengths, areas, angles -/

theorem Sim.heLength {h : Nat} : g.Sim g.len (TinyMesh.heLength h) (TinyMesh.heLength h) := by
  unfold TinyMesh.heLength
  zoom
  rw [pt_sub, length_pt]
  exact Sim.ret rfl

theorem len_add (x y : ℝ) : g.len x + g.len y = g.len (x + y) := by simp only [len]; ring
theorem area_add (x y : ℝ) : g.area x + g.area y = g.area (x + y) := by simp only [area]; ring
theorem len_div (x y : ℝ) : g.len x / y = g.len (x / y) := by simp only [len]; ring
theorem area_div (x y : ℝ) : g.area x / y = g.area (x / y) := by simp only [area]; ring

theorem Sim.meanEdgeLoop (l : List Nat) : ∀ (seen : List Nat) (s : ℝ),
    g.Sim (Prod.map g.len id) (TinyMesh.meanEdgeLoop l seen s) (TinyMesh.meanEdgeLoop l seen (g.len s)) := by
  induction l with
  | nil => intro seen s; exact Sim.ret rfl
  | cons v l ih =>
    intro seen s
    unfold TinyMesh.meanEdgeLoop
    zoom
    · exact ih _ _
    · exact ih _ _
    · rw [pt_sub, length_pt, len_add]; exact ih _ _

theorem zero_len : (Scalar.lit 0 1 : ℝ) = g.len (Scalar.lit 0 1) := by rw [R_lit0, len_zero]
theorem zero_area : (Scalar.lit 0 1 : ℝ) = g.area (Scalar.lit 0 1) := by rw [R_lit0, area_zero]

theorem Sim.meanEdgeLength : g.Sim g.len (TinyMesh.meanEdgeLength (F := ℝ)) TinyMesh.meanEdgeLength := by
  unfold TinyMesh.meanEdgeLength
  refine Sim.bindId (Sim.read fun _ => rfl) (fun _ => Sim.bind (φ := Prod.map g.len id) ?_ (fun x => ?_))
  · have := Sim.meanEdgeLoop (g := g) ‹_› [] (Scalar.lit 0 1)
    rwa [← zero_len] at this
  · obtain ⟨s, n⟩ := x
    dsimp only [Prod.map, id]
    rw [len_div]
    exact Sim.ret rfl

theorem Sim.faceArea {f : Nat} : g.Sim g.area (TinyMesh.faceArea (F := ℝ) f) (TinyMesh.faceArea f) := by
  unfold TinyMesh.faceArea
  zoom
  rw [polyArea_pt]
  exact Sim.ret rfl

theorem Sim.areaSum (l : List Nat) : ∀ (s : ℝ), g.Sim g.area (TinyMesh.areaSum l s) (TinyMesh.areaSum l (g.area s)) := by
  induction l with
  | nil => intro s; exact Sim.ret rfl
  | cons v l ih =>
    intro s
    unfold TinyMesh.areaSum
    refine Sim.bind Sim.faceArea (fun _ => ?_)
    rw [area_add]
    exact ih _

theorem Sim.meanFaceArea : g.Sim g.area (TinyMesh.meanFaceArea (F := ℝ)) TinyMesh.meanFaceArea := by
  unfold TinyMesh.meanFaceArea
  refine Sim.bindId (Sim.read fun _ => rfl) (fun fs => Sim.bind (φ := g.area) ?_ (fun x => ?_))
  · have := Sim.areaSum (g := g) fs (Scalar.lit 0 1)
    rwa [← zero_area] at this
  · rw [area_div]
    exact Sim.ret rfl

theorem Sim.edgeAngle {h : Nat} : g.Sim id (TinyMesh.edgeAngle (F := ℝ) h) (TinyMesh.edgeAngle h) := by
  unfold TinyMesh.edgeAngle
  zoom
  rw [dihedral_pt]
  zoom

theorem Sim.meanAngleLoop (l : List Nat) : ∀ (seen : List Nat) (s : ℝ),
    g.Sim id (TinyMesh.meanAngleLoop l seen s) (TinyMesh.meanAngleLoop l seen s) := by
  induction l with
  | nil => intro seen s; exact Sim.pureId
  | cons v l ih =>
    intro seen s
    unfold TinyMesh.meanAngleLoop
    zoom
    · exact ih _ _
    · exact ih _ _
    · exact Sim.bindId Sim.edgeAngle (fun _ => ih _ _)

theorem Sim.meanDihedralAngle : g.Sim id (TinyMesh.meanDihedralAngle (F := ℝ)) TinyMesh.meanDihedralAngle := by
  unfold TinyMesh.meanDihedralAngle
  refine Sim.bindId (Sim.read fun _ => rfl) (fun _ => Sim.bindId (Sim.meanAngleLoop _ _ _) (fun _ => ?_))
  zoom

/-! ### The Laplacian of the graph -/

theorem Sim.adjRow {i : Nat} : g.Sim id (TinyMesh.adjRow (F := ℝ) i) (TinyMesh.adjRow i) := by
  unfold TinyMesh.adjRow
  zoom

theorem Sim.rows {row : Nat → M ℝ (List (Triplet ℝ))} (h : ∀ i, g.Sim id (row i) (row i)) (l : List Nat) :
    g.Sim id (TinyMesh.rows row l) (TinyMesh.rows row l) := by
  induction l with
  | nil => exact Sim.pureId
  | cons v l ih =>
    unfold TinyMesh.rows
    exact Sim.bindId (h _) (fun _ => Sim.bindId ih (fun _ => Sim.pureId))

theorem Sim.ofTriplets {n : Nat} {ts : List (Triplet ℝ)} : g.Sim id (TinyMesh.ofTriplets n ts) (TinyMesh.ofTriplets n ts) := by
  unfold TinyMesh.ofTriplets
  zoom

theorem Sim.meshLaplacian : g.Sim id (TinyMesh.meshLaplacian (F := ℝ) .adjacent) (TinyMesh.meshLaplacian .adjacent) :=
  Sim.bindId (Sim.read fun _ => rfl) (fun _ => Sim.bindId (Sim.rows (fun _ => Sim.adjRow) _) (fun _ => Sim.ofTriplets))

/-! ### Vertices -/

theorem Sim.orThrowM {φ : α → β} {o : Option α} {o' : Option β} (h : o' = o.map φ) :
    g.Sim φ (TinyMesh.orThrowM o) (TinyMesh.orThrowM o') := by
  subst h
  cases o
  · exact Sim.fail
  · exact Sim.ret rfl

theorem Sim.circ' {φ : α → β} {step : Nat → M ℝ Nat} {body : Nat → α → M ℝ (Bool × α)} {body' : Nat → β → M ℝ (Bool × β)} {s : Nat} {a : α}
    {b : β} (hz : b = φ a) (hs : ∀ x, g.Sim id (step x) (step x))
    (hb : ∀ x a, g.Sim (Prod.map id φ) (body x a) (body' x (φ a))) :
    g.Sim φ (TinyMesh.circ step s a body) (TinyMesh.circ step s b body') := by
  subst hz
  exact Sim.circ hs hb

theorem Sim.vertNormal {v : Nat} : g.Sim id (TinyMesh.vertNormal (F := ℝ) v) (TinyMesh.vertNormal v) := by
  unfold TinyMesh.vertNormal
  refine Sim.bindId Sim.getVHe (fun h => ?_)
  refine Sim.bind (φ := fun x => g.inv.pt (g.inv.pt x)) ?_ (fun s => Sim.orThrowM (by rw [inv_normalize, inv_normalize, Option.map_id]; rfl))
  refine Sim.circ' (by rw [pt_zero, pt_zero]) (fun _ => Sim.ringStep) (fun x s => ?_)
  zoom
  refine Sim.bind (Sim.orThrowM (maxTerm_pt g _ _ _)) (fun t => ?_)
  rw [pt_add, pt_add]
  exact Sim.ret rfl

theorem Sim.ringPos {v : Nat} : g.Sim (List.map g.pt) (TinyMesh.ringPos v) (TinyMesh.ringPos v) := by
  unfold TinyMesh.ringPos
  zoom

end Zoom
end TinyMesh
