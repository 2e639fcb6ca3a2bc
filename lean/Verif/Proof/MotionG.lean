import Verif.Proof.MotionC
import Verif.Model.Fill
import Verif.Model.Construct
/-
Construction and the filling of holes move with the mesh.
-/
namespace TinyMesh
namespace Motion
variable {g : Motion} {α β γ δ : Type}

/-! ### Hole filling -/

theorem fillArea_pt (a b c : Vec3 ℝ) : fillArea (g.pt a) (g.pt b) (g.pt c) = fillArea a b c := by
  simp only [fillArea, pt_sub, cross_vec, length_vec]

theorem fillAngle_pt (a b c d e : Vec3 ℝ) : fillAngle (g.pt a) (g.pt b) (g.pt c) (g.pt d) (g.pt e) = fillAngle a b c d e := by
  simp only [fillAngle, dihedral_pt]

theorem Sim.boundaryAt {bs : List Nat} {i : Nat} : g.Same (TinyMesh.boundaryAt (F := ℝ) bs i) := by
  unfold TinyMesh.boundaryAt
  cases bs[i]? with
  | none => exact Sim.fail
  | some v => exact Sim.pureId

theorem Sim.boundaryPos {bs : List Nat} {i : Nat} : g.Sim g.pt (TinyMesh.boundaryPos bs i) (TinyMesh.boundaryPos bs i) :=
  Sim.bindId Sim.boundaryAt (fun _ => Sim.getPos)

theorem Sim.oppositePos {h : Nat} : g.Sim g.pt (TinyMesh.oppositePos h) (TinyMesh.oppositePos h) :=
  Sim.bindId Sim.getRev (fun _ => Sim.bindId Sim.getNext (fun _ => Sim.bindId Sim.getDst (fun _ => Sim.getPos)))

theorem Sim.foldAll {body body' : α → β → M ℝ β} (h : ∀ a b, g.Sim id (body a b) (body' a b)) (l : List α) : ∀ b,
    g.Sim id (TinyMesh.foldAll body l b) (TinyMesh.foldAll body' l b) := by
  induction l with
  | nil => intro b; exact Sim.pureId
  | cons a l ih => intro b; exact Sim.bindId (h a b) (fun b' => ih b')

theorem Sim.fillInitStep {bs : List Nat} {s : HeMaps} {i : Nat} {t : FillTab ℝ} : g.Same (TinyMesh.fillInitStep bs s i t) := by
  unfold TinyMesh.fillInitStep
  refine Sim.ite ?_ Sim.pureId
  refine Sim.bindPt Sim.boundaryPos (fun v0 => Sim.bindPt Sim.boundaryPos (fun v1 => Sim.bindPt Sim.boundaryPos (fun v2 => ?_)))
  refine Sim.bindPt Sim.oppositePos (fun a => Sim.bindPt Sim.oppositePos (fun b => ?_))
  rw [fillArea_pt, fillAngle_pt]
  exact Sim.pureId

theorem Sim.fillOpposite {bs : List Nat} {s : HeMaps} {t : FillTab ℝ} {i m : Nat} :
    g.Sim g.pt (TinyMesh.fillOpposite bs s t i m) (TinyMesh.fillOpposite bs s t i m) := by
  unfold TinyMesh.fillOpposite
  refine Sim.ite Sim.oppositePos ?_
  cases t.o i m with
  | none => exact Sim.fail
  | some x => exact Sim.boundaryPos

theorem Sim.fillStep {bs : List Nat} {s : HeMaps} {bound : ℝ} {i k m : Nat} {t : FillTab ℝ} : g.Same (TinyMesh.fillStep bs s bound i k m t) := by
  unfold TinyMesh.fillStep
  refine Sim.bindPt Sim.boundaryPos (fun v0 => Sim.bindPt Sim.boundaryPos (fun v1 => Sim.bindPt Sim.boundaryPos (fun v2 => ?_)))
  refine Sim.bindPt Sim.fillOpposite (fun a => Sim.bindPt Sim.fillOpposite (fun b => ?_))
  rw [fillArea_pt, fillAngle_pt]
  exact Sim.ite Sim.pureId Sim.pureId

theorem Sim.fillTable {bs : List Nat} {s : HeMaps} {bound : ℝ} : g.Same (TinyMesh.fillTable bs s bound) :=
  Sim.bindId (Sim.foldAll (fun _ _ => Sim.fillInitStep) _ _) (fun _ => Sim.foldAll (fun _ _ => Sim.foldAll (fun _ _ =>
    Sim.foldAll (fun _ _ => Sim.fillStep) _ _) _ _) _ _)

theorem Sim.pairHalfedge {s : HeMaps} {i j : Nat} : g.Same (TinyMesh.pairHalfedge (F := ℝ) s i j) := by
  unfold TinyMesh.pairHalfedge
  cases s.pair2he.lookup (i, j) with
  | some h => exact Sim.pureId
  | none => exact Sim.bindId Sim.newHalfedge (fun _ => Sim.bindId Sim.addHalfedge (fun _ => Sim.pureId))

theorem Sim.addNewTriangle {bs : List Nat} {tri : Nat × Nat × Nat} {s : HeMaps} : g.Same (TinyMesh.addNewTriangle (F := ℝ) bs tri s) := by
  unfold TinyMesh.addNewTriangle
  obtain ⟨i0, i1, i2⟩ := tri
  refine Sim.bindId Sim.pairHalfedge (fun r0 => Sim.bindId Sim.pairHalfedge (fun r1 => Sim.bindId Sim.pairHalfedge (fun r2 => ?_)))
  refine Sim.bindId Sim.boundaryAt (fun v0 => Sim.bindId Sim.setSrc (fun _ => ?_))
  refine Sim.bindId Sim.boundaryAt (fun v1 => Sim.bindId Sim.setSrc (fun _ => ?_))
  refine Sim.bindId Sim.boundaryAt (fun v2 => Sim.bindId Sim.setSrc (fun _ => ?_))
  refine Sim.bindId Sim.setNext (fun _ => Sim.bindId Sim.setNext (fun _ => Sim.bindId Sim.setNext (fun _ => ?_)))
  refine Sim.bindId Sim.setBd (fun _ => Sim.bindId Sim.setBd (fun _ => Sim.bindId Sim.setBd (fun _ => ?_)))
  refine Sim.bindId Sim.newFace (fun f => Sim.bindId Sim.addFace (fun _ => ?_))
  refine Sim.bindId Sim.setFace (fun _ => Sim.bindId Sim.setFace (fun _ => Sim.bindId Sim.setFace (fun _ => ?_)))
  exact Sim.bindId Sim.setFHe (fun _ => Sim.pureId)

theorem Sim.addTriangles {bs : List Nat} (ts : List (Nat × Nat × Nat)) : ∀ fs s, g.Same (TinyMesh.addTriangles (F := ℝ) bs ts fs s) := by
  induction ts with
  | nil => intro fs s; exact Sim.pureId
  | cons t ts ih => intro fs s; exact Sim.bindId Sim.addNewTriangle (fun r => ih _ _)

theorem Sim.fillLinkRev {s : HeMaps} {h : Nat} : g.Same (TinyMesh.fillLinkRev (F := ℝ) s h) := by
  unfold TinyMesh.fillLinkRev
  refine Sim.bindId Sim.getRev (fun r => Sim.ite ?_ Sim.pureId)
  simp only
  cases s.pair2he.lookup _ with
  | none => exact Sim.pureId
  | some r => exact Sim.bindId Sim.setRev (fun _ => Sim.bindId Sim.setRev (fun _ => Sim.bindId Sim.setBd (fun _ => Sim.setBd)))

theorem Sim.linkFaces {s : HeMaps} (fs : List Nat) : g.Same (TinyMesh.linkFaces (F := ℝ) s fs) := by
  induction fs with
  | nil => exact Sim.pureId
  | cons f fs ih =>
    unfold TinyMesh.linkFaces
    refine Sim.bindId Sim.getFHe (fun h => Sim.bindId (Sim.circId (fun _ => Sim.faceStep) (fun x _ => ?_)) (fun _ => ih))
    exact Sim.bindId Sim.fillLinkRev (fun _ => Sim.pureId)

theorem Sim.holeFillMinDihedral {f : Nat} {bound : ℝ} : g.Same (TinyMesh.holeFillMinDihedral f bound) := by
  unfold TinyMesh.holeFillMinDihedral
  refine Sim.bindId Sim.faceVerts (fun bs => Sim.bindId Sim.faceList (fun hs => Sim.bindId Sim.fillTable (fun t => ?_)))
  cases fillTris t.o (bs.length + 1) [(0, bs.length - 1)] [] with
  | error e => exact Sim.fail
  | ok tris => exact Sim.bindId (Sim.addTriangles _ _ _) (fun r => Sim.bindId (Sim.linkFaces _) (fun _ => Sim.removeFace))

theorem Sim.triangulate {f : Nat} : g.Same (TinyMesh.triangulate (F := ℝ) f) := Sim.holeFillMinDihedral

theorem Sim.holePositions (l : List Nat) : ∀ acc, g.Same (TinyMesh.holePositions (F := ℝ) l acc) := by
  induction l with
  | nil => intro acc; exact Sim.pureId
  | cons i l ih => intro acc; exact Sim.bindId Sim.faceAt (fun f => Sim.bindId Sim.fIsHole (fun b => ih _))

theorem Sim.fillAt (l : List Nat) : g.Same (TinyMesh.fillAt (F := ℝ) l) := by
  induction l with
  | nil => exact Sim.pureId
  | cons i l ih => exact Sim.bindId Sim.faceAt (fun f => Sim.bindId Sim.triangulate (fun _ => ih))

theorem Sim.fillHoles : g.Same (TinyMesh.fillHoles (F := ℝ)) :=
  Sim.bindId (Sim.read fun _ => rfl) (fun _ => Sim.bindId (Sim.holePositions _ _) (fun _ => Sim.fillAt _))

/-! ### Construction -/

/-- a moved table of positions -/
def tbl (g : Motion) (t : List (Vec3 ℝ × Nat)) : List (Vec3 ℝ × Nat) := t.map fun e => (g.pt e.1, e.2)

theorem lookupPos_pt (t : List (Vec3 ℝ × Nat)) (p : Vec3 ℝ) : lookupPos (g.tbl t) (g.pt p) = lookupPos t p := by
  induction t with
  | nil => rfl
  | cons e t ih =>
    obtain ⟨q, i⟩ := e
    show (if (g.pt q).eq (g.pt p) then some i else lookupPos (g.tbl t) (g.pt p)) = if q.eq p then some i else lookupPos t p
    rw [pt_eq, ih]

theorem Sim.clearArrays : g.Same (TinyMesh.clearArrays (F := ℝ)) := fun _ => rfl
theorem Sim.pushVertex {v : Nat} : g.Same (TinyMesh.pushVertex (F := ℝ) v) := fun _ => rfl
theorem Sim.pushIndex {v : Nat} : g.Same (TinyMesh.pushIndex (F := ℝ) v) := fun _ => rfl
theorem Sim.setIndices {ts : List Tri} : g.Same (TinyMesh.setIndices (F := ℝ) ts) := fun _ => rfl

theorem Sim.dedupLoop {V : List (Vec3 ℝ)} (I : List Nat) : ∀ t : List (Vec3 ℝ × Nat),
    g.Sim id (TinyMesh.dedupLoop V I t) (TinyMesh.dedupLoop (V.map g.pt) I (g.tbl t)) := by
  induction I with
  | nil => intro t; exact Sim.pureId
  | cons i I ih =>
    intro t
    unfold TinyMesh.dedupLoop
    rw [List.getElem?_map]
    cases V[i]? with
    | none => exact Sim.fail
    | some p =>
      simp only [Option.map_some, lookupPos_pt]
      refine Sim.bindId (Sim.read fun _ => rfl) (fun n => ?_)
      have e0 : g.tbl (t ++ [(p, n)]) = g.tbl t ++ [(g.pt p, n)] := by simp [tbl]
      have step : ∀ (t1 : List (Vec3 ℝ × Nat)), g.Sim id
          (do TinyMesh.pushIndex (match lookupPos t1 p with | some k => k | none => 0)
              TinyMesh.dedupLoop V I (match lookupPos t1 p with | some _ => t1 | none => t1 ++ [(p, 0)]))
          (do TinyMesh.pushIndex (match lookupPos t1 p with | some k => k | none => 0)
              TinyMesh.dedupLoop (V.map g.pt) I (match lookupPos t1 p with | some _ => g.tbl t1 | none => g.tbl t1 ++ [(g.pt p, 0)])) := by
        intro t1
        refine Sim.bindId Sim.pushIndex (fun _ => ?_)
        cases lookupPos t1 p with
        | some k => exact ih t1
        | none =>
          have := ih (t1 ++ [(p, 0)])
          rwa [show g.tbl (t1 ++ [(p, 0)]) = g.tbl t1 ++ [(g.pt p, 0)] by simp [tbl]] at this
      cases h : lookupPos t p with
      | some k =>
        simp only [Option.isNone_some, Bool.false_eq_true, if_false, lookupPos_pt]
        have := step t
        simp only [h] at this ⊢
        exact this
      | none =>
        simp only [Option.isNone_none, if_true]
        rw [← e0]
        simp only [lookupPos_pt]
        refine Sim.bindId Sim.newVertex (fun v => Sim.bindId Sim.pushVertex (fun _ => ?_))
        exact step (t ++ [(p, n)])

theorem Sim.setVertexIndices (vs : List Nat) : ∀ i, g.Same (TinyMesh.setVertexIndices (F := ℝ) i vs) := by
  induction vs with
  | nil => intro i; exact Sim.pureId
  | cons v vs ih => intro i; exact Sim.bindId Sim.setVIdx (fun _ => ih _)

theorem Sim.vsAt {a : Nat} : g.Same (TinyMesh.vsAt (F := ℝ) a) := by
  intro m
  show (match m.vs[a]? with | none => _ | some v => _) = _
  unfold TinyMesh.vsAt
  cases m.vs[a]? <;> rfl

theorem Sim.addCorner {f a b : Nat} {pd : PD} : g.Same (TinyMesh.addCorner (F := ℝ) f a b pd) := by
  unfold TinyMesh.addCorner
  refine Sim.ite Sim.fail (Sim.bindId Sim.newHalfedge (fun he => Sim.bindId Sim.addHalfedge (fun _ => Sim.bindId Sim.vsAt (fun va => ?_))))
  refine Sim.bindId Sim.setVHe (fun _ => Sim.bindId Sim.setSrc (fun _ => Sim.bindId Sim.setFace (fun _ => Sim.bindId Sim.setFHe (fun _ => ?_))))
  exact Sim.ite (Sim.bindId Sim.setRev (fun _ => Sim.bindId Sim.setRev (fun _ => Sim.pureId))) (Sim.bindId Sim.setRev (fun _ => Sim.pureId))

theorem Sim.addTri {t : Tri} {pd : PD} : g.Same (TinyMesh.addTri (F := ℝ) t pd) := by
  unfold TinyMesh.addTri
  refine Sim.ite Sim.pureId (Sim.bindId Sim.newFace (fun f => ?_))
  refine Sim.bindId Sim.addCorner (fun r => Sim.bindId Sim.addCorner (fun r => Sim.bindId Sim.addCorner (fun r => ?_)))
  exact Sim.bindId Sim.addFace (fun _ => Sim.bindId Sim.setNext (fun _ => Sim.bindId Sim.setNext (fun _ => Sim.bindId Sim.setNext (fun _ => Sim.pureId))))

theorem Sim.addTris (ts : List Tri) : ∀ pd, g.Same (TinyMesh.addTris (F := ℝ) ts pd) := by
  induction ts with
  | nil => intro pd; exact Sim.pureId
  | cons t ts ih => intro pd; exact Sim.bindId Sim.addTri (fun _ => ih _)

theorem Sim.advanceLoop {v : Nat} (fuel : Nat) : ∀ he, g.Same (TinyMesh.advanceLoop (F := ℝ) v fuel he) := by
  induction fuel with
  | zero => intro he; exact Sim.fail
  | succ n ih =>
    intro he
    exact Sim.bindId Sim.getRev (fun r => Sim.ite Sim.setVHe (Sim.bindId Sim.getNext (fun n => Sim.bindId Sim.getVHe (fun s => Sim.ite Sim.pureId (ih _)))))

theorem Sim.advanceVs (vs : List Nat) : g.Same (TinyMesh.advanceVs (F := ℝ) vs) := by
  induction vs with
  | nil => exact Sim.pureId
  | cons v vs ih =>
    exact Sim.bindId Sim.getVHe (fun he => Sim.bindId (Sim.read fun _ => rfl) (fun fuel => Sim.bindId (Sim.advanceLoop _ _) (fun _ => ih)))

theorem Sim.checkRef {e : Nat} : g.Same (TinyMesh.checkRef (F := ℝ) e) := by
  intro m
  unfold TinyMesh.checkRef
  rw [out_ite]
  rfl

theorem Sim.turnLoop {e he : Nat} (fuel : Nat) : ∀ it, g.Same (TinyMesh.turnLoop (F := ℝ) e he fuel it) := by
  induction fuel with
  | zero => intro it; exact Sim.fail
  | succ n ih =>
    intro it
    exact Sim.bindId Sim.checkRef (fun _ => Sim.ite Sim.pureId (Sim.bindId Sim.getRev (fun r => Sim.ite Sim.pureId (Sim.bindId Sim.getNext (fun n => ih _)))))

theorem Sim.holeLoop {e he face : Nat} (fuel : Nat) : ∀ it acc, g.Same (TinyMesh.holeLoop (F := ℝ) e he face fuel it acc) := by
  induction fuel with
  | zero => intro it acc; exact Sim.fail
  | succ n ih =>
    intro it acc
    unfold TinyMesh.holeLoop
    refine Sim.bindId Sim.newHalfedge (fun rev => Sim.bindId Sim.addHalfedge (fun _ => Sim.bindId Sim.setRev (fun _ => Sim.bindId Sim.setRev (fun _ => ?_))))
    refine Sim.bindId Sim.setFace (fun _ => Sim.bindId Sim.getNext (fun n => Sim.bindId Sim.getSrc (fun s => Sim.bindId Sim.setSrc (fun _ => ?_))))
    refine Sim.bindId Sim.setBd (fun _ => Sim.bindId Sim.setBd (fun _ => Sim.bindId (Sim.read fun _ => rfl) (fun tf => Sim.bindId (Sim.turnLoop _ _) (fun it' => ?_))))
    exact Sim.bindId Sim.checkRef (fun _ => Sim.ite Sim.pureId (ih _ _))

theorem Sim.linkHole (l : List Nat) : ∀ p, g.Same (TinyMesh.linkHole (F := ℝ) p l) := by
  induction l with
  | nil => intro p; exact Sim.pureId
  | cons h l ih => intro p; exact Sim.bindId Sim.setNext (fun _ => ih _)

theorem Sim.closeOne {he : Nat} : g.Same (TinyMesh.closeOne (F := ℝ) he) := by
  unfold TinyMesh.closeOne
  refine Sim.bindId Sim.assert (fun _ => Sim.bindId (Sim.read fun _ => rfl) (fun e => Sim.bindId Sim.getRev (fun r => Sim.ite ?_ Sim.pureId)))
  refine Sim.bindId Sim.newFace (fun f => Sim.bindId Sim.addFace (fun _ => Sim.bindId (Sim.read fun _ => rfl) (fun fuel => ?_)))
  exact Sim.bindId (Sim.holeLoop _ _ _) (fun bs => Sim.bindId Sim.setFHe (fun _ => Sim.linkHole _ _))

theorem Sim.closeAll (l : List Nat) : g.Same (TinyMesh.closeAll (F := ℝ) l) := by
  induction l with
  | nil => exact Sim.pureId
  | cons h l ih => exact Sim.bindId Sim.closeOne (fun _ => ih)

theorem Sim.stepBack (l : List Nat) : g.Same (TinyMesh.stepBack (F := ℝ) l) := by
  induction l with
  | nil => exact Sim.pureId
  | cons h l ih =>
    exact Sim.bindId Sim.getVHe (fun _ => Sim.bindId Sim.getRev (fun _ => Sim.bindId Sim.getNext (fun _ => Sim.bindId Sim.setVHe (fun _ => ih))))

theorem Sim.degreeDoLoop {start : Nat} (fuel : Nat) : ∀ he c, g.Same (TinyMesh.checkManifold.loop (F := ℝ) start fuel he c) := by
  induction fuel with
  | zero => intro he c; exact Sim.fail
  | succ n ih =>
    intro he c
    exact Sim.bindId Sim.getRev (fun _ => Sim.bindId Sim.getNext (fun _ => Sim.ite Sim.pureId (ih _ _)))

theorem Sim.degreeDo {v : Nat} : g.Same (TinyMesh.checkManifold.degreeDo (F := ℝ) v) :=
  Sim.bindId Sim.getVHe (fun _ => Sim.bindId (Sim.read fun _ => rfl) (fun _ => Sim.degreeDoLoop _ _ _))

theorem Sim.checkManifold {deg : Nat → Nat} (l : List Nat) : g.Same (TinyMesh.checkManifold (F := ℝ) deg l) := by
  induction l with
  | nil => exact Sim.pureId
  | cons v l ih =>
    refine Sim.bindId Sim.getVHe (fun h => Sim.bindId Sim.assert (fun _ => Sim.bindId Sim.vIsBoundary (fun b => Sim.bindId Sim.degreeDo (fun n => ?_))))
    exact Sim.bindId Sim.getVIdx (fun i => Sim.bindId Sim.assert (fun _ => ih))

theorem Sim.construct0 : g.Same (TinyMesh.construct0 (F := ℝ)) := by
  unfold TinyMesh.construct0
  refine Sim.bindId (Sim.read fun _ => rfl) (fun idx => ?_)
  cases toTris idx with
  | none => exact Sim.fail
  | some ts =>
    refine Sim.bindId Sim.setIndices (fun _ => Sim.bindId (Sim.read fun _ => rfl) (fun vs => Sim.bindId (Sim.setVertexIndices _ _) (fun _ => ?_)))
    refine Sim.bindId Sim.assert (fun _ => Sim.bindId (Sim.addTris _ _) (fun pd => Sim.bindId (Sim.advanceVs _) (fun _ => ?_)))
    exact Sim.bindId (Sim.read fun _ => rfl) (fun hs => Sim.bindId (Sim.closeAll _) (fun _ => Sim.bindId (Sim.stepBack _) (fun _ => Sim.checkManifold _)))

theorem Sim.construct {V : List (Vec3 ℝ)} {I : List Nat} : g.Sim id (TinyMesh.construct V I) (TinyMesh.construct (V.map g.pt) I) :=
  Sim.bindId Sim.clearArrays (fun _ => Sim.bindId (Sim.dedupLoop I []) (fun _ => Sim.construct0))

end Motion
end TinyMesh
