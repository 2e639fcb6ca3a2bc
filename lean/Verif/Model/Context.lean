import Verif.Model.Coherent
import Verif.Model.Settle
import Verif.Model.Remesh
import Verif.Model.Bvh
/-
`holeFillContextCoherent`, src/tinymesh/restore/completion.cpp:97-638: the parts that are not in `Model/Coherent.lean`, and the whole function.

`std::unordered_set` and `std::unordered_map` are lists and functions. Where the order in which a set is visited matters it is a parameter.
Indices of vertices are natural numbers: the index of a live vertex is not negative. Tables keyed by the address of a vertex assume that the
address of a deleted vertex is not used again.
-/
namespace TinyMesh
variable {F : Type} [ScalarX F]

/-! ### Before the iterations -/

/-- restore/completion.cpp:99-101 -/
def lockEvery : M F Unit := do
  let vs ← M.read (fun m => m.vs)
  foldAll (fun v _ => setLock v true) vs ()

/-- the loop restore/completion.cpp:105-110; the number of faces is read again before every round. `fuel` bounds the rounds of one front, the first
argument the number of faces that are visited. -/
def cohFill (ord : List Nat → List Nat) (solve : LinSolve F) (fuel : Nat) : Nat → Nat → M F Unit
  | 0, _ => M.fail .diverge
  | k + 1, i => do
    let n ← M.read (fun m => m.fs.length)
    if i < n then do
      let f ← faceAt i
      let b ← fIsHole f
      if b then holeFillFront ord solve fuel f else pure ()
      cohFill ord solve fuel k (i + 1)
    else pure ()

/-- restore/completion.cpp:113-116 -/
def clearFlags : M F Unit := do
  let hs ← M.read (fun m => m.hes)
  foldAll (fun h _ => setBd h false) hs ()

/-- restore/completion.cpp:98-116; the result is `avgLen`, `avgArea` -/
def cohStart (ord : List Nat → List Nat) (solve : LinSolve F) (fuel : Nat) : M F (F × F) := do
  lockEvery
  cohFill ord solve fuel fuel 0
  let l ← meanEdgeLength
  let a ← meanFaceArea
  clearFlags
  pure (l, a)

/-! ### The patches -/

/-- the faces that are put into the queue, restore/completion.cpp:227-231. The distance is not larger than the number of faces, so `dist + 1` does not
overflow. -/
def patchNear (r : Int) (seen : List Nat) (d : Int) (gs : List Nat) : List (Nat × Int) :=
  (gs.filter fun g => !(seen.contains g) && decide (d + 1 ≤ r)).map fun g => (g, d + 1)

/-- the loop restore/completion.cpp:219-232 with the queue and the set `visited` in the order of insertion -/
def patchSearch (r : Int) : Nat → List (Nat × Int) → List Nat → M F (List Nat)
  | _, [], seen => pure seen
  | 0, _ :: _, _ => M.fail .diverge
  | fuel + 1, (f, d) :: q, seen =>
    if seen.contains f then patchSearch r fuel q seen
    else do
      let gs ← faceFaces f
      patchSearch r fuel (q ++ patchNear r (seen ++ [f]) d gs) (seen ++ [f])

/-- restore/completion.cpp:212-234: every half-edge puts at most two faces into the queue -/
def patchFaces (r : Int) (v : Nat) : M F (List Nat) := do
  let gs ← vertFaces v
  let n ← M.read (fun m => m.hes.length)
  patchSearch r (2 * n) (gs.map fun g => (g, 1)) []

/-- `patchVertSets[i]`, restore/completion.cpp:258-262, in the order of insertion -/
def patchSet (fs : List Nat) : M F (List Nat) :=
  foldAll (fun f l => do
    let vs ← faceVerts f
    foldAll (fun v l => do
      let i ← getVIdx v
      pure (if l.contains i.toNat then l else l ++ [i.toNat])) vs l) fs []

/-- what is known of a vertex in an iteration: `patchFaces[i]`, `patchVertSets[i]`, `patchVerts[i]`, restore/completion.cpp:206-267 -/
structure Patch where
  faces : List Nat
  ids : List Nat
  verts : List Nat

/-- restore/completion.cpp:211-234, 258-267 for one vertex; `ordF`, `ordV` are the orders in which the sets of faces and of indices are visited -/
def patchOf (ordF ordV : List Nat → List Nat) (r : Int) (i : Nat) : M F Patch := do
  let v ← vertexAt i
  let fs ← patchFaces r v
  let ids ← patchSet (ordF fs)
  let vs ← eachM (fun k => vertexAt k) (ordV ids)
  pure ⟨ordF fs, ordV ids, vs⟩

/-- `srcIds` (locked) and `tgtIds` (not locked), restore/completion.cpp:235-239 -/
def srcTgt : List Nat → M F (List Nat × List Nat)
  | [] => pure ([], [])
  | i :: is => do
    let v ← vertexAt i
    let l ← getLock v
    let (s, t) ← srcTgt is
    pure (if l then (i :: s, t) else (s, i :: t))

/-! ### Dissimilarity -/

/-- `R * p + t`, restore/completion.cpp:367, 401 -/
def RigidFit.move (r : RigidFit F) (p : Vec3 F) : Vec3 F := (r.R.apply p).add r.t

/-- the search for the closest vertex, restore/completion.cpp:363-374: the state `(minDist, closest)` -/
def closestMoved (r : RigidFit F) (pt : Vec3 F) : List Nat → F × Option Nat → M F (F × Option Nat)
  | [], s => pure s
  | u :: us, s => do
    let ps ← getPos u
    let d := (pt.sub (r.move ps)).length
    closestMoved r pt us (if Scalar.lt d s.1 then (d, some u) else s)

/-- the loop restore/completion.cpp:362-387: the field and the flags by rows, the state `(dissim, sumWgt)`. Without a closest vertex a null pointer is
dereferenced. -/
def dissimLoop (field : List (Vec3 F × F)) (r : RigidFit F) (src : List Nat) (size : Nat) : List Nat → F × F → M F (F × F)
  | [], s => pure s
  | v :: vs, s => do
    let pt ← getPos v
    let c ← closestMoved r pt src (Scalar.lit (10 ^ 20) 1, none)
    match c.2 with
    | none => M.fail .ub
    | some u => do
      let i ← getVIdx v
      let ft ← atIdx field i
      let j ← getVIdx u
      let fs ← atIdx field j
      let w : F := if Scalar.eq fs.2 (Scalar.lit 0 1) then Scalar.lit 1 1 else Scalar.lit size 1
      let l := (ft.1.sub (r.R.apply fs.1)).length
      dissimLoop field r src size vs (s.1 + w * l * l, s.2 + w)

/-- `dissimilarities[tgtIds[i]]`, restore/completion.cpp:357-390 -/
def dissim (field : List (Vec3 F × F)) (r : RigidFit F) (tgt src : List Nat) : M F F := do
  let s ← dissimLoop field r src tgt.length tgt (Scalar.lit 0 1, Scalar.lit 0 1)
  pure (s.1 / s.2)

/-! ### The trees of the patches -/

/-- `uniqueVertices.count(p)`, `uniqueVertices[p]`, restore/completion.cpp:402-407: a point that is not equal to itself is stored again by
`operator[]` with the number 0. Equal points are assumed to have equal hash values. -/
def internPoint (V : List (Vec3 F)) (p : Vec3 F) : List (Vec3 F) × Nat :=
  match V.findIdx? (fun q => q.eq p) with
  | some k => (V, k)
  | none => (V ++ [p], if p.eq p then V.length else 0)

/-- restore/completion.cpp:399-408 for the corners of all faces -/
def moveCorners (r : RigidFit F) : List Nat → List (Vec3 F) × List Nat → M F (List (Vec3 F) × List Nat)
  | [], s => pure s
  | f :: fs, s => do
    let vs ← faceVerts f
    let s ← foldAll (fun v (s : List (Vec3 F) × List Nat) => do
      let p ← getPos v
      let (V, k) := internPoint s.1 (r.move p)
      pure (V, s.2 ++ [k])) vs s
    moveCorners r fs s

/-- `patchBVHs[tgtIds[i]]`, restore/completion.cpp:395-411 -/
def patchBvh (lib : Lib F) (r : RigidFit F) (fs : List Nat) : M F (Bvh F) := do
  let (V, I) ← moveCorners r fs ([], [])
  M.assert (I.length % 3 == 0)
  liftE (bvhConstruct lib V I)

/-! ### The new positions -/

/-- what an iteration computes for a target vertex: its index, its patch, the tree and the dissimilarity of the matched patch, restore/completion.cpp:323-411 -/
structure Target (F : Type) where
  id : Nat
  patch : Patch
  bvh : Bvh F
  dis : F

/-- `1.0 / (std::pow(dissim, 5.0) + 1.0e-12)`, restore/completion.cpp:429; the power is written as a product -/
def patchWeight (d : F) : F := Scalar.lit 1 1 / (d * d * d * d * d + Scalar.lit 1 (10 ^ 12))

/-- the loop restore/completion.cpp:423-432: the patches that contain the vertex, the state `(newPos, sumWgt)` -/
def voteLoop (p : Vec3 F) : List (Target F) → Vec3 F × F → M F (Vec3 F × F)
  | [], s => pure s
  | t :: ts, s => do
    let c ← liftE (bvhClosest t.bvh p)
    let w := patchWeight t.dis
    voteLoop p ts (s.1.add (Vec3.smul w c), s.2 + w)

/-- assignment to one entry of a table, restore/completion.cpp:417-444 -/
def putAt {β : Type} (f : Nat → β) (k : Nat) (x : β) : Nat → β := fun j => if j = k then x else f j

/-- restore/completion.cpp:417-444 for the index `k` of a vertex: the state is `newPoss`, `offsets` -/
def voteOne (ts : List (Target F)) (k : Nat) (s : (Nat → Vec3 F) × (Nat → Vec3 F)) : M F ((Nat → Vec3 F) × (Nat → Vec3 F)) := do
  let v ← vertexAt k
  let p ← getPos v
  let (a, w) ← voteLoop p (ts.filter fun t => t.patch.ids.contains k) (Vec3.zero, Scalar.lit 0 1)
  let q ← orThrowM (a.div? w)
  let l ← getLock v
  pure (if l then (putAt s.1 k Vec3.zero, putAt s.2 k (p.sub q)) else (putAt s.1 k q, putAt s.2 k Vec3.zero))

/-- the keys of `tgtPatchAssign`, restore/completion.cpp:270-278 -/
def assigned (ts : List (Target F)) : List Nat := ts.foldl (fun l t => t.patch.ids.foldl (fun l k => if l.contains k then l else l ++ [k]) l) []

/-- restore/completion.cpp:414-445. The keys are visited in the order of `assigned`; the order does not matter because every key writes its own
entries. -/
def votes (ts : List (Target F)) : M F ((Nat → Vec3 F) × (Nat → Vec3 F)) :=
  foldAll (voteOne ts) (assigned ts) (fun _ => Vec3.zero, fun _ => Vec3.zero)

/-- `uniqueBoundary` (the keys in the order of their numbers), `tripTgt`, `tripSrc`, restore/completion.cpp:447-451 -/
structure OffSys (F : Type) where
  fixed : List Nat
  tTgt : List (Triplet F)
  tSrc : List (Triplet F)

/-- the loop restore/completion.cpp:458-475; `tgt2glbIds` of a missing index is 0 -/
def offsetLoop (tgt : List Nat) (row : Nat) : List Nat → F → OffSys F → M F (F × OffSys F)
  | [], s, t => pure (s, t)
  | h :: hs, s, t => do
    let u ← getDst h
    let w ← cotWeight h
    let l ← getLock u
    let j ← getVIdx u
    if l then
      let (b, c) := intern t.fixed j.toNat
      offsetLoop tgt row hs (s + w) { t with fixed := b, tSrc := t.tSrc ++ [((row : Int), (c : Int), -w)] }
    else
      let c := (tgt.idxOf? j.toNat).getD 0
      offsetLoop tgt row hs (s + w) { t with tTgt := t.tTgt ++ [((row : Int), (c : Int), -w)] }

/-- one round of the loop restore/completion.cpp:453-477 -/
def offsetRow (tgt : List Nat) (row : Nat) (t : OffSys F) : M F (OffSys F) := do
  let i ← atIdx tgt row
  let v ← vertexAt i
  let hs ← ringList v
  let (s, t) ← offsetLoop tgt row hs (Scalar.lit 0 1) t
  pure { t with tTgt := t.tTgt ++ [((row : Int), (row : Int), s)] }

/-- `xx`, restore/completion.cpp:479-493: the smooth offsets by rows. `solve` stands for `Eigen::SimplicialLDLT`; its status is not checked. -/
def smoothOffsets (solve : LinSolve F) (tgt : List Nat) (off : Nat → Vec3 F) : M F (Nat → Vec3 F) := do
  let n := tgt.length
  let t ← foldAll (offsetRow tgt) (List.range n) ⟨[], [], []⟩
  let LL ← ofTripletsRect n n t.tTgt
  let SS ← ofTripletsRect n t.fixed.length t.tSrc
  let bb (c : Vec3 F → F) : Nat → F := fun i => sumN t.fixed.length fun k => -(SS i k) * c (off ((t.fixed[k]?).getD 0))
  pure fun i => ⟨solve n LL (bb Vec3.x) i, solve n LL (bb Vec3.y) i, solve n LL (bb Vec3.z) i⟩

/-- restore/completion.cpp:499-508; `k` is the number of the first index of the list -/
def stepTargets (pos xx : Nat → Vec3 F) : Nat → List Nat → M F Unit
  | _, [] => pure ()
  | k, i :: is => do
    let v ← vertexAt i
    let p ← getPos v
    setPos v (p.add (Vec3.smul (Scalar.lit 1 1 / Scalar.lit 10 1) (((pos i).add (xx k)).sub p)))
    stepTargets pos xx (k + 1) is

/-- restore/completion.cpp:414-508 -/
def moveTargets (solve : LinSolve F) (ts : List (Target F)) (tgt : List Nat) : M F Unit := do
  let (pos, off) ← votes ts
  let xx ← smoothOffsets solve tgt off
  stepTargets pos xx 0 tgt

/-! ### Repair -/

/-- the do-while loop for the index `t`, restore/completion.cpp:514-533 and the three after it: `step` returns `update`, the result tells whether the
mesh was changed. A run of more than `fuel` rounds counts as one that does not end. -/
def repairLoop (step : Nat → M F Bool) (t : Nat) : Nat → M F Bool
  | 0 => M.fail .diverge
  | fuel + 1 => do
    let n ← M.read (fun m => m.vs.length)
    if n ≤ t then pure false
    else do
      let v ← vertexAt t
      let u ← step v
      if u then do
        let _ ← repairLoop step t fuel
        pure true
      else pure false

/-- `for (int tgtId : tgtIds)`, restore/completion.cpp:514, 536, 564, 592 -/
def repairAll (step : Nat → M F Bool) (fuel : Nat) : List Nat → M F Bool
  | [] => pure false
  | t :: ts => do
    let a ← repairLoop step t fuel
    let b ← repairAll step fuel ts
    pure (a || b)

/-- restore/completion.cpp:522-531; `lim` is `1.5 * avgLen` -/
def splitLong (lim : F) (v : Nat) : M F Bool := do
  let h ← getVHe v
  circ ringStep h false (fun x _ => do
    let l ← heLength x
    if Scalar.lt lim l then do
      let b ← splitHE x
      pure (b, b)
    else pure (false, false))

/-- `al`, `ar`, restore/completion.cpp:546-551, 574-579 -/
def sideAngles (x : Nat) : M F (F × F) := do
  let s ← getSrc x
  let v0 ← getPos s
  let d ← getDst x
  let v1 ← getPos d
  let n ← getNext x
  let a ← getDst n
  let vl ← getPos a
  let r ← getRev x
  let n' ← getNext r
  let b ← getDst n'
  let vr ← getPos b
  pure (Vec3.angle v0 vl v1, Vec3.angle v0 vr v1)

/-- restore/completion.cpp:544-559 -/
def flipWide (v : Nat) : M F Bool := do
  let h ← getVHe v
  circ ringStep h false (fun x _ => do
    let (al, ar) ← sideAngles x
    if Scalar.lt Scalar.pi (al + ar) then do
      let b ← flipHE x
      pure (b, b)
    else pure (false, false))

/-- restore/completion.cpp:573-587 -/
def collapseThin (v : Nat) : M F Bool := do
  let h ← getVHe v
  circ ringStep h false (fun x _ => do
    let (al, ar) ← sideAngles x
    let lim : F := Scalar.pi / Scalar.lit 10 1
    if Scalar.lt al lim || Scalar.lt ar lim then do
      let b ← collapseHE x
      pure (b, b)
    else pure (false, false))

/-- restore/completion.cpp:601-611; `lim` is `0.01 * avgArea` -/
def collapseSmall (lim : F) (v : Nat) : M F Bool := do
  let h ← getVHe v
  circ ringStep h false (fun x _ => do
    let f ← getFace x
    let i ← getFIdx f
    if i < 0 then pure (false, false)
    else do
      let a ← faceArea f
      if Scalar.lt a lim then do
        let b ← collapseFace f
        pure (b, b)
      else pure (false, false))

/-- restore/completion.cpp:510-613; the result is `isRepaired` -/
def repair (avgLen avgArea : F) (fuel : Nat) (tgt : List Nat) : M F Bool := do
  let a ← repairAll (splitLong (Scalar.lit 3 2 * avgLen)) fuel tgt
  let b ← repairAll flipWide fuel tgt
  let c ← repairAll collapseThin fuel tgt
  let d ← repairAll (collapseSmall (Scalar.lit 1 100 * avgArea)) fuel tgt
  pure (a || b || c || d)

/-! ### Heat kernel signatures of new vertices -/

/-- the loop restore/completion.cpp:622-627: the state `(hksv, count)` -/
def hksNear (hks : Nat → Option (List F)) : List Nat → List F × Nat → M F (List F × Nat)
  | [], s => pure s
  | u :: us, s =>
    match hks u with
    | none => hksNear hks us s
    | some f => do
      let a ← addRow s.1 f
      hksNear hks us (a, s.2 + 1)

/-- one round of the loop restore/completion.cpp:617-631 -/
def hksNew (dims : Nat) (v : Nat) (hks : Nat → Option (List F)) : M F (Nat → Option (List F)) :=
  match hks v with
  | some _ => pure hks
  | none => do
    let us ← ringVerts v
    let s ← hksNear hks us (List.replicate dims (Scalar.lit 0 1), 0)
    pure (putAt hks v (some (s.1.map fun x => x / Scalar.lit s.2 1)))

/-- restore/completion.cpp:615-632 -/
def hksUpdate (dims : Nat) (hks : Nat → Option (List F)) : M F (Nat → Option (List F)) := do
  let vs ← M.read (fun m => m.vs)
  foldAll (hksNew dims) vs hks

/-! ### The iterations -/

/-- what the function takes from libraries: the orders of sets, `std::sort`, the singular values, the solvers of Eigen, the algorithms used by
`BVH`, the heat kernel signatures of restore/completion.cpp:190-191 -/
structure CohLib (F : Type) where
  ordF : List Nat → List Nat
  ordV : List Nat → List Nat
  sort : List (F × Int) → List (F × Int)
  svd : SvdLib F
  solve : LinSolve F
  bvh : Lib F
  heat : M F (List (List F))

/-- restore/completion.cpp:335-349, 357-390, 395-411 for one target: the best of the candidates. Without one the index -1 is used at 361. -/
def matchTarget (L : CohLib F) (hks : Nat → Option (List F)) (field : List (Vec3 F × F)) (patches : List Patch) (desc : List (List F)) (src : List Nat)
    (i : Nat) : M F (Target F) := do
  let tp ← atIdx patches i
  let cands ← candidatesOf L.sort desc (src.map (fun s : Nat => (s : Int))) i
  let (_, k, fit) ← bestPatch (fun c => do
    let sp ← atIdx patches c
    solveRigidICP L.svd hks tp.verts sp.verts) cands (Scalar.lit (10 ^ 20) 1, -1, none)
  match fit with
  | none => M.fail .ub
  | some r => do
    let sp ← atIdx patches k
    let d ← dissim field r tp.verts sp.verts
    let b ← patchBvh L.bvh r sp.faces
    pure ⟨i, tp, b, d⟩

/-- restore/completion.cpp:206-411: the targets of an iteration. The code does one step for all targets before the next; the steps only read. -/
def targets (L : CohLib F) (radius : Int) (dims : Nat) (hks : Nat → Option (List F)) : M F (List (Target F) × List Nat) := do
  let n ← M.read (fun m => m.vs.length)
  let patches ← eachM (patchOf L.ordF L.ordV radius) (List.range n)
  let (src, tgt) ← srcTgt (List.range n)
  let desc ← eachM (fun i => do
    let p ← atIdx patches i
    descriptor hks dims n p.verts) (List.range n)
  let field ← featureLines L.solve L.solve true
  let ts ← eachM (matchTarget L hks field patches desc src) tgt
  pure (ts, tgt)

/-- one iteration, restore/completion.cpp:202-636: the new table of signatures. `newError` is only printed. -/
def cohRound (L : CohLib F) (radius : Int) (avgLen avgArea : F) (dims fuel : Nat) (hks : Nat → Option (List F)) : M F (Nat → Option (List F)) := do
  let (ts, tgt) ← targets L radius dims hks
  moveTargets L.solve ts tgt
  let changed ← repair avgLen avgArea fuel tgt
  let hks ← if changed then hksUpdate dims hks else pure hks
  let _ ← verify
  pure hks

/-- the loop restore/completion.cpp:201-637 -/
def cohLoop (L : CohLib F) (radius : Int) (avgLen avgArea : F) (dims fuel : Nat) : Nat → (Nat → Option (List F)) → M F Unit
  | 0, _ => pure ()
  | k + 1, hks => do
    let hks ← cohRound L radius avgLen avgArea dims fuel hks
    cohLoop L radius avgLen avgArea dims fuel k hks

/-- `hksTable`, restore/completion.cpp:184-194: row `i` for vertex `i`; reading a row outside of the matrix is undefined behaviour -/
def hksTable (rows : List (List F)) : M F (Nat → Option (List F)) := do
  let vs ← M.read (fun m => m.vs)
  let (t, _) ← foldAll (fun v (s : (Nat → Option (List F)) × Int) => do
    let r ← atIdx rows s.2
    pure (putAt s.1 v (some r), s.2 + 1)) vs (fun _ => none, 0)
  pure t

/-- `holeFillContextCoherent`, restore/completion.cpp:97-638 -/
def contextCoherent (L : CohLib F) (fuel iters : Nat) : M F Unit := do
  let (avgLen, avgArea) ← cohStart L.ordV L.solve fuel
  let radius ← patchRadiusM L.solve
  let rows ← L.heat
  let hks ← hksTable rows
  let dims := (rows.headD []).length
  cohLoop L radius avgLen avgArea dims fuel iters hks

end TinyMesh
