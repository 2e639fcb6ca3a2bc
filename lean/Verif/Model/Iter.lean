import Verif.Model.State
/-
Circulators around vertices and faces, and the read-only queries built on them.
-/
namespace TinyMesh
variable {F : Type}

/-- One `++it` of the vertex circulators, vertex.cpp:308-314, 350-356, 392-398, 434-440, ...:
`iter_ = iter_->rev()->next()`. -/
def ringStep (h : Nat) : M F Nat := do
  let r ← getRev h
  getNext r

/-- One `++it` of the face circulators, face.cpp:179-185, 221-227, 263-269, ...: `iter_ = iter_->next()`. -/
def faceStep (h : Nat) : M F Nat := getNext h

/-- The loop `for (auto it = begin(); it != end(); ++it) body` of a circulator that started at `start`.
`++it` yields the end iterator (null) when it comes back to `start`; it also compares equal to the end
iterator if the link read is null. `body` returns `true` to leave the loop (`return`/`break`).
The fuel is the number of addresses ever used; a loop that runs out of fuel has repeated an element
without meeting `start` and therefore never ends. See vertex.cpp:287-535, face.cpp:158-404. -/
def circLoop {β : Type} (step : Nat → M F Nat) (body : Nat → β → M F (Bool × β)) (start : Nat) :
    Nat → Nat → β → M F β
  | 0, _, _ => M.fail .diverge
  | fuel + 1, cur, b => do
    let (stop, b') ← body cur b
    if stop then
      pure b'
    else
      let n ← step cur
      if n = start ∨ n = 0 then pure b' else circLoop step body start fuel n b'

/-- A whole circulator loop; an empty range if `start` is null. See vertex.cpp:235-535, face.cpp:106-404. -/
def circ {β : Type} (step : Nat → M F Nat) (start : Nat) (b : β) (body : Nat → β → M F (Bool × β)) : M F β :=
  fun m => if start = 0 then .ok b m else circLoop step body start m.hFresh start b m

/-- `Halfedge::dst`, halfedge.h:32-34. -/
def getDst (h : Nat) : M F Nat := do
  let n ← getNext h
  getSrc n

/-- the loop of `Halfedge::prev`, halfedge.h:39-42 -/
def prevLoop (h : Nat) : Nat → Nat → M F Nat
  | 0, _ => M.fail .diverge
  | fuel + 1, it => do
    let n ← getNext it
    if n = h then pure it else prevLoop h fuel n

/-- `Halfedge::prev`, halfedge.h:38-44. -/
def getPrev (h : Nat) : M F Nat := do
  let n ← getNext h
  let fuel ← M.read (fun m => m.hFresh)
  prevLoop h fuel n

/-- All half-edges visited by `for (it = v->he_begin(); it != v->he_end(); ++it)`. See vertex.cpp:251-257, 371-448. -/
def ringList (v : Nat) : M F (List Nat) := do
  let h ← getVHe v
  circ ringStep h [] (fun x l => pure (false, l ++ [x]))

/-- All half-edges visited by `for (it = f->he_begin(); it != f->he_end(); ++it)`. See face.cpp:122-136, 242-325. -/
def faceList (f : Nat) : M F (List Nat) := do
  let h ← getFHe f
  circ faceStep h [] (fun x l => pure (false, l ++ [x]))

/-- `Vertex::degree`, vertex.cpp:37-43. -/
def degree (v : Nat) : M F Nat := do
  let h ← getVHe v
  circ ringStep h 0 (fun _ d => pure (false, d + 1))

/-- `Vertex::isBoundary`, vertex.cpp:62-69. -/
def vIsBoundary (v : Nat) : M F Bool := do
  let h ← getVHe v
  circ ringStep h false (fun x _ => do
    let b ← getBd x
    pure (b, b))

/-- `Face::numCorners`, face.cpp:70-76. -/
def numCorners (f : Nat) : M F Nat := do
  let h ← getFHe f
  circ faceStep h 0 (fun _ d => pure (false, d + 1))

/-- `Face::isHole`, face.cpp:78-86: all half-edges are flagged. -/
def fIsHole (f : Nat) : M F Bool := do
  let h ← getFHe f
  circ faceStep h true (fun x _ => do
    let b ← getBd x
    pure (!b, b))

/-- `Face::isBoundary`, face.cpp:88-95: some half-edge is flagged. -/
def fIsBoundary (f : Nat) : M F Bool := do
  let h ← getFHe f
  circ faceStep h false (fun x _ => do
    let b ← getBd x
    pure (b, b))

/-- `Face::isLocked`, face.cpp:97-104: some vertex is locked. -/
def fIsLocked (f : Nat) : M F Bool := do
  let h ← getFHe f
  circ faceStep h false (fun x _ => do
    let v ← getSrc x
    let b ← getLock v
    pure (b, b))

/-- Vertices visited by `for (it = v->v_begin(); it != v->v_end(); ++it)`; `it.ptr()` is the end vertex of the
current half-edge, vertex.cpp:296-306. -/
def ringVerts (v : Nat) : M F (List Nat) := do
  let h ← getVHe v
  circ ringStep h [] (fun x l => do
    let d ← getDst x
    pure (false, l ++ [d]))

/-- Vertices visited by `for (it = f->v_begin(); it != f->v_end(); ++it)`; `it.ptr()` is the start vertex of the
current half-edge, face.cpp:167-177. -/
def faceVerts (f : Nat) : M F (List Nat) := do
  let h ← getFHe f
  circ faceStep h [] (fun x l => do
    let d ← getSrc x
    pure (false, l ++ [d]))

end TinyMesh
