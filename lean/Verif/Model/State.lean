import Verif.Model.Scalar
/-
Heap model of `tinymesh::Mesh` (src/tinymesh/core/mesh.h:101-105, vertex.h, halfedge.h:66-71, face.h:68-69).
-/
namespace TinyMesh

/-- Abnormal outcomes of a call. See the outcomes of debug.h:119-167 and of the language. -/
inductive Err where
  /-- undefined behaviour: null, freed or out-of-range access, or use of an invalidated reference -/
  | ub
  /-- `Error(...)` (terminate) or a failed `Assertion` (abort), src/tinymesh/core/debug.h:119-167 -/
  | abort
  /-- C++ exception (for example "Zero division", vec.h:148) -/
  | throw
  /-- a loop that never ends -/
  | diverge
deriving DecidableEq, Repr

/-- The state of one mesh object.

Objects are addressed by natural numbers, `0` is `nullptr`.  Each data member is a map from addresses;
an address is valid only while it is alive.  `hes`, `vs`, `fs` are the arrays of owning pointers
`halfedges_`, `vertices_`, `faces_`.  `hCap` is the capacity of `halfedges_`, `hEpoch` counts its
reallocations and `grow` is the growth policy of the standard library (an arbitrary function).
`hFresh`, `vFresh`, `fFresh` are the next unused addresses; addresses are never reused (simplification). See mesh.h:101-105, vertex.h:99-102, halfedge.h:66-71, face.h:68-69. -/
structure Mesh (F : Type) where
  hAlive : Nat → Bool
  hSrc : Nat → Nat
  hNext : Nat → Nat
  hRev : Nat → Nat
  hFace : Nat → Nat
  hIdx : Nat → Int
  hBd : Nat → Bool
  vAlive : Nat → Bool
  vPos : Nat → Vec3 F
  vHe : Nat → Nat
  vIdx : Nat → Int
  vLock : Nat → Bool
  fAlive : Nat → Bool
  fHe : Nat → Nat
  fIdx : Nat → Int
  hes : List Nat
  vs : List Nat
  fs : List Nat
  indices : List Nat
  hFresh : Nat
  vFresh : Nat
  fFresh : Nat
  hCap : Nat
  hEpoch : Nat
  grow : Nat → Nat

/-- `Mesh()`, mesh.cpp:36-37: a mesh object without elements. -/
def Mesh.empty {F : Type} [Scalar F] (grow : Nat → Nat) : Mesh F where
  hAlive := fun _ => false
  hSrc := fun _ => 0
  hNext := fun _ => 0
  hRev := fun _ => 0
  hFace := fun _ => 0
  hIdx := fun _ => -1
  hBd := fun _ => false
  vAlive := fun _ => false
  vPos := fun _ => Vec3.zero
  vHe := fun _ => 0
  vIdx := fun _ => -1
  vLock := fun _ => false
  fAlive := fun _ => false
  fHe := fun _ => 0
  fIdx := fun _ => -1
  hes := []
  vs := []
  fs := []
  indices := []
  hFresh := 1
  vFresh := 1
  fFresh := 1
  hCap := 0
  hEpoch := 0
  grow := grow

/-- Update of one address of a map. See assignment to a data member, vertex.h:99-102, halfedge.h:66-71, face.h:68-69. -/
def upd {β : Type} (f : Nat → β) (a : Nat) (b : β) : Nat → β := fun x => if x = a then b else f x

/-- Outcome of a call that returns a value of type `α`. See of the member functions of mesh.h:25-110. -/
inductive Out (F : Type) (α : Type) where
  | ok : α → Mesh F → Out F α
  | err : Err → Out F α

/-- Programs acting on one mesh. See the bodies of the functions of mesh.cpp. -/
def M (F : Type) (α : Type) : Type := Mesh F → Out F α

namespace M
variable {F : Type} {α β : Type}

/-- `return a;`, mesh.cpp -/
def pure (a : α) : M F α := fun m => .ok a m

/-- two statements one after the other, mesh.cpp -/
def bind (x : M F α) (f : α → M F β) : M F β := fun m =>
  match x m with
  | .ok a m' => f a m'
  | .err e => .err e

instance : Monad (M F) where
  pure := M.pure
  bind := M.bind

/-- an abnormal outcome, debug.h:119-167 -/
def fail (e : Err) : M F α := fun _ => .err e
/-- read something off the whole state (array sizes and the like), mesh.cpp:43-67 -/
def read (f : Mesh F → α) : M F α := fun m => .ok (f m) m
/-- `Assertion(p)` / `Error` guard, debug.h:119-167 -/
def assert (p : Bool) : M F Unit := fun m => if p then .ok () m else .err .abort

end M

section Access
variable {F : Type}

/-! Data members of half-edges (halfedge.h:66-71). Access through a dead address is undefined behaviour. -/

/-- `he->src_`, halfedge.h:29-31, 66 -/
def getSrc (h : Nat) : M F Nat := fun m => if m.hAlive h then .ok (m.hSrc h) m else .err .ub
/-- `he->next_`, halfedge.h:35-37, 67 -/
def getNext (h : Nat) : M F Nat := fun m => if m.hAlive h then .ok (m.hNext h) m else .err .ub
/-- `he->rev_`, halfedge.h:46-48, 68 -/
def getRev (h : Nat) : M F Nat := fun m => if m.hAlive h then .ok (m.hRev h) m else .err .ub
/-- `he->face_`, halfedge.h:49-51, 69 -/
def getFace (h : Nat) : M F Nat := fun m => if m.hAlive h then .ok (m.hFace h) m else .err .ub
/-- `he->index_`, halfedge.h:52-54, 70 -/
def getHIdx (h : Nat) : M F Int := fun m => if m.hAlive h then .ok (m.hIdx h) m else .err .ub
/-- `he->isBoundary_`, halfedge.h:57-59, 71 -/
def getBd (h : Nat) : M F Bool := fun m => if m.hAlive h then .ok (m.hBd h) m else .err .ub

/-- `he->src_ = x`, halfedge.h:66 -/
def setSrc (h x : Nat) : M F Unit := fun m =>
  if m.hAlive h then .ok () { m with hSrc := upd m.hSrc h x } else .err .ub
/-- `he->next_ = x`, halfedge.h:67 -/
def setNext (h x : Nat) : M F Unit := fun m =>
  if m.hAlive h then .ok () { m with hNext := upd m.hNext h x } else .err .ub
/-- `he->rev_ = x`, halfedge.h:68 -/
def setRev (h x : Nat) : M F Unit := fun m =>
  if m.hAlive h then .ok () { m with hRev := upd m.hRev h x } else .err .ub
/-- `he->face_ = x`, halfedge.h:69 -/
def setFace (h x : Nat) : M F Unit := fun m =>
  if m.hAlive h then .ok () { m with hFace := upd m.hFace h x } else .err .ub
/-- `he->index_ = x`, halfedge.h:70 -/
def setHIdx (h : Nat) (x : Int) : M F Unit := fun m =>
  if m.hAlive h then .ok () { m with hIdx := upd m.hIdx h x } else .err .ub
/-- `he->isBoundary_ = x`, halfedge.h:61-63, 71 -/
def setBd (h : Nat) (x : Bool) : M F Unit := fun m =>
  if m.hAlive h then .ok () { m with hBd := upd m.hBd h x } else .err .ub

/-! Data members of vertices (vertex.h:73-120). -/

/-- `v->pos_`, vertex.h:73-75, 99 -/
def getPos (v : Nat) : M F (Vec3 F) := fun m => if m.vAlive v then .ok (m.vPos v) m else .err .ub
/-- `v->halfedge_`, vertex.h:100 -/
def getVHe (v : Nat) : M F Nat := fun m => if m.vAlive v then .ok (m.vHe v) m else .err .ub
/-- `v->index_`, vertex.h:80-82, 101 -/
def getVIdx (v : Nat) : M F Int := fun m => if m.vAlive v then .ok (m.vIdx v) m else .err .ub
/-- `v->isLocked_`, vertex.h:86-88, 102 -/
def getLock (v : Nat) : M F Bool := fun m => if m.vAlive v then .ok (m.vLock v) m else .err .ub

/-- `v->pos_ = x`, vertex.h:76-78, 99 -/
def setPos (v : Nat) (x : Vec3 F) : M F Unit := fun m =>
  if m.vAlive v then .ok () { m with vPos := upd m.vPos v x } else .err .ub
/-- `v->halfedge_ = x`, vertex.h:100 -/
def setVHe (v x : Nat) : M F Unit := fun m =>
  if m.vAlive v then .ok () { m with vHe := upd m.vHe v x } else .err .ub
/-- `v->index_ = x`, vertex.h:101 -/
def setVIdx (v : Nat) (x : Int) : M F Unit := fun m =>
  if m.vAlive v then .ok () { m with vIdx := upd m.vIdx v x } else .err .ub
/-- `v->isLocked_ = x`, vertex.h:90-96, 102 -/
def setLock (v : Nat) (x : Bool) : M F Unit := fun m =>
  if m.vAlive v then .ok () { m with vLock := upd m.vLock v x } else .err .ub

/-! Data members of faces (face.h:68-69). -/

/-- `f->halfedge_`, face.h:68 -/
def getFHe (f : Nat) : M F Nat := fun m => if m.fAlive f then .ok (m.fHe f) m else .err .ub
/-- `f->index_`, face.h:55-57, 69 -/
def getFIdx (f : Nat) : M F Int := fun m => if m.fAlive f then .ok (m.fIdx f) m else .err .ub

/-- `f->halfedge_ = x`, face.h:68 -/
def setFHe (f x : Nat) : M F Unit := fun m =>
  if m.fAlive f then .ok () { m with fHe := upd m.fHe f x } else .err .ub
/-- `f->index_ = x`, face.h:69 -/
def setFIdx (f : Nat) (x : Int) : M F Unit := fun m =>
  if m.fAlive f then .ok () { m with fIdx := upd m.fIdx f x } else .err .ub

/-! Allocation: `new Halfedge()` (halfedge.h:66-71 gives the initial values), `new Face()`,
`new Vertex(pos)` (vertex.cpp:17-27). Running out of memory is not modelled. -/

/-- `new Halfedge()`, halfedge.h:66-71 -/
def newHalfedge : M F Nat := fun m => .ok m.hFresh
  { m with
    hAlive := upd m.hAlive m.hFresh true
    hSrc := upd m.hSrc m.hFresh 0
    hNext := upd m.hNext m.hFresh 0
    hRev := upd m.hRev m.hFresh 0
    hFace := upd m.hFace m.hFresh 0
    hIdx := upd m.hIdx m.hFresh (-1)
    hBd := upd m.hBd m.hFresh false
    hFresh := m.hFresh + 1 }

/-- `new Vertex(pos)`, vertex.cpp:23-27, vertex.h:99-102 -/
def newVertex (p : Vec3 F) : M F Nat := fun m => .ok m.vFresh
  { m with
    vAlive := upd m.vAlive m.vFresh true
    vPos := upd m.vPos m.vFresh p
    vHe := upd m.vHe m.vFresh 0
    vIdx := upd m.vIdx m.vFresh (-1)
    vLock := upd m.vLock m.vFresh false
    vFresh := m.vFresh + 1 }

/-- `new Face()`, face.h:68-69 -/
def newFace : M F Nat := fun m => .ok m.fFresh
  { m with
    fAlive := upd m.fAlive m.fFresh true
    fHe := upd m.fHe m.fFresh 0
    fIdx := upd m.fIdx m.fFresh (-1)
    fFresh := m.fFresh + 1 }

/-! Appending to the owning arrays, mesh.cpp:1012-1025. -/

/-- `addVertex`, mesh.cpp:1012-1015. -/
def addVertex (v : Nat) : M F Unit := do
  let n ← M.read (fun m => (m.vs.length : Int))
  setVIdx v n
  fun m => .ok () { m with vs := m.vs ++ [v] }

/-- `halfedges_.emplace_back(he)`: reallocates when the vector is full. The new capacity is whatever the
growth policy says, but at least one more than the size. See mesh.cpp:1017-1020. -/
def pushHalfedge (h : Nat) : M F Unit := fun m =>
  if m.hes.length < m.hCap then .ok () { m with hes := m.hes ++ [h] }
  else .ok () { m with hes := m.hes ++ [h],
                       hCap := max (m.grow m.hes.length) (m.hes.length + 1),
                       hEpoch := m.hEpoch + 1 }

/-- `addHalfedge`, mesh.cpp:1017-1020. -/
def addHalfedge (h : Nat) : M F Unit := do
  let n ← M.read (fun m => (m.hes.length : Int))
  setHIdx h n
  pushHalfedge h

/-- `addFace`, mesh.cpp:1022-1025. -/
def addFace (f : Nat) : M F Unit := do
  let n ← M.read (fun m => (m.fs.length : Int))
  setFIdx f n
  fun m => .ok () { m with fs := m.fs ++ [f] }

/-- Element access `array[i]` with `int` index: out of range is undefined behaviour. See mesh.cpp:1012-1064. -/
def arrayAt (l : List Nat) (i : Int) : Option Nat := if i < 0 then none else l[i.toNat]?

/-- `removeVertex`, mesh.cpp:1027-1038. The comparison in the assertion is `Vertex::operator==`
(vertex.cpp:29-35). `resize` destroys the last element. -/
def removeVertex [Scalar F] (v : Nat) : M F Unit := fun m =>
  if m.vAlive v then
    match arrayAt m.vs (m.vIdx v) with
    | none => .err .ub
    | some w =>
      if m.vAlive w then
        if (m.vPos v).eq (m.vPos w) && m.vHe v == m.vHe w && m.vIdx v == m.vIdx w then
          let n := m.vs.length
          match m.vs.getLast? with
          | none => .err .ub
          | some l =>
            if m.vAlive l then
              if m.vIdx v < (n : Int) - 1 then
                -- swap(vertices_[i], vertices_[n-1]); swap their index_; vertices_[n-1]->index_ = -1; resize
                let i := m.vIdx v
                .ok () { m with
                  vs := (m.vs.set i.toNat l).dropLast
                  vIdx := upd (upd m.vIdx l (m.vIdx w)) w (-1)
                  vAlive := upd m.vAlive w false }
              else
                .ok () { m with vs := m.vs.dropLast, vAlive := upd m.vAlive l false }
            else .err .ub
        else .err .abort
      else .err .ub
  else .err .ub

/-- `removeHalfedge`, mesh.cpp:1040-1051. The comparison in the assertion is `Halfedge::operator==`
(halfedge.cpp:12-20). -/
def removeHalfedge (h : Nat) : M F Unit := fun m =>
  if m.hAlive h then
    match arrayAt m.hes (m.hIdx h) with
    | none => .err .ub
    | some w =>
      if m.hAlive w then
        if m.hSrc h == m.hSrc w && m.hNext h == m.hNext w && m.hRev h == m.hRev w &&
            m.hFace h == m.hFace w && m.hIdx h == m.hIdx w then
          let n := m.hes.length
          match m.hes.getLast? with
          | none => .err .ub
          | some l =>
            if m.hAlive l then
              if m.hIdx h < (n : Int) - 1 then
                let i := m.hIdx h
                .ok () { m with
                  hes := (m.hes.set i.toNat l).dropLast
                  hIdx := upd (upd m.hIdx l (m.hIdx w)) w (-1)
                  hAlive := upd m.hAlive w false }
              else
                .ok () { m with hes := m.hes.dropLast, hAlive := upd m.hAlive l false }
            else .err .ub
        else .err .abort
      else .err .ub
  else .err .ub

/-- `removeFace`, mesh.cpp:1053-1064. The comparison in the assertion is `Face::operator==` (face.cpp:16-21). -/
def removeFace (f : Nat) : M F Unit := fun m =>
  if m.fAlive f then
    match arrayAt m.fs (m.fIdx f) with
    | none => .err .ub
    | some w =>
      if m.fAlive w then
        if m.fHe f == m.fHe w && m.fIdx f == m.fIdx w then
          let n := m.fs.length
          match m.fs.getLast? with
          | none => .err .ub
          | some l =>
            if m.fAlive l then
              if m.fIdx f < (n : Int) - 1 then
                let i := m.fIdx f
                .ok () { m with
                  fs := (m.fs.set i.toNat l).dropLast
                  fIdx := upd (upd m.fIdx l (m.fIdx w)) w (-1)
                  fAlive := upd m.fAlive w false }
              else
                .ok () { m with fs := m.fs.dropLast, fAlive := upd m.fAlive l false }
            else .err .ub
        else .err .abort
      else .err .ub
  else .err .ub

/-- `vertex(i)`, `halfedge(i)`, `face(i)`, mesh.h:52-65: asserts the range. -/
def vertexAt (i : Int) : M F Nat := fun m =>
  match arrayAt m.vs i with | none => .err .abort | some v => .ok v m
/-- `halfedge(i)`, mesh.h:57-60 -/
def halfedgeAt (i : Int) : M F Nat := fun m =>
  match arrayAt m.hes i with | none => .err .abort | some v => .ok v m
/-- `face(i)`, mesh.h:62-65 -/
def faceAt (i : Int) : M F Nat := fun m =>
  match arrayAt m.fs i with | none => .err .abort | some v => .ok v m

end Access
end TinyMesh
