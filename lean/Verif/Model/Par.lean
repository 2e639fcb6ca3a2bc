import Verif.Model.Iter
import Verif.Model.Vec
/-
Parallel loops (`omp_parallel_for`, src/tinymesh/core/openmp.h:9-18).

The body of one loop iteration is a program that loads and stores single doubles of memory shared by all iterations. The
parts of the mesh that no parallel loop of the library stores to (links, indices, flags, locks, arrays) are read from the
mesh the loop started with.
-/
namespace TinyMesh

/-- A program with loads and stores of shared doubles at locations `L`. See the bodies of the loops of smooth.cpp:30-97, denoise.cpp:51-170. -/
inductive Prog (L F α : Type) where
  | ret : α → Prog L F α
  /-- undefined behaviour, exception or termination of the program -/
  | fail : Err → Prog L F α
  | rd : L → (F → Prog L F α) → Prog L F α
  | wr : L → F → Prog L F α → Prog L F α

namespace Prog
variable {L F α β : Type}

/-- sequence of statements -/
def bind : Prog L F α → (α → Prog L F β) → Prog L F β
  | ret a, f => f a
  | fail e, _ => fail e
  | rd l k, f => rd l (fun x => (k x).bind f)
  | wr l x k, f => wr l x (k.bind f)

instance : Monad (Prog L F) where
  pure := ret
  bind := bind

/-- Runs a program without interruption. See smooth.cpp:30-97, denoise.cpp:51-170. -/
def exec [DecidableEq L] : Prog L F α → (L → F) → Except Err (α × (L → F))
  | ret a, s => .ok (a, s)
  | fail e, _ => .error e
  | rd l k, s => (k (s l)).exec s
  | wr l x k, s => k.exec (fun l' => if l' = l then x else s l')

end Prog

/-- The loop without OpenMP: the iterations one after the other. See smooth.cpp:30-97, denoise.cpp:51-170. -/
def serial {L F : Type} [DecidableEq L] (body : Nat → Prog L F Unit) : List Nat → (L → F) → Except Err (L → F)
  | [], s => .ok s
  | i :: is, s =>
    match (body i).exec s with
    | .ok (_, s') => serial body is s'
    | .error e => .error e

/-- The doubles that the parallel loops of the library share: coordinate `c` of the position of vertex `v`, and coordinate `c`
of element `i` of the local array number `a` (an array of doubles uses coordinate 0). See smooth.cpp:27-98, denoise.cpp:44-170. -/
inductive Loc where
  | pos (v : Nat) (c : Fin 3)
  | arr (a i : Nat) (c : Fin 3)
deriving DecidableEq

section
variable {F : Type}

/-- the shared doubles when a loop nest starts: the positions and arrays of zeros (`std::vector<Vec3> centroids(nv)`), smooth.cpp:27-28, denoise.cpp:47-50 -/
def Mesh.mem [Scalar F] (m : Mesh F) : Loc → F
  | .pos v c => (m.vPos v).get c
  | .arr _ _ _ => Scalar.lit 0 1

/-- the position of vertex `v`, vertex.h:73-75 -/
def posOf (s : Loc → F) (v : Nat) : Vec3 F := ⟨s (.pos v 0), s (.pos v 1), s (.pos v 2)⟩
/-- element `i` of array `a`, smooth.cpp:27-98, denoise.cpp:44-170 -/
def arrOf (s : Loc → F) (a i : Nat) : Vec3 F := ⟨s (.arr a i 0), s (.arr a i 1), s (.arr a i 2)⟩

/-- the mesh with the positions of the shared memory, smooth.cpp:30-97, denoise.cpp:51-170 -/
def Mesh.store (m : Mesh F) (s : Loc → F) : Mesh F := { m with vPos := posOf s }

namespace Prog
variable {α : Type}

/-- a computation that reads only the part of the mesh which the loop does not change, smooth.cpp:30-97, denoise.cpp:51-170 -/
def topo (m : Mesh F) (x : M F α) : Prog Loc F α :=
  match x m with
  | .ok a _ => ret a
  | .err e => fail e

/-- `v->pos()`, vertex.h:73-75 -/
def loadPos (m : Mesh F) (v : Nat) : Prog Loc F (Vec3 F) :=
  if m.vAlive v then rd (.pos v 0) fun x => rd (.pos v 1) fun y => rd (.pos v 2) fun z => ret ⟨x, y, z⟩ else fail .ub

/-- `v->setPos(p)`, vertex.h:76-78 -/
def storePos (m : Mesh F) (v : Nat) (p : Vec3 F) : Prog Loc F Unit :=
  if m.vAlive v then wr (.pos v 0) p.x (wr (.pos v 1) p.y (wr (.pos v 2) p.z (ret ()))) else fail .ub

/-- `array[i]` for a local array of `n` vectors, smooth.cpp:54, 94, denoise.cpp:70-100 -/
def loadArr (n a : Nat) (i : Int) : Prog Loc F (Vec3 F) :=
  if 0 ≤ i ∧ i < n then
    rd (.arr a i.toNat 0) fun x => rd (.arr a i.toNat 1) fun y => rd (.arr a i.toNat 2) fun z => ret ⟨x, y, z⟩
  else fail .ub

/-- `array[i] = p` for a local array of vectors, where `i` is the loop counter, smooth.cpp:43, 82, denoise.cpp:51-84 -/
def storeArr (a i : Nat) (p : Vec3 F) : Prog Loc F Unit :=
  wr (.arr a i 0) p.x (wr (.arr a i 1) p.y (wr (.arr a i 2) p.z (ret ())))

/-- `array[i]` for a local array of `n` doubles, denoise.cpp:70-100 -/
def loadNum (n a : Nat) (i : Int) : Prog Loc F F :=
  if 0 ≤ i ∧ i < n then rd (.arr a i.toNat 0) ret else fail .ub

/-- `array[i] = x` for a local array of doubles, denoise.cpp:51-66 -/
def storeNum (a i : Nat) (x : F) : Prog Loc F Unit := wr (.arr a i 0) x (ret ())

/-- `throw` of a division by zero, vec.h:146-156 -/
def orThrow : Option α → Prog Loc F α
  | some a => ret a
  | none => fail .throw

end Prog
end
end TinyMesh
