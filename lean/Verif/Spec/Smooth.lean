import Verif.Spec.Edit
import Verif.Spec.WF
import Verif.Spec.Par
/-
What the filters may do to a mesh.
-/
namespace TinyMesh
variable {F : Type}

/-- some half-edge that leaves `v` carries the boundary flag -/
def Mesh.AtBoundary (m : Mesh F) (v : Nat) : Prop := ∃ h, m.hAlive h = true ∧ m.hSrc h = v ∧ m.hBd h = true

/-- the vertices that the smoothing filters leave alone: at the boundary, or locked -/
def Mesh.Pinned (m : Mesh F) (v : Nat) : Prop := m.AtBoundary v ∨ m.vLock v = true

/-- the mesh differs at most in the positions -/
def Mesh.SameButPos (m m' : Mesh F) : Prop := m' = { m with vPos := m'.vPos }

/-- Concurrent execution of a list of parallel loops, one after the other, each over its own number of iterations: `LoopsEnd ls s s'`
says that `s'` is a possible final memory. -/
def LoopsEnd {L : Type} [DecidableEq L] : List (Nat × (Nat → Prog L F Unit)) → (L → F) → (L → F) → Prop
  | [], s, s' => s' = s
  | (n, body) :: ls, s, s' => ∃ t, Pool.Ends n body s t ∧ LoopsEnd ls t s'

/-- all executions of a list of parallel loops are free of races, end after boundedly many accesses, and have the outcome of the
sequential loops -/
def LoopsDeterministic {L : Type} [DecidableEq L] : List (Nat × (Nat → Prog L F Unit)) → (L → F) → Prop
  | [], _ => True
  | (n, body) :: ls, s => Deterministic n body s ∧ ∀ t, Pool.Ends n body s t → LoopsDeterministic ls t

/-- a possible outcome of parallel loops on a mesh -/
def ParRun [Scalar F] (ls : Mesh F → List (Nat × (Nat → Prog Loc F Unit))) (m m' : Mesh F) : Prop :=
  ∃ s, LoopsEnd (ls m) m.mem s ∧ m' = m.store s

/-- several such steps one after the other; the steps may differ -/
inductive ParRuns [Scalar F] : List (Mesh F → List (Nat × (Nat → Prog Loc F Unit))) → Mesh F → Mesh F → Prop
  | nil (m : Mesh F) : ParRuns [] m m
  | cons {ls : Mesh F → List (Nat × (Nat → Prog Loc F Unit))} {rest : List (Mesh F → List (Nat × (Nat → Prog Loc F Unit)))}
      {m m1 m' : Mesh F} : ParRun ls m m1 → ParRuns rest m1 m' → ParRuns (ls :: rest) m m'

end TinyMesh
