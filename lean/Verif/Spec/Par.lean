import Verif.Model.Par
/-
Concurrent execution of loop iterations.
-/
namespace TinyMesh
variable {L F : Type}

/-- Iterations in progress: the shared memory and what is left to do of every iteration. -/
structure Pool (L F : Type) where
  mem : L → F
  todo : Nat → Prog L F Unit

/-- One memory access of one of the iterations `0 … n-1`, chosen freely. Threads that work on several iterations, in any order,
only restrict the choice. -/
inductive Pool.Step [DecidableEq L] (n : Nat) : Pool L F → Pool L F → Prop
  | load {p : Pool L F} {i : Nat} {l : L} {k : F → Prog L F Unit} : i < n → p.todo i = .rd l k →
      Pool.Step n p ⟨p.mem, upd p.todo i (k (p.mem l))⟩
  | store {p : Pool L F} {i : Nat} {l : L} {x : F} {k : Prog L F Unit} : i < n → p.todo i = .wr l x k →
      Pool.Step n p ⟨fun l' => if l' = l then x else p.mem l', upd p.todo i k⟩

/-- all iterations have ended normally -/
def Pool.Done (n : Nat) (p : Pool L F) : Prop := ∀ i < n, p.todo i = .ret ()

/-- some iteration has failed -/
def Pool.Failed (n : Nat) (p : Pool L F) (e : Err) : Prop := ∃ i < n, p.todo i = .fail e

/-- `k` accesses lead from one pool to another -/
inductive Pool.Steps [DecidableEq L] (n : Nat) : Nat → Pool L F → Pool L F → Prop
  | refl (p : Pool L F) : Pool.Steps n 0 p p
  | tail {k : Nat} {p q r : Pool L F} : Pool.Steps n k p q → Pool.Step n q r → Pool.Steps n (k + 1) p r

/-- a pool in which no access is possible -/
def Pool.Stuck [DecidableEq L] (n : Nat) (p : Pool L F) : Prop := ∀ q, ¬ Pool.Step n p q

/-- some execution of the loop ends with the memory `s'` -/
def Pool.Ends [DecidableEq L] (n : Nat) (body : Nat → Prog L F Unit) (s s' : L → F) : Prop :=
  ∃ k q, Pool.Steps n k ⟨s, body⟩ q ∧ q.Done n ∧ q.mem = s'

/-- two different iterations are about to access the same double, and at least one of them is about to store to it: a data race,
which is undefined behaviour in C++ -/
def Pool.Race (n : Nat) (p : Pool L F) : Prop :=
  ∃ i < n, ∃ j < n, i ≠ j ∧ ∃ l, (∃ x k, p.todo i = .wr l x k) ∧ ((∃ k, p.todo j = .rd l k) ∨ ∃ x k, p.todo j = .wr l x k)

/-- What it means that a loop does not depend on the schedule: there is a number of accesses that no execution exceeds,
no execution has a data race, and executions that cannot go on have either all ended with the memory of the sequential loop, or all failed with the failure
of some iteration, as the sequential loop does. -/
structure Deterministic [DecidableEq L] (n : Nat) (body : Nat → Prog L F Unit) (s : L → F) : Prop where
  bounded : ∃ N, ∀ k q, Pool.Steps n k ⟨s, body⟩ q → k ≤ N
  raceless : ∀ k q, Pool.Steps n k ⟨s, body⟩ q → ¬ q.Race n
  ok : ∀ s', serial body (List.range n) s = .ok s' → ∀ k q, Pool.Steps n k ⟨s, body⟩ q →
    (∀ e, ¬ q.Failed n e) ∧ (q.Stuck n → q.Done n ∧ q.mem = s')
  error : ∀ e, serial body (List.range n) s = .error e → ∀ k q, Pool.Steps n k ⟨s, body⟩ q → q.Stuck n → ∃ e', q.Failed n e'

end TinyMesh
