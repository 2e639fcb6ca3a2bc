import Verif.Model.Hash
/-
Maps as functions.
-/
namespace TinyMesh

/-- symmetric and transitive; not reflexive, because of NaN -/
structure PartEq {K : Type} (eq : K → K → Bool) : Prop where
  symm : ∀ a b, eq a b = true → eq b a = true
  trans : ∀ a b c, eq a b = true → eq b c = true → eq a c = true

/-- equal keys have equal hashes -/
def HConf.Respects {K : Type} (c : HConf K) : Prop := ∀ a b, c.eq a b = true → c.hash a = c.hash b

/-- the function with a new value at all keys equal to `k` -/
def setAt {K : Type} (eq : K → K → Bool) (s : K → Option Nat) (k : K) (x : Nat) : K → Option Nat := fun k' => if eq k k' then some x else s k'

/-- what a call does to a map -/
def mapCall {K : Type} (eq : K → K → Bool) (s : K → Option Nat) : HOp K → Option Nat × (K → Option Nat)
  | .find k => (s k, s)
  | .put k x => (none, setAt eq s k x)
  | .fetch k => (some ((s k).getD 0), if (s k).isSome then s else setAt eq s k 0)
  | .insert k x => (none, if (s k).isSome then s else setAt eq s k x)

/-- the results of some calls -/
def mapCalls {K : Type} (eq : K → K → Bool) : (K → Option Nat) → List (HOp K) → List (Option Nat)
  | _, [] => []
  | s, o :: os => (mapCall eq s o).1 :: mapCalls eq (mapCall eq s o).2 os

end TinyMesh
