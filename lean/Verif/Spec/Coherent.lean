import Verif.Model.Coherent
import Verif.Spec.Feature
import Mathlib.Algebra.BigOperators.Fin
import Mathlib.LinearAlgebra.Matrix.Determinant.Basic
/-
Notions for context-coherent completion: mixtures of normal distributions.
-/
namespace TinyMesh

/-- the density of the normal distribution with mean `μ` and variance `v` -/
noncomputable def normalDensity (μ v x : ℝ) : ℝ := Real.exp (-(x - μ) ^ 2 / (2 * v)) / √(2 * Real.pi * v)

/-- a mixture of three normal distributions -/
structure Mixture where
  weight : Fin 3 → ℝ
  mean : Fin 3 → ℝ
  var : Fin 3 → ℝ

namespace Mixture

/-- the numbers of the code as a mixture -/
def fin (M : Mixture) : Gmm XR := ⟨fun k => .fin (M.weight k), fun k => .fin (M.mean k), fun k => .fin (M.var k)⟩

/-- equal weights, means `0`, `K / 2` and `K` for the largest sample `K`, variances one -/
noncomputable def start (cs : List ℝ) : Mixture :=
  { weight := fun _ => 1 / 3
    mean := ![0, 1 / 2 * cs.foldl max 0, cs.foldl max 0]
    var := fun _ => 1 }

/-- positive weights with sum one, positive variances -/
structure Proper (M : Mixture) : Prop where
  weight_pos : ∀ k, 0 < M.weight k
  weight_sum : ∑ k, M.weight k = 1
  var_pos : ∀ k, 0 < M.var k

/-- the density of the mixture -/
noncomputable def density (M : Mixture) (x : ℝ) : ℝ := ∑ k, M.weight k * normalDensity (M.mean k) (M.var k) x

/-- the probability that the sample `x` belongs to the `k`-th component -/
noncomputable def resp (M : Mixture) (x : ℝ) (k : Fin 3) : ℝ := M.weight k * normalDensity (M.mean k) (M.var k) x / M.density x

/-- the expected number of samples of the `k`-th component -/
noncomputable def mass (M : Mixture) (cs : List ℝ) (k : Fin 3) : ℝ := (cs.map fun c => M.resp c k).sum

/-- `N` is the result of one round of expectation maximisation for the samples `cs`: frequencies, means and variances with
the probabilities under `M` as weights -/
structure Next (M N : Mixture) (cs : List ℝ) : Prop where
  weight : ∀ k, N.weight k = M.mass cs k / cs.length
  mean : ∀ k, N.mean k = (cs.map fun c => M.resp c k * c).sum / M.mass cs k
  var : ∀ k, N.var k = (cs.map fun c => M.resp c k * (c - N.mean k) ^ 2).sum / M.mass cs k

/-- the logarithm of the likelihood of the samples -/
noncomputable def logLik (M : Mixture) (cs : List ℝ) : ℝ := (cs.map fun c => Real.log (M.density c)).sum

end Mixture
end TinyMesh

namespace TinyMesh

/-! ### Rigid motions -/

/-- a rotation of space -/
def IsRotation (R : Matrix (Fin 3) (Fin 3) ℝ) : Prop := R.transpose * R = 1 ∧ R.det = 1

/-- the matrix `R` applied to the point `x` -/
noncomputable def turnBy (R : Matrix (Fin 3) (Fin 3) ℝ) (x : E3) : E3 := WithLp.toLp 2 (R.mulVec x.ofLp)

/-- the sum of the squared distances between the second points and the images of the first points under the motion `x ↦ R x + t` -/
noncomputable def fitCost (l : List (E3 × E3)) (R : Matrix (Fin 3) (Fin 3) ℝ) (t : E3) : ℝ :=
  (l.map fun q => ‖q.2 - (turnBy R q.1 + t)‖ ^ 2).sum

/-- What Eigen's documentation promises about the singular value decomposition, in exact arithmetic: `A = U Σ Vᵀ` with orthogonal `U`, `V`
and singular values in decreasing order. -/
def SvdLib.Exact (svd : SvdLib XR) : Prop := ∀ (A : Mat3 XR) (B : Matrix (Fin 3) (Fin 3) ℝ), A.Is B →
  ∃ (U V : Matrix (Fin 3) (Fin 3) ℝ) (s : Fin 3 → ℝ), (svd A).1.Is U ∧ (∀ i, (svd A).2.1 i = .fin (s i)) ∧ (svd A).2.2.Is V ∧
    U.transpose * U = 1 ∧ V.transpose * V = 1 ∧ s 1 ≤ s 0 ∧ s 2 ≤ s 1 ∧ 0 ≤ s 2 ∧ B = U * Matrix.diagonal s * V.transpose

end TinyMesh

namespace TinyMesh

/-- the squared distance of two rows of numbers -/
def rowDist (a b : List ℝ) : ℝ := (List.zipWith (fun x y => (x - y) ^ 2) a b).sum

/-- every vertex of the list has the signature `d` of length `n` in the table -/
def HasRows (hks : Nat → Option (List XR)) (d : Nat → List ℝ) (n : Nat) (vs : List Nat) : Prop :=
  ∀ v ∈ vs, hks v = some ((d v).map XR.fin) ∧ (d v).length = n

/-- `t` is a vertex of the list whose signature is closest to that of `s` -/
def ClosestRow (d : Nat → List ℝ) (tgt : List Nat) (s t : Nat) : Prop := t ∈ tgt ∧ ∀ t' ∈ tgt, rowDist (d s) (d t) ≤ rowDist (d s) (d t')

end TinyMesh

namespace TinyMesh

/-- the mean of the `k`-th entry of the signatures of the vertices -/
noncomputable def rowMean (d : Nat → List ℝ) (vs : List Nat) (k : Nat) : ℝ := (vs.map fun v => (d v).getD k 0).sum / vs.length

/-- the mean of the squares -/
noncomputable def rowSquare (d : Nat → List ℝ) (vs : List Nat) (k : Nat) : ℝ := (vs.map fun v => (d v).getD k 0 ^ 2).sum / vs.length

/-- the variance of the `k`-th entry -/
noncomputable def rowVar (d : Nat → List ℝ) (vs : List Nat) (k : Nat) : ℝ :=
  (vs.map fun v => ((d v).getD k 0 - rowMean d vs k) ^ 2).sum / vs.length

/-- `l` is the list `f 0, …, f (n - 1)` divided by its largest entry -/
def NormedRow (f : Nat → ℝ) (n : Nat) (l : List XR) : Prop :=
  ∃ k < n, (∀ j < n, f j ≤ f k) ∧ l = (List.range n).map fun j => .fin (f j / f k)

/-- what the standard promises about `std::sort` for pairs of a number and an index, as far as it is used: the same pairs in ascending order -/
def StdSort (sort : List (XR × Int) → List (XR × Int)) : Prop := ∀ l : List (ℝ × Int),
  ∃ l' : List (ℝ × Int), sort (l.map fun q => (.fin q.1, q.2)) = l'.map (fun q => (.fin q.1, q.2)) ∧ l'.Perm l ∧
    l'.Pairwise fun a b => a.1 < b.1 ∨ a.1 = b.1 ∧ a.2 ≤ b.2

end TinyMesh
