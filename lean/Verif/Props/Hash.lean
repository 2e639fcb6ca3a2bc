import Verif.Proof.Hash
import Verif.Props.Construct
import Verif.Proof.RealA
/-
C95: hash tables keyed by positions and by pairs of indices.
-/
namespace TinyMesh

/-- C95: if equal keys have equal hashes, a hash table is a map, in whatever way it grows: every sequence of calls has the results that it has for
a map, where keys are the same if they are equal. Keys that are not equal to themselves are never found. -/
theorem c95_table {K : Type} {c : HConf K} (P : PartEq c.eq) (R : c.Respects) (os : List (HOp K)) :
    c.calls HConf.empty os = mapCalls c.eq (fun _ => none) os := (rep_empty c).calls P R os

/-- C95: the hash of a pair of indices satisfies that. -/
theorem c95_pairs {c : HConf (BitVec 32 × BitVec 32)} (hh : c.hash = pairHash) (he : ∀ a b, c.eq a b = true ↔ a = b)
    (os : List (HOp (BitVec 32 × BitVec 32))) : c.calls HConf.empty os = mapCalls c.eq (fun _ => none) os :=
  c95_table ⟨fun a b h => (he b a).2 ((he a b).1 h).symm, fun a b d h k => (he a d).2 (((he a b).1 h).trans ((he b d).1 k))⟩
    (fun a b h => by rw [(he a b).1 h]) os

/-- the hash does not tell pairs apart: all pairs of an index with itself have the same, and so has a pair with its reverse -/
example : pairHash (3, 3) = pairHash (5, 5) ∧ pairHash (1, 2) = pairHash (2, 1) := by decide

section
variable {F : Type} [Scalar F]

/-- C95: with the hash of positions, `construct` does what it does with a comparison of all positions, in whatever way the table grows, if the
hash of numbers respects their equality. -/
theorem c95_construct (symm : ∀ a b : F, Scalar.eq a b = true → Scalar.eq b a = true)
    (trans : ∀ a b d : F, Scalar.eq a b = true → Scalar.eq b d = true → Scalar.eq a d = true) {h : F → BitVec 64}
    (hh : ∀ a b : F, Scalar.eq a b = true → h a = h b) {c : HConf (Vec3 F)} (hc : c.hash = vecHash h) (he : c.eq = Vec3.eq)
    (V : List (Vec3 F)) (I : List Nat) : constructHash c V I = construct V I := by
  have P : PartEq c.eq := by
    rw [he]
    constructor
    · intro a b e
      simp only [Vec3.eq, Bool.and_eq_true] at e ⊢
      exact ⟨⟨symm _ _ e.1.1, symm _ _ e.1.2⟩, symm _ _ e.2⟩
    · intro a b d e e'
      simp only [Vec3.eq, Bool.and_eq_true] at e e' ⊢
      exact ⟨⟨trans _ _ _ e.1.1 e'.1.1, trans _ _ _ e.1.2 e'.1.2⟩, trans _ _ _ e.2 e'.2⟩
  have R : c.Respects := by
    intro a b e
    rw [he] at e
    simp only [Vec3.eq, Bool.and_eq_true] at e
    rw [hc]
    exact vecHash_eq (hh _ _ e.1.1) (hh _ _ e.1.2) (hh _ _ e.2)
  unfold constructHash construct
  rw [dedupHash_eq he P R V I (l := []) (rep_empty c)]

end

/-- C95: the condition is needed: if the hashes of two equal keys are different, a table with many buckets does not find the one after the other
has been inserted. (`std::hash<double>` has to give the same for both zeros.) -/
theorem c95_needed {K : Type} {hash : K → BitVec 64} (eq : K → K → Bool) {a b : K} (ne : hash a ≠ hash b) :
    ∃ c : HConf K, c.hash = hash ∧ c.eq = eq ∧ c.calls HConf.empty [.insert a 7, .find b] = [none, none] := by
  obtain ⟨N, hN⟩ : ∃ N : Nat, N = 2 ^ 64 := ⟨_, rfl⟩
  have l : ∀ x : BitVec 64, x.toNat % N = x.toNat := fun x => Nat.mod_eq_of_lt (hN ▸ x.isLt)
  refine ⟨⟨hash, eq, fun _ _ => N - 1, id, fun _ => List.Perm.refl _⟩, rfl, rfl, ?_⟩
  have h1 : (1 : Nat) < N := by rw [hN]; norm_num
  have := find_other ⟨hash, eq, fun _ _ => N - 1, id, fun _ => List.Perm.refl _⟩ (a := a) (b := b) 7 N h1 (by simp only; omega)
    (by simp only [HConf.slot, l]; exact fun h => ne (BitVec.eq_of_toNat_eq h))
  simp only [HConf.calls, HConf.call, List.cons.injEq, true_and, and_true]
  have e : HConf.find ⟨hash, eq, fun _ _ => N - 1, id, fun _ => List.Perm.refl _⟩ HConf.empty a = none := by
    simp [HConf.find, HConf.empty, HConf.slot, Nat.mod_one]
  rw [HConf.insert, e]
  exact this

/-- positions with numbers that are not numbers: in the extended reals there is one zero, so every hash respects equality -/
example (h : XR → BitVec 64) (c : HConf (Vec3 XR)) (hc : c.hash = vecHash h) (he : c.eq = Vec3.eq) (V : List (Vec3 XR)) (I : List Nat) :
    constructHash c V I = construct V I := by
  have k : ∀ a b : XR, Scalar.eq a b = true → a = b := by
    intro a b e
    cases a <;> cases b <;> first | rfl | cases e | skip
    rw [X_eq, R_eq] at e
    rw [e]
  refine c95_construct ?_ ?_ ?_ hc he V I
  · intro a b e
    cases k a b e
    exact e
  · intro a b d e e'
    cases k a b e
    exact e'
  · intro a b e
    rw [k a b e]

/-- a table of pairs that starts with one bucket and doubles them -/
example : let c : HConf (BitVec 32 × BitVec 32) := ⟨pairHash, fun a b => decide (a = b), fun n b => if n < b then b - 1 else 2 * b - 1, List.reverse, List.reverse_perm⟩
    c.calls HConf.empty [.insert (1, 2) 7, .insert (2, 1) 8, .insert (1, 2) 9, .put (3, 3) 4, .fetch (1, 2), .fetch (2, 1), .fetch (5, 5), .find (5, 5), .find (3, 3)] =
      [none, none, none, none, some 7, some 8, some 0, some 0, some 4] := by decide +kernel

end TinyMesh
