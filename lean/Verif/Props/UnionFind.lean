import Verif.Proof.UnionFind
/-
C93: the union-find tree.
-/
namespace TinyMesh

/-- C93, as far as it holds: after any calls with elements of the tree, `root` ends, reads nothing outside of the vector, and tells the classes:
the roots of two elements are equal exactly if the elements have been merged, directly or by way of others; the root of an element is a
member of its class. Asking for a root changes no class. (The function `same` does not tell the classes, see `c93_counterexample`.) -/
theorem c93_root_partial (n : Nat) (ops : List UFOp) (ho : ∀ o ∈ ops, o.inRange n) : ∃ (t : UF) (rep : Int → Int), (UF.make n).runs ops = .ok t ∧
    ∀ x : Int, 0 ≤ x → x < n → (∃ t', t.root x = .ok (rep x, t') ∧
        ∀ y : Int, 0 ≤ y → y < n → ∃ t'', t'.root y = .ok (rep y, t'')) ∧
      (0 ≤ rep x ∧ rep x < n ∧ UFMerged ops x (rep x)) ∧ ∀ y : Int, 0 ≤ y → y < n → (rep x = rep y ↔ UFMerged ops x y) := by
  obtain ⟨t, rep, d, e, h⟩ := Tells.steps ops [] (Tells.make n) ho
  rw [List.nil_append] at h
  refine ⟨t, fun x => (rep x.toNat : Int), e, fun x x0 xn => ?_⟩
  obtain ⟨i, rfl⟩ := Int.eq_ofNat_of_zero_le x0
  have hi : i < n := by omega
  simp only [Int.toNat_natCast]
  obtain ⟨t', e', f', -⟩ := h.forest.root hi
  refine ⟨⟨t', e', fun y y0 yn => ?_⟩, ⟨by omega, by exact_mod_cast h.forest.lt i hi, h.cls i hi⟩, fun y y0 yn => ?_⟩
  · obtain ⟨j, rfl⟩ := Int.eq_ofNat_of_zero_le y0
    obtain ⟨t'', e'', -⟩ := f'.root (by omega : j < n)
    exact ⟨t'', by simpa using e''⟩
  · obtain ⟨j, rfl⟩ := Int.eq_ofNat_of_zero_le y0
    rw [Int.toNat_natCast, Nat.cast_inj]
    exact h.iff hi (by omega)

/-- C93: an index outside of the vector is undefined behaviour. -/
theorem c93_range (t : UF) (x y : Int) (h : x < 0 ∨ t.length ≤ x) : t.root x = .error .ub ∧ t.merge x y = .error .ub ∧ t.same x y = .error .ub := by
  have e : t.at x = .error .ub := by
    unfold UF.at
    split
    · rfl
    · rw [List.getElem?_eq_none (by omega)]
  have r : t.root x = .error .ub := by
    unfold UF.root UF.rootF
    rw [e]; rfl
  refine ⟨r, ?_, ?_⟩
  · unfold UF.merge
    rw [r]; rfl
  · unfold UF.same
    rw [e]; rfl

/-- C93, as far as it holds: what `same` tells. It compares the entries, so it answers whether both elements are roots or both hang on the same
parent. -/
theorem c93_same_partial (n : Nat) (ops : List UFOp) (ho : ∀ o ∈ ops, o.inRange n) {x y : Int} (hx : 0 ≤ x ∧ x < n) (hy : 0 ≤ y ∧ y < n) :
    ∃ (t : UF) (b : Bool), (UF.make n).runs ops = .ok t ∧ t.same x y = .ok b ∧
      (b = true ↔ (t[x.toNat]? = some (-1) ∧ t[y.toNat]? = some (-1)) ∨ ∃ p : Int, 0 ≤ p ∧ t[x.toNat]? = some p ∧ t[y.toNat]? = some p) ∧
      (t[x.toNat]? = some (-1) ↔ ∃ t', t.root x = .ok (x, t')) := by
  obtain ⟨t, rep, d, e, h⟩ := Tells.steps ops [] (Tells.make n) ho
  obtain ⟨i, rfl⟩ := Int.eq_ofNat_of_zero_le hx.1
  obtain ⟨j, rfl⟩ := Int.eq_ofNat_of_zero_le hy.1
  have hi : i < n := by omega
  have hj : j < n := by omega
  have li : i < t.length := by rw [h.forest.len]; exact hi
  have lj : j < t.length := by rw [h.forest.len]; exact hj
  have gi := List.getElem?_eq_getElem li
  have gj := List.getElem?_eq_getElem lj
  refine ⟨t, decide (t[i] = t[j]), e, ?_, ?_, ?_⟩
  · simp only [UF.same, UF.at_nat t gi, UF.at_nat t gj, bind, Except.bind]
  · simp only [Int.toNat_natCast, decide_eq_true_eq, gi, gj, Option.some.injEq]
    constructor
    · intro k
      rcases h.forest.node i hi with ⟨h1, -⟩ | ⟨p, -, h1, -⟩
      · rw [gi, Option.some.injEq] at h1
        exact Or.inl ⟨h1, by rw [← k, h1]⟩
      · rw [gi, Option.some.injEq] at h1
        exact Or.inr ⟨p, by omega, h1, by rw [← k, h1]⟩
    · rintro (⟨h1, h2⟩ | ⟨p, -, h1, h2⟩) <;> rw [h1, h2]
  · rw [Int.toNat_natCast]
    obtain ⟨t', e', -⟩ := h.forest.root hi
    constructor
    · intro k
      rcases h.forest.node i hi with ⟨-, h2, -⟩ | ⟨p, -, h1, -⟩
      · rw [h2] at e'; exact ⟨t', e'⟩
      · rw [k, Option.some.injEq] at h1; omega
    · rintro ⟨t2, k⟩
      rw [k] at e'
      injection e' with e'
      have : (i : Int) = rep i := congrArg Prod.fst e'
      have r := (h.forest.root_rep _ i (Nat.le_refl _) hi).1
      rw [show rep i = i by exact_mod_cast this.symm] at r
      exact r

/-- C93 is false in general: `same` says of two elements that have never been merged that they belong together, and of two elements that have been
merged that they do not. -/
theorem c93_counterexample : (∃ t, (UF.make 2).runs [] = .ok t ∧ t.same 0 1 = .ok true ∧ ¬ UFMerged [] 0 1) ∧
    ∃ t, (UF.make 2).runs [.merge 0 1] = .ok t ∧ t.same 0 1 = .ok false ∧ UFMerged [.merge 0 1] 0 1 := by
  refine ⟨⟨UF.make 2, rfl, rfl, fun h => ?_⟩, ⟨[-1, 0], rfl, rfl, Relation.EqvGen.rel _ _ (by simp)⟩⟩
  have key : ∀ a b : Int, UFMerged [] a b → a = b := by
    intro a b k
    induction k with
    | rel a b k => simp at k
    | refl => rfl
    | symm _ _ _ ih => exact ih.symm
    | trans _ _ _ _ _ ih1 ih2 => exact ih1.trans ih2
  exact absurd (key _ _ h) (by decide)

/-- a run of several merges: 0, 1, 2, 3 are in one class and 4 is alone -/
example : (∀ o ∈ [UFOp.merge 0 1, .merge 2 3, .merge 3 1, .root 0], o.inRange 5) ∧
    ∃ t, (UF.make 5).runs [UFOp.merge 0 1, .merge 2 3, .merge 3 1, .root 0] = .ok t ∧ t = [2, 0, -1, 2, -1] ∧
      (t.root 1).map Prod.fst = .ok 2 ∧ (t.root 4).map Prod.fst = .ok 4 := by
  refine ⟨?_, _, rfl, rfl, rfl, rfl⟩
  simp [UFOp.inRange]

end TinyMesh
