import Verif.Proof.CohF
/-
Descriptors of patches and candidates.
-/
namespace TinyMesh

section
variable {m : Mesh XR}

theorem zip_range {α β γ : Type} (f : α → β → γ) (a : Nat → α) (b : Nat → β) (n : Nat) :
    List.zipWith f ((List.range n).map a) ((List.range n).map b) = (List.range n).map fun k => f (a k) (b k) := by
  apply List.ext_getElem
  · simp
  · intro i h1 h2
    simp

theorem row_range (l : List ℝ) : l.map XR.fin = (List.range l.length).map fun k => XR.fin (l.getD k 0) := by
  apply List.ext_getElem
  · simp
  · intro i h1 h2
    simp only [List.getElem_map, List.getElem_range]
    rw [List.getD_eq_getElem?_getD, List.getElem?_eq_getElem (by simpa using h1)]
    rfl

variable {hks : Nat → Option (List XR)} {d : Nat → List ℝ} {n : Nat}

theorem hksSums_eq : ∀ (vs : List Nat), HasRows hks d n vs → ∀ a b : Nat → ℝ,
    hksSums hks vs ((List.range n).map fun k => .fin (a k), (List.range n).map fun k => .fin (b k)) m
      = .ok ((List.range n).map fun k => .fin (a k + (vs.map fun v => (d v).getD k 0).sum),
          (List.range n).map fun k => .fin (b k + (vs.map fun v => (d v).getD k 0 ^ 2).sum)) m := by
  intro vs
  induction vs with
  | nil => intro _ a b; simp [hksSums]
  | cons v vs ih =>
    intro H a b
    obtain ⟨h1, h2⟩ := H v (by simp)
    rw [hksSums]
    simp only [h1, Option.getD_some, bind_apply]
    rw [row_range, h2, List.map_map]
    have e1 : addRow ((List.range n).map fun k => XR.fin (a k)) ((List.range n).map fun k => XR.fin ((d v).getD k 0)) m
        = .ok ((List.range n).map fun k => XR.fin (a k + (d v).getD k 0)) m := by
      unfold addRow
      rw [if_pos (by simp), zip_range]
      rfl
    have e2 : addRow ((List.range n).map fun k => XR.fin (b k)) ((List.range n).map ((fun x => x * x) ∘ fun k => XR.fin ((d v).getD k 0))) m
        = .ok ((List.range n).map fun k => XR.fin (b k + (d v).getD k 0 ^ 2)) m := by
      unfold addRow
      rw [if_pos (by simp), zip_range]
      rw [pure_apply]
      congr 1
      apply List.map_congr_left
      intro k _
      simp only [Function.comp, X_mul, X_add]
      rw [sq]
    rw [e1]
    dsimp only
    rw [e2]
    dsimp only
    rw [ih (fun x hx => H x (by simp [hx]))]
    simp only [List.map_cons, List.sum_cons, add_assoc]

theorem foldl_rowMax (f : Nat → ℝ) : ∀ (l : List Nat) (k0 : Nat), ∃ k, (k = k0 ∨ k ∈ l) ∧ f k0 ≤ f k ∧ (∀ j ∈ l, f j ≤ f k) ∧
    (l.map fun j => XR.fin (f j)).foldl (fun s x => if Scalar.lt s x then x else s) (.fin (f k0)) = .fin (f k)
  | [], k0 => ⟨k0, .inl rfl, le_refl _, by simp, rfl⟩
  | j :: l, k0 => by
    rw [List.map_cons, List.foldl_cons, X_lt]
    by_cases h : f k0 < f j
    · rw [if_pos ((R_lt _ _).2 h)]
      obtain ⟨k, h1, h2, h3, h4⟩ := foldl_rowMax f l j
      refine ⟨k, ?_, h.le.trans h2, ?_, h4⟩
      · rcases h1 with rfl | h1
        · right; simp
        · right; simp [h1]
      · intro i hi
        rcases List.mem_cons.1 hi with rfl | hi
        · exact h2
        · exact h3 i hi
    · rw [if_neg (by rw [R_lt]; exact h)]
      obtain ⟨k, h1, h2, h3, h4⟩ := foldl_rowMax f l k0
      refine ⟨k, ?_, h2, ?_, h4⟩
      · rcases h1 with rfl | h1
        · left; rfl
        · right; simp [h1]
      · intro i hi
        rcases List.mem_cons.1 hi with rfl | hi
        · exact (not_lt.1 h).trans h2
        · exact h3 i hi

theorem rowMax_eq (f : Nat → ℝ) (hn : 0 < n) : ∃ k < n, (∀ j < n, f j ≤ f k) ∧
    rowMax ((List.range n).map fun k => XR.fin (f k)) m = .ok (.fin (f k)) m := by
  obtain ⟨n, rfl⟩ := Nat.exists_eq_succ_of_ne_zero hn.ne'
  obtain ⟨k, h1, h2, h3, h4⟩ := foldl_rowMax f ((List.range n).map Nat.succ) 0
  refine ⟨k, ?_, ?_, ?_⟩
  · rcases h1 with rfl | h1
    · omega
    · obtain ⟨i, hi, rfl⟩ := List.mem_map.1 h1
      have := List.mem_range.1 hi
      omega
  · intro j hj
    cases j with
    | zero => exact h2
    | succ j => exact h3 _ (List.mem_map.2 ⟨j, List.mem_range.2 (by omega), rfl⟩)
  · rw [List.range_succ_eq_map, List.map_cons]
    exact congrArg (fun x => Out.ok x m) h4

/-- the second half of the descriptor before the division by the largest entry, for a patch of `vs` among `N` vertices -/
noncomputable def spread (d : Nat → List ℝ) (vs : List Nat) (N : ℝ) (k : Nat) : ℝ :=
  rowSquare d vs k - vs.length / N * rowMean d vs k ^ 2

theorem rowSquare_ge (d : Nat → List ℝ) (vs : List Nat) (k : Nat) : rowMean d vs k ^ 2 ≤ rowSquare d vs k := by
  by_cases hv : vs = []
  · subst hv; simp [rowMean, rowSquare]
  have hP : (0 : ℝ) < vs.length := by
    have := List.length_pos_of_ne_nil hv
    exact_mod_cast this
  have h : 0 ≤ (vs.map fun v => ((d v).getD k 0 - rowMean d vs k) ^ 2).sum := by
    apply List.sum_nonneg
    intro x hx
    obtain ⟨v, _, rfl⟩ := List.mem_map.1 hx
    positivity
  have e : ∀ (c : ℝ) (l : List Nat), (l.map fun v => ((d v).getD k 0 - c) ^ 2).sum
      = (l.map fun v => (d v).getD k 0 ^ 2).sum - 2 * c * (l.map fun v => (d v).getD k 0).sum + l.length * c ^ 2 := by
    intro c l
    induction l with
    | nil => simp
    | cons v l ih => simp only [List.map_cons, List.sum_cons, ih, List.length_cons]; push_cast; ring
  rw [e] at h
  have e1 : (vs.map fun v => (d v).getD k 0).sum = vs.length * rowMean d vs k := by unfold rowMean; field_simp
  have e2 : (vs.map fun v => (d v).getD k 0 ^ 2).sum = vs.length * rowSquare d vs k := by unfold rowSquare; field_simp
  rw [e1, e2] at h
  nlinarith

theorem rowVar_eq (d : Nat → List ℝ) {vs : List Nat} (hv : vs ≠ []) (k : Nat) : rowVar d vs k = rowSquare d vs k - rowMean d vs k ^ 2 := by
  have hP : (0 : ℝ) < vs.length := by
    have := List.length_pos_of_ne_nil hv
    exact_mod_cast this
  have e : ∀ (c : ℝ) (l : List Nat), (l.map fun v => ((d v).getD k 0 - c) ^ 2).sum
      = (l.map fun v => (d v).getD k 0 ^ 2).sum - 2 * c * (l.map fun v => (d v).getD k 0).sum + l.length * c ^ 2 := by
    intro c l
    induction l with
    | nil => simp
    | cons v l ih => simp only [List.map_cons, List.sum_cons, ih, List.length_cons]; push_cast; ring
  unfold rowVar
  rw [e]
  have e1 : (vs.map fun v => (d v).getD k 0).sum = vs.length * rowMean d vs k := by unfold rowMean; field_simp
  have e2 : (vs.map fun v => (d v).getD k 0 ^ 2).sum = vs.length * rowSquare d vs k := by unfold rowSquare; field_simp
  rw [e1, e2]
  field_simp
  ring

/-- the descriptor of a patch -/
theorem descriptor_eq {vs : List Nat} (H : HasRows hks d n vs) (hn : 0 < n) (hv : vs ≠ []) {N : Nat} (hN : vs.length ≤ N)
    (h1 : ∃ k < n, 0 < rowMean d vs k) (h2 : ∃ k < n, 0 < spread d vs N k) :
    ∃ a b, descriptor hks n N vs m = .ok (a ++ b) m ∧ NormedRow (rowMean d vs) n a ∧ NormedRow (fun k => √(spread d vs N k)) n b := by
  have hP : (0 : ℝ) < vs.length := by
    have := List.length_pos_of_ne_nil hv
    exact_mod_cast this
  have hNP : (vs.length : ℝ) ≤ N := by exact_mod_cast hN
  have hN0 : (0 : ℝ) < N := hP.trans_le hNP
  set q : ℝ := vs.length / N with hq
  have hq0 : 0 < q := div_pos hP hN0
  have hq1 : q ≤ 1 := (div_le_one hN0).2 hNP
  have em : ∀ k, (vs.map fun v => (d v).getD k 0).sum / N = q * rowMean d vs k := by
    intro k; unfold rowMean; rw [hq]; field_simp
  have es : ∀ k, (vs.map fun v => (d v).getD k 0 ^ 2).sum / N = q * rowSquare d vs k := by
    intro k; unfold rowSquare; rw [hq]; field_simp
  have hsp : ∀ k, 0 ≤ spread d vs N k := by
    intro k
    have := rowSquare_ge d vs k
    unfold spread
    rw [← hq]
    nlinarith [sq_nonneg (rowMean d vs k)]
  obtain ⟨ka, hka, ma, ea⟩ := rowMax_eq (m := m) (fun k => q * rowMean d vs k) hn
  obtain ⟨kb, hkb, mb, eb⟩ := rowMax_eq (m := m) (fun k => √(q * spread d vs N k)) hn
  have hA : 0 < rowMean d vs ka := by
    obtain ⟨k, hk, hp⟩ := h1
    have := ma k hk
    nlinarith
  have hB : 0 < spread d vs N kb := by
    obtain ⟨k, hk, hp⟩ := h2
    have := mb k hk
    have h3 : 0 < √(q * spread d vs N k) := Real.sqrt_pos.2 (mul_pos hq0 hp)
    have h4 := Real.sqrt_pos.1 (h3.trans_le this)
    exact pos_of_mul_pos_right h4 hq0.le
  refine ⟨(List.range n).map fun j => .fin (rowMean d vs j / rowMean d vs ka),
    (List.range n).map fun j => .fin (√(spread d vs N j) / √(spread d vs N kb)), ?_,
    ⟨ka, hka, fun j hj => le_of_mul_le_mul_left (ma j hj) hq0, rfl⟩,
    ⟨kb, hkb, fun j hj => ?_, rfl⟩⟩
  · unfold descriptor
    have ez : List.replicate n (Scalar.lit 0 1 : XR) = (List.range n).map fun _ => XR.fin 0 := by
      rw [X_lit, R_lit0, List.map_const', List.length_range]
    dsimp only
    rw [ez, bind_apply, hksSums_eq vs H (fun _ => 0) (fun _ => 0)]
    dsimp only
    have hl : (Scalar.lit (N : Int) 1 : XR) = .fin N := by rw [X_lit, R_lit]; simp
    rw [hl, List.map_map, List.map_map, zip_range]
    have e1 : ((List.range n).map ((fun x => x / XR.fin N) ∘ fun k => XR.fin (0 + (vs.map fun v => (d v).getD k 0).sum)))
        = (List.range n).map fun k => XR.fin (q * rowMean d vs k) := by
      apply List.map_congr_left
      intro k _
      simp only [Function.comp]
      rw [X_div _ hN0.ne', zero_add, em]
    have e2 : ((List.range n).map fun k => Scalar.sqrt (fmax (((fun x => x / XR.fin N) ∘ fun k => XR.fin (0 + (vs.map fun v => (d v).getD k 0 ^ 2).sum)) k
        - ((fun x => x / XR.fin N) ∘ fun k => XR.fin (0 + (vs.map fun v => (d v).getD k 0).sum)) k
        * ((fun x => x / XR.fin N) ∘ fun k => XR.fin (0 + (vs.map fun v => (d v).getD k 0).sum)) k) (Scalar.lit 0 1)))
        = (List.range n).map fun k => XR.fin (√(q * spread d vs N k)) := by
      apply List.map_congr_left
      intro k _
      simp only [Function.comp]
      rw [X_div _ hN0.ne', X_div _ hN0.ne', zero_add, zero_add, em, es, X_mul, X_sub, X_lit, R_lit0, X_fmax, R_fmax]
      have e3 : q * rowSquare d vs k - q * rowMean d vs k * (q * rowMean d vs k) = q * spread d vs N k := by
        unfold spread; rw [← hq]; ring
      rw [e3, max_eq_left (mul_nonneg hq0.le (hsp k)), X_sqrt (mul_nonneg hq0.le (hsp k))]
    rw [e1, e2, bind_apply, ea]
    dsimp only
    rw [bind_apply, eb]
    dsimp only
    rw [pure_apply, List.map_map, List.map_map]
    congr 2
    · apply List.map_congr_left
      intro k _
      simp only [Function.comp]
      rw [X_div _ (mul_pos hq0 hA).ne', mul_div_mul_left _ _ hq0.ne']
    · apply List.map_congr_left
      intro k _
      simp only [Function.comp]
      rw [X_div _ (Real.sqrt_pos.2 (mul_pos hq0 hB)).ne', Real.sqrt_mul hq0.le, Real.sqrt_mul hq0.le,
        mul_div_mul_left _ _ (Real.sqrt_pos.2 hq0).ne']
  · have := mb j hj
    rw [Real.sqrt_mul hq0.le, Real.sqrt_mul hq0.le] at this
    exact le_of_mul_le_mul_left this (Real.sqrt_pos.2 hq0)

/-! ### candidates -/

theorem candDists_eq {D : List (List XR)} {f : Int → List ℝ} {tgt : Int}
    (ht : ∃ i : Nat, tgt = i ∧ D[i]? = some ((f tgt).map XR.fin) ∧ (f tgt).length = n) : ∀ src : List Int,
    (∀ s ∈ src, ∃ i : Nat, s = i ∧ D[i]? = some ((f s).map XR.fin) ∧ (f s).length = n) →
    candDists D tgt src m = .ok (src.map fun s => (.fin (rowDist (f tgt) (f s)), s)) m := by
  intro src
  induction src with
  | nil => intro _; rfl
  | cons s ss ih =>
    intro H
    obtain ⟨i, ei, hi, li⟩ := ht
    obtain ⟨j, ej, hj, lj⟩ := H s (by simp)
    rw [candDists]
    have a1 : atIdx D tgt m = .ok ((f tgt).map XR.fin) m := by
      have := atIdx_ok (m := m) hi
      rw [← ei] at this
      exact this
    have a2 : atIdx D s m = .ok ((f s).map XR.fin) m := by
      have := atIdx_ok (m := m) hj
      rw [← ej] at this
      exact this
    simp only [bind_apply, a1, a2, sqDist_eq (li.trans lj.symm), ih (fun x hx => H x (by simp [hx])), pure_apply, List.map_cons]

theorem eachM_take {α β : Type} (l : List α) (g : α → β) : ∀ (k j : Nat), j + k ≤ l.length →
    eachM (fun j => do let x ← atIdx l ((j : Nat) : Int); pure (g x)) (List.range' j k) m = .ok (((l.drop j).take k).map g) m
  | 0, j, _ => by simp [eachM]
  | k + 1, j, h => by
    rw [List.range'_succ, eachM]
    have hj : j < l.length := by omega
    have h1 := atIdx_ok (m := m) (List.getElem?_eq_getElem hj)
    have ih := eachM_take l g k (j + 1) (by omega)
    simp only [bind_apply, pure_apply] at ih ⊢
    rw [h1]
    dsimp only
    rw [ih, List.drop_eq_getElem_cons hj, List.take_succ_cons, List.map_cons]

theorem eachM_short {α β : Type} (l : List α) (g : α → β) : ∀ (k j : Nat), l.length < j + k → j ≤ l.length →
    eachM (fun j => do let x ← atIdx l ((j : Nat) : Int); pure (g x)) (List.range' j k) m = .err .ub
  | 0, j, h, h' => by omega
  | k + 1, j, h, h' => by
    rw [List.range'_succ, eachM]
    rcases Nat.lt_or_ge j l.length with hj | hj
    · have h1 := atIdx_ok (m := m) (List.getElem?_eq_getElem hj)
      have ih := eachM_short l g k (j + 1) (by omega) hj
      simp only [bind_apply, pure_apply] at ih ⊢
      rw [h1]
      dsimp only
      rw [ih]
    · have h1 : atIdx l ((j : Nat) : Int) m = .err .ub := by
        unfold atIdx
        rw [if_neg (by omega)]
        simp [List.getElem?_eq_none hj]
      simp only [bind_apply, h1]

end
end TinyMesh
