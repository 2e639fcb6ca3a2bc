import Verif.Proof.CohE
/-
The rows of the system: closest signatures.
-/
namespace TinyMesh

section
variable {m : Mesh XR}

theorem sqDist_eq {a b : List ℝ} (h : a.length = b.length) :
    sqDist (a.map XR.fin) (b.map XR.fin) m = .ok (.fin (rowDist a b)) m := by
  unfold sqDist rowDist
  rw [if_pos (by simpa using h)]
  rw [pure_apply]
  congr 1
  rw [X_lit, R_lit0]
  have key : ∀ (a b : List ℝ) (s : ℝ), (List.zipWith (fun x y => (x - y) * (x - y)) (a.map XR.fin) (b.map XR.fin)).foldl (· + ·) (.fin s)
      = XR.fin (s + (List.zipWith (fun x y => (x - y) ^ 2) a b).sum) := by
    intro a
    induction a with
    | nil => intro b s; simp
    | cons x a ih =>
      intro b s
      cases b with
      | nil => simp
      | cons y b =>
        simp only [List.map_cons, List.zipWith_cons_cons, List.foldl_cons, List.sum_cons, X_sub, X_mul, X_add]
        rw [ih]
        congr 1; ring
  rw [key, zero_add]

variable {hks : Nat → Option (List XR)} {d : Nat → List ℝ} {n : Nat}

theorem closestHks_eq {s : Nat} (hs : hks s = some ((d s).map XR.fin) ∧ (d s).length = n) :
    ∀ (ts : List Nat) (j : Int) (D : ℝ) (k : Int), HasRows hks d n ts →
      ∃ D' k', closestHks hks s ts j (.fin D, k) m = .ok (.fin D', k') m ∧
        ((k' = k ∧ D' = D ∧ ∀ t ∈ ts, D ≤ rowDist (d s) (d t)) ∨
          ∃ (i t : Nat), ts[i]? = some t ∧ k' = j + i ∧ D' = rowDist (d s) (d t) ∧ D' < D ∧ ∀ t' ∈ ts, rowDist (d s) (d t) ≤ rowDist (d s) (d t')) := by
  intro ts
  induction ts with
  | nil => intro j D k _; exact ⟨D, k, rfl, .inl ⟨rfl, rfl, by simp⟩⟩
  | cons t ts ih =>
    intro j D k H
    have ht := H t (by simp)
    have e : closestHks hks s (t :: ts) j (.fin D, k) m = closestHks hks s ts (j + 1)
        (if Scalar.lt (XR.fin (rowDist (d s) (d t))) (XR.fin D) then (.fin (rowDist (d s) (d t)), j) else (.fin D, k)) m := by
      rw [closestHks]
      simp only [bind_apply, hksOf, hs.1, ht.1, pure_apply]
      rw [sqDist_eq (hs.2.trans ht.2.symm)]
    rw [e, X_lt]
    have H' : HasRows hks d n ts := fun v hv => H v (by simp [hv])
    by_cases hlt : rowDist (d s) (d t) < D
    · rw [if_pos ((R_lt _ _).2 hlt)]
      obtain ⟨D', k', h1, h2⟩ := ih (j + 1) (rowDist (d s) (d t)) j H'
      refine ⟨D', k', h1, .inr ?_⟩
      rcases h2 with ⟨rfl, rfl, h3⟩ | ⟨i, t', h3, rfl, rfl, h4, h5⟩
      · refine ⟨0, t, by simp, by simp, rfl, hlt, fun t' ht' => ?_⟩
        rcases List.mem_cons.1 ht' with rfl | h
        · exact le_refl _
        · exact h3 _ h
      · refine ⟨i + 1, t', by simpa using h3, by push_cast; ring, rfl, h4.trans hlt, fun t'' ht'' => ?_⟩
        rcases List.mem_cons.1 ht'' with rfl | h
        · exact h4.le
        · exact h5 _ h
    · rw [if_neg (by rw [R_lt]; exact hlt)]
      obtain ⟨D', k', h1, h2⟩ := ih (j + 1) D k H'
      refine ⟨D', k', h1, ?_⟩
      rcases h2 with ⟨rfl, rfl, h3⟩ | ⟨i, t', h3, rfl, rfl, h4, h5⟩
      · refine .inl ⟨rfl, rfl, fun t' ht' => ?_⟩
        rcases List.mem_cons.1 ht' with rfl | h
        · exact not_lt.1 hlt
        · exact h3 _ h
      · refine .inr ⟨i + 1, t', by simpa using h3, by push_cast; ring, rfl, h4, fun t'' ht'' => ?_⟩
        rcases List.mem_cons.1 ht'' with rfl | h
        · exact h4.le.trans (not_lt.1 hlt)
        · exact h5 _ h

theorem lit_1e20 : (Scalar.lit 100000000000000000000 1 : XR) = .fin (10 ^ 20) := by
  rw [X_lit, R_lit]; norm_num

variable {p : Nat → E3}

/-- the rows of the system -/
theorem rigidPairs_eq (A : m.AtE p) {tgt : List Nat} (hT : HasRows hks d n tgt) (aT : ∀ v ∈ tgt, m.vAlive v = true) :
    ∀ src : List Nat, HasRows hks d n src → (∀ v ∈ src, m.vAlive v = true) →
      (∀ s ∈ src, ∃ t ∈ tgt, rowDist (d s) (d t) < 10 ^ 20) →
      ∃ (near : Nat → Nat) (l : List (Vec3 XR × Vec3 XR)), (∀ s ∈ src, ClosestRow d tgt s (near s)) ∧ rigidPairs hks tgt src m = .ok l m ∧
        RowsAre l (src.map fun s => (p s, p (near s))) := by
  classical
  have one : ∀ s, (hks s = some ((d s).map XR.fin) ∧ (d s).length = n) → (∃ t ∈ tgt, rowDist (d s) (d t) < 10 ^ 20) →
      ∃ D i t, closestHks hks s tgt 0 (Scalar.lit 100000000000000000000 1, -1) m = .ok (D, ((i : Nat) : Int)) m ∧ tgt[i]? = some t ∧
        ClosestRow d tgt s t := by
    intro s hs ⟨t, ht, hd⟩
    rw [lit_1e20]
    obtain ⟨D', k', h1, h2⟩ := closestHks_eq (m := m) hs tgt 0 (10 ^ 20) (-1) hT
    rcases h2 with ⟨-, -, h3⟩ | ⟨i, t', h3, rfl, -, -, h5⟩
    · exact absurd (h3 t ht) (not_le.2 hd)
    · exact ⟨_, i, t', by rw [h1, zero_add], h3, List.mem_of_getElem? h3, h5⟩
  have hnear : ∀ s, ∃ t, (hks s = some ((d s).map XR.fin) ∧ (d s).length = n) → (∃ t ∈ tgt, rowDist (d s) (d t) < 10 ^ 20) →
      ∃ D i, closestHks hks s tgt 0 (Scalar.lit 100000000000000000000 1, -1) m = .ok (D, ((i : Nat) : Int)) m ∧ tgt[i]? = some t ∧
        ClosestRow d tgt s t := by
    intro s
    by_cases h : (hks s = some ((d s).map XR.fin) ∧ (d s).length = n) ∧ ∃ t ∈ tgt, rowDist (d s) (d t) < 10 ^ 20
    · obtain ⟨D, i, t, h'⟩ := one s h.1 h.2
      exact ⟨t, fun _ _ => ⟨D, i, h'⟩⟩
    · exact ⟨0, fun h1 h2 => absurd ⟨h1, h2⟩ h⟩
  choose near hn using hnear
  intro src hS aS hD
  refine ⟨near, ?_⟩
  induction src with
  | nil => exact ⟨[], by simp, rfl, List.Forall₂.nil⟩
  | cons s ss ih =>
    obtain ⟨l, hc, e, hr⟩ := ih (fun v hv => hS v (by simp [hv])) (fun v hv => aS v (by simp [hv])) (fun v hv => hD v (by simp [hv]))
    obtain ⟨D, i, h1, h2, h3⟩ := hn s (hS s (by simp)) (hD s (by simp))
    have as := aS s (by simp)
    have at' := aT _ h3.1
    refine ⟨(m.vPos s, m.vPos (near s)) :: l, ?_, ?_, ?_⟩
    · intro s' hs'
      rcases List.mem_cons.1 hs' with rfl | h
      · exact h3
      · exact hc _ h
    · rw [rigidPairs]
      simp only [bind_apply, h1, getPos_ok as, atIdx_ok h2, getPos_ok at', e, pure_apply]
    · exact List.Forall₂.cons ⟨A _ as, A _ at'⟩ hr

/-- no target below the initial distance: the index stays -1 -/
theorem rigidPairs_none {tgt : List Nat} (hT : HasRows hks d n tgt) (aT : ∀ v ∈ tgt, m.vAlive v = true) : ∀ src : List Nat, HasRows hks d n src →
    (∀ v ∈ src, m.vAlive v = true) → (∃ s ∈ src, ∀ t ∈ tgt, 10 ^ 20 ≤ rowDist (d s) (d t)) → rigidPairs hks tgt src m = .err .ub
  | [], _, _, h => by simp at h
  | s :: ss, hS, aS, h => by
    rw [rigidPairs, lit_1e20]
    obtain ⟨D', k', h1, h2⟩ := closestHks_eq (m := m) (hS s (by simp)) tgt 0 (10 ^ 20) (-1) hT
    have a := aS s (by simp)
    rcases h2 with ⟨rfl, rfl, -⟩ | ⟨i, t', h3, rfl, rfl, h4, -⟩
    · simp only [bind_apply, h1, getPos_ok a]
      unfold atIdx
      rw [if_pos (by omega)]
      rfl
    · have h5 : ∃ s ∈ ss, ∀ t ∈ tgt, 10 ^ 20 ≤ rowDist (d s) (d t) := by
        obtain ⟨x, hx, hx'⟩ := h
        rcases List.mem_cons.1 hx with rfl | hx
        · exact absurd (hx' t' (List.mem_of_getElem? h3)) (not_le.2 h4)
        · exact ⟨x, hx, hx'⟩
      have ih := rigidPairs_none hT aT ss (fun v hv => hS v (by simp [hv])) (fun v hv => aS v (by simp [hv])) h5
      rw [zero_add] at h1
      simp only [bind_apply, h1, getPos_ok a, atIdx_ok h3, getPos_ok (aT _ (List.mem_of_getElem? h3)), ih]

end
end TinyMesh
