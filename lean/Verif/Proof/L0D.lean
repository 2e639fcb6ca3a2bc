import Verif.Proof.L0C
/-
L0 denoising: the loop and the whole function.
-/
namespace TinyMesh

section
variable {F : Type} [Scalar F] {m : Mesh F}

theorem rows_any {row : Nat → M F (List (Triplet F))} {P : Triplet F → Prop} : ∀ is : List Nat,
    (∀ i ∈ is, ∃ ts, row i m = .ok ts m ∧ ∀ t ∈ ts, P t) → ∃ ts, rows row is m = .ok ts m ∧ ∀ t ∈ ts, P t
  | [], _ => ⟨[], rfl, by simp⟩
  | i :: is, h => by
    obtain ⟨ts, h1, h2⟩ := h i (by simp)
    obtain ⟨us, h3, h4⟩ := rows_any is fun j hj => h j (by simp [hj])
    refine ⟨ts ++ us, ?_, fun t ht => ?_⟩
    · unfold rows
      rw [bind_apply, h1]; dsimp only
      rw [bind_apply, h3]; rfl
    · rcases List.mem_append.1 ht with h | h
      · exact h2 t h
      · exact h4 t h

theorem ofTripletsRect_any {r c : Nat} {ts : List (Triplet F)} (h : ∀ t ∈ ts, 0 ≤ t.1 ∧ t.1 < r ∧ 0 ≤ t.2.1 ∧ t.2.1 < c) :
    ∃ L, ofTripletsRect r c ts m = .ok L m := by
  unfold ofTripletsRect
  rw [if_pos]
  · exact ⟨_, rfl⟩
  · rw [List.all_eq_true]
    intro t ht
    exact decide_eq_true (h t ht)

theorem l0RowD_any (wf : m.WF) {S : List Nat} (hS : ∀ h ∈ S, m.hAlive h = true) {e : Nat} (he : e < S.length) :
    ∃ ts, l0RowD S e m = .ok ts m ∧ ∀ t ∈ ts, 0 ≤ t.1 ∧ t.1 < S.length ∧ 0 ≤ t.2.1 ∧ t.2.1 < m.vs.length := by
  have he' := List.getElem?_eq_getElem he
  have a := hS _ (List.getElem_mem he)
  generalize S[e] = h at he' a
  have ar := wf.rev_alive h a
  have a1 := wf.src_alive _ a
  have a2 := wf.src_alive _ (wf.next_alive _ (wf.next_alive _ a))
  have a3 := wf.src_alive _ ar
  have a4 := wf.src_alive _ (wf.next_alive _ (wf.next_alive _ ar))
  let c := l0Coefs (m.vPos (m.hSrc h)) (m.vPos (m.hSrc (m.hNext (m.hNext h)))) (m.vPos (m.hSrc (m.hRev h)))
    (m.vPos (m.hSrc (m.hNext (m.hNext (m.hRev h)))))
  refine ⟨[((e : Int), m.vIdx (m.hSrc h), c.1), ((e : Int), m.vIdx (m.hSrc (m.hNext (m.hNext h))), c.2.1),
    ((e : Int), m.vIdx (m.hSrc (m.hRev h)), c.2.2.1), ((e : Int), m.vIdx (m.hSrc (m.hNext (m.hNext (m.hRev h)))), c.2.2.2)], ?_, ?_⟩
  · unfold l0RowD
    rw [bind_apply, edgeNo_ok he']; dsimp only
    rw [bind_apply, edgeQuad_ok wf a]; dsimp only
    rw [bind_apply, getPos_ok a1]; dsimp only
    rw [bind_apply, getPos_ok a2]; dsimp only
    rw [bind_apply, getPos_ok a3]; dsimp only
    rw [bind_apply, getPos_ok a4]; dsimp only
    unfold quadTriplets
    simp only [bind_apply, getVIdx_ok a1, getVIdx_ok a2, getVIdx_ok a3, getVIdx_ok a4, pure_apply]
    rfl
  · clear_value c
    have ix : ∀ v, m.vAlive v = true → 0 ≤ m.vIdx v ∧ m.vIdx v < m.vs.length := by
      intro v av
      obtain ⟨k, hk⟩ := wf.vDense.exists_at av
      have := (List.getElem?_eq_some_iff.1 hk).1
      rw [wf.vDense.idx_of hk]
      omega
    intro t ht
    simp only [List.mem_cons, List.not_mem_nil, or_false] at ht
    rcases ht with rfl | rfl | rfl | rfl
    · exact ⟨by simp, by simpa using he, ix _ a1⟩
    · exact ⟨by simp, by simpa using he, ix _ a2⟩
    · exact ⟨by simp, by simpa using he, ix _ a3⟩
    · exact ⟨by simp, by simpa using he, ix _ a4⟩

/-- a round returns normally whatever the numbers are -/
theorem l0Round_any (wf : m.WF) {S : List Nat} (hS : ∀ h ∈ S, m.hAlive h = true) (solve : LinSolve F) (R : Nat → Nat → F)
    (x0 x : Nat → Vec3 F) (lambda alpha beta : F) : ∃ x', l0Round solve S.length m.vs.length S R x0 lambda alpha beta x m = .ok x' m := by
  obtain ⟨ts, h1, h2⟩ := rows_any (m := m) (row := l0RowD S)
    (P := fun t => 0 ≤ t.1 ∧ t.1 < S.length ∧ 0 ≤ t.2.1 ∧ t.2.1 < m.vs.length) (List.range S.length)
    (fun e he => l0RowD_any wf hS (List.mem_range.1 he))
  obtain ⟨L, h3⟩ := ofTripletsRect_any (m := m) h2
  unfold l0Round
  rw [bind_apply, h1]; dsimp only
  rw [bind_apply, h3]
  exact ⟨_, rfl⟩

end

section
variable {m : Mesh XR} {p p0 : Nat → E3}

theorem X_sqrt2 : Scalar.sqrt (Scalar.lit 2 1 : XR) = XR.fin (Real.sqrt 2) := by
  rw [X_lit, X_sqrt (by rw [R_lit]; norm_num)]
  simp [R_lit, R_sqrt]

/-- the loop ends after the first `N` for which `beta` is large enough -/
theorem l0Loop_exact (wf : m.WF) (A : m.AtE p) (hp : m.L0Proper p) {S : List Nat} (o : m.OnePerEdge S) {lambda bmax : ℝ}
    {solve : LinSolve XR} (hS : solve.Exact) {R : Nat → Nat → XR}
    (hR : ∀ (e : Fin S.length) (j : Fin m.vs.length), R e j = XR.fin (m.quadMat S (fun _ => (1, -1, 1, -1)) e j))
    {x0 : Nat → Vec3 XR} (h0 : RowsAt m x0 p0) : ∀ (N : Nat) (alpha beta : ℝ) (x : Nat → Vec3 XR) (q : Nat → E3), 0 ≤ alpha → 0 < beta →
    RowsAt m x q → (∀ k < N, beta * Real.sqrt 2 ^ k < bmax) → bmax ≤ beta * Real.sqrt 2 ^ N →
    ∃ x' q', (∀ fuel, N < fuel →
        l0Loop solve S.length m.vs.length S R x0 (XR.fin lambda) (XR.fin bmax) fuel (XR.fin alpha) (XR.fin beta) x m = .ok x' m) ∧
      RowsAt m x' q' ∧ m.L0Steps p p0 lambda N alpha beta q q' := by
  intro N
  induction N with
  | zero =>
    intro alpha beta x q ha hb hx _ h2
    refine ⟨x, q, fun fuel hf => ?_, hx, fun _ _ => rfl⟩
    obtain ⟨n, rfl⟩ : ∃ n, fuel = n + 1 := ⟨fuel - 1, by omega⟩
    unfold l0Loop
    rw [pow_zero, mul_one] at h2
    rw [if_neg (by rw [X_lt, R_lt]; simpa using h2)]
    rfl
  | succ N ih =>
    intro alpha beta x q ha hb hx h1 h2
    obtain ⟨x1, q1, e1, r1, s1⟩ := l0Round_exact wf A hp o (lambda := lambda) ha hb hS hR h0 hx
    have hs : 0 < Real.sqrt 2 := Real.sqrt_pos.2 (by norm_num)
    obtain ⟨x', q', e2, r2, s2⟩ := ih (alpha / 2) (beta * Real.sqrt 2) x1 q1 (by linarith) (mul_pos hb hs) r1
      (fun k hk => by
        have := h1 (k + 1) (by omega)
        rwa [pow_succ', ← mul_assoc] at this)
      (by rwa [pow_succ', ← mul_assoc] at h2)
    refine ⟨x', q', fun fuel hf => ?_, r2, q1, s1, s2⟩
    obtain ⟨n, rfl⟩ : ∃ n, fuel = n + 1 := ⟨fuel - 1, by omega⟩
    have h3 := h1 0 (by omega)
    rw [pow_zero, mul_one] at h3
    unfold l0Loop
    rw [if_pos (by rw [X_lt, R_lt]; simpa using h3), bind_apply, e1]
    dsimp only
    rw [X_sqrt2, X_lit, X_mul, X_mul, R_lit, ← e2 n (by omega)]
    congr 2
    norm_num
    ring

/-- the loop never ends if `beta` is not positive -/
theorem l0Loop_diverge (wf : m.WF) {S : List Nat} (hS : ∀ h ∈ S, m.hAlive h = true) (solve : LinSolve XR) (R : Nat → Nat → XR)
    (x0 : Nat → Vec3 XR) (lambda : XR) {bmax : ℝ} (hm : 0 < bmax) : ∀ (fuel : Nat) (alpha : XR) (beta : ℝ) (x : Nat → Vec3 XR), beta ≤ 0 →
    l0Loop solve S.length m.vs.length S R x0 lambda (XR.fin bmax) fuel alpha (XR.fin beta) x m = .err .diverge := by
  intro fuel
  induction fuel with
  | zero => intro alpha beta x hb; rfl
  | succ n ih =>
    intro alpha beta x hb
    obtain ⟨x1, h1⟩ := l0Round_any wf hS solve R x0 x lambda alpha (XR.fin beta)
    unfold l0Loop
    rw [if_pos (by rw [X_lt, R_lt]; simpa using lt_of_le_of_lt hb hm), bind_apply, h1]
    dsimp only
    rw [X_sqrt2, X_mul]
    exact ih _ _ _ (mul_nonpos_of_nonpos_of_nonneg hb (Real.sqrt_nonneg 2))

/-- everything before the smoothing -/
theorem l0_start (wf : m.WF) (A : m.AtE p) (hne : m.hes ≠ []) {order : List Nat → List Nat} (ho : ∀ l, (order l).Perm l) :
    ∃ (S : List Nat) (R : Nat → Nat → XR) (x0 : Nat → Vec3 XR), m.OnePerEdge S ∧
      (∀ (e : Fin S.length) (j : Fin m.vs.length), R e j = XR.fin (m.quadMat S (fun _ => (1, -1, 1, -1)) e j)) ∧
      (∀ (i v : Nat), m.vs[i]? = some v → x0 i = m.vPos v) ∧ RowsAt m x0 p ∧
      ∀ solve fuel (alpha beta : ℝ), denoiseL0Smooth solve order fuel (XR.fin alpha) (XR.fin beta) m =
        (smoothTaubinDefault >>= fun _ => l0Loop solve S.length m.vs.length S R x0
          (XR.fin (2 / 100 * m.meanLen p * m.meanLen p * m.meanAngle p)) (XR.fin (1000 * m.meanLen p)) fuel
          (XR.fin (alpha * m.meanLen p)) (XR.fin (beta * m.meanLen p)) x0 >>= fun x => putRows x (List.range m.vs.length)) m := by
  obtain ⟨S0, e, nd, q, -, r⟩ := wf.numEdgesLoop_ok m.hes [] (fun h hh => (wf.hDense.mem h).1 hh) List.nodup_nil (by simp)
  have pm := ho S0
  have o : m.OnePerEdge (order S0) := by
    refine ⟨pm.nodup_iff.2 nd, fun h hh => (q h (pm.mem_iff.1 hh)).1, fun h hh c => (q h (pm.mem_iff.1 hh)).2 (pm.mem_iff.1 c), fun h a => ?_⟩
    rcases r h ((wf.hDense.mem h).2 a) with h1 | h1
    · exact Or.inl (pm.mem_iff.2 h1)
    · exact Or.inr (pm.mem_iff.2 h1)
  obtain ⟨ts, R, h1, h2, hR⟩ := quadMat_ok wf o.alive (c := fun _ => (1, -1, 1, -1)) (row := l0RowR (order S0)) fun e h he =>
    l0RowR_ok wf he (o.alive _ (List.mem_of_getElem? he))
  have hps := posRows_ok wf (List.range m.vs.length) (by simp)
  have hx0 : ∀ (i v : Nat), m.vs[i]? = some v → (((List.range m.vs.length).map fun i => m.vPos (m.vs.getD i 0))[i]?).getD Vec3.zero = m.vPos v := by
    intro i v hv
    obtain ⟨hi, -⟩ := List.getElem?_eq_some_iff.1 hv
    rw [List.getElem?_map, List.getElem?_range hi, Option.map_some, Option.getD_some, List.getD_eq_getElem?_getD, hv, Option.getD_some]
  refine ⟨order S0, R, fun i => (((List.range m.vs.length).map fun i => m.vPos (m.vs.getD i 0))[i]?).getD Vec3.zero, o, hR, hx0,
    fun i v hv => by dsimp only; rw [hx0 i v hv]; exact A v (wf.vDense.alive_at hv), fun solve fuel alpha beta => ?_⟩
  have hn : numEdges m = .ok S0.length m := by
    unfold numEdges
    rw [bind_apply, read_apply]; dsimp only
    rw [bind_apply, e]; rfl
  have l1 : (Scalar.lit 1000 1 : XR) = XR.fin 1000 := by rw [X_lit, R_lit]; norm_num
  have l2 : (Scalar.lit 2 100 : XR) = XR.fin (2 / 100) := by rw [X_lit, R_lit]; norm_num
  unfold denoiseL0Smooth
  rw [bind_apply, hn]; dsimp only
  rw [bind_apply, read_apply]; dsimp only
  rw [bind_apply, meanEdgeLength_exact wf A hne]; dsimp only
  rw [bind_apply, meanDihedralAngle_exact wf A hne]; dsimp only
  rw [bind_apply, read_apply]; dsimp only
  rw [bind_apply, e]; dsimp only
  rw [if_neg (by rw [pm.length_eq]; simp), ← pm.length_eq, bind_apply, h1]; dsimp only
  rw [bind_apply, h2]; dsimp only
  rw [bind_apply, hps]; dsimp only
  rw [l1, l2]
  simp only [X_mul]
  rfl

end
end TinyMesh
