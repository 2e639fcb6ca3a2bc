import Verif.Proof.CurvJ
/-
Derivatives of the curvatures.
-/
namespace TinyMesh
open Orbit

/-- the outcome of `principal` for a real tensor and axes of which the normal is independent -/
theorem principal_gen (t : VertTensor) (hx : ∀ x y : ℝ, x * x + y * y = 1 → (t.n.cross ((t.u.smul x).add (t.v.smul y))).E ≠ 0) :
    ∃ k : VertCurv, principal t.row.1 t.row.2.u t.row.2.v t.row.2.n = .ok k.row ∧ t.HasCurv k := by
  obtain ⟨c, s, q, hj, hc, hct, hs, hb⟩ := jacobi_ok ⟨t.a, t.b, t.b, t.c⟩
  dsimp only at hb
  have small : ∀ kmin kmax : ℝ, kmin ≤ kmax →
      (Scalar.lt |kmin - kmax| (Scalar.lit 1 (10 ^ 6) : ℝ) = true ↔ kmax - kmin < 1 / 10 ^ 6) := by
    intro kmin kmax hk
    have e : |kmin - kmax| = kmax - kmin := by rw [abs_sub_comm]; exact abs_of_nonneg (by linarith)
    rw [R_lt, e, R_lit]
    norm_num
  have hcr : ∀ x : Vec3 ℝ, triNormal 0 t.n.E x.E = (t.n.cross x).E := fun x => by
    rw [← E_zero, triNormal_E]
    congr 1
    apply Vec3.ext' <;> simp [Vec3.cross_def, Vec3.sub_def, Vec3.zero_def]
  have e1 : q * c * (q * c) + c * c = 1 := by linear_combination hct
  -- given the order of the values and the direction, the result follows
  have fin : ∀ (kmax kmin x y : ℝ), kmin ≤ kmax → kmax + kmin = t.a + t.c → kmax * kmin = t.a * t.c - t.b * t.b → x * x + y * y = 1 →
      Mat2.Eigen ⟨t.a, t.b, t.b, t.c⟩ kmin x y →
      (principal t.row.1 t.row.2.u t.row.2.v t.row.2.n =
        match ((t.n.fin).cross ((t.u.smul x).add (t.v.smul y)).fin).normalize? with
        | none => .error .throw
        | some tmin => if Scalar.lt (ScalarX.abs (.fin kmin - .fin kmax : XR)) (Scalar.lit 1 (10 ^ 6)) then
          .ok ⟨.fin kmax, .fin kmin, Vec3.zero, Vec3.zero⟩ else .ok ⟨.fin kmax, .fin kmin, ((t.u.smul x).add (t.v.smul y)).fin, tmin⟩) →
      ∃ k : VertCurv, principal t.row.1 t.row.2.u t.row.2.v t.row.2.n = .ok k.row ∧ t.HasCurv k := by
    intro kmax kmin x y ho hsum hprod hxy he e
    obtain ⟨tm, e2, tm', rfl, e3⟩ := Vec3.Is.normalize (a := (t.n.cross ((t.u.smul x).add (t.v.smul y))).fin) ⟨_, rfl, rfl⟩ (hx x y hxy)
    rw [Vec3.X_vcross, e2] at e
    dsimp only at e
    rw [X_sub, X_abs, X_lit, X_lt] at e
    by_cases hk : kmax - kmin < 1 / 10 ^ 6
    · rw [if_pos ((small _ _ ho).2 hk)] at e
      refine ⟨⟨kmax, kmin, Vec3.zero, Vec3.zero⟩, e, ho, hsum, hprod, fun _ => ⟨E_zero, E_zero⟩, fun h => absurd hk (not_lt.2 h)⟩
    · rw [if_neg (fun g => hk ((small _ _ ho).1 g))] at e
      refine ⟨⟨kmax, kmin, (t.u.smul x).add (t.v.smul y), tm'⟩, e, ho, hsum, hprod, fun h => absurd h hk, fun _ => ⟨x, y, hxy, he, ?_, ?_⟩⟩
      · rw [Vec3.E_add, Vec3.E_smul, Vec3.E_smul]
      · rw [e3, hcr]
  have hj' : jacobi t.row.1 = (.fin c, .fin s, .fin q) := hj
  by_cases hk : t.a - q * t.b < t.c + q * t.b
  · refine fin (t.c + q * t.b) (t.a - q * t.b) c (-s) hk.le (by ring) (by linear_combination t.b * hb) (by rw [hs]; linear_combination e1)
      ⟨Or.inl hc.ne', by rw [hs]; dsimp only; ring, by rw [hs]; dsimp only; linear_combination c * hb⟩ ?_
    have e : (t.u.smul c).sub (t.v.smul s) = (t.u.smul c).add (t.v.smul (-s)) := by
      simp only [Vec3.sub_def, Vec3.add_def, Vec3.smul_def, Vec3.mk.injEq]
      refine ⟨?_, ?_, ?_⟩ <;> ring
    unfold principal
    rw [hj']
    simp only [VertTensor.row, X_mul, X_sub, X_add, X_lt, (R_lt _ _).2 hk, if_true, Vec3.X_vsmul, Vec3.X_vsub, e]
    cases ((t.n.fin).cross ((t.u.smul c).add (t.v.smul (-s))).fin).normalize? <;> rfl
  · refine fin (t.a - q * t.b) (t.c + q * t.b) s c (not_lt.1 hk) (by ring) (by linear_combination t.b * hb) (by rw [hs]; linear_combination e1)
      ⟨Or.inr hc.ne', by rw [hs]; dsimp only; linear_combination c * hb, by rw [hs]; dsimp only; ring⟩ ?_
    unfold principal
    rw [hj']
    simp only [VertTensor.row, X_mul, X_sub, X_add, X_lt, (R_lt' _ _).2 (not_lt.1 hk), Bool.false_eq_true, if_false, Vec3.X_vsmul, Vec3.X_vadd]
    cases ((t.n.fin).cross ((t.u.smul s).add (t.v.smul c)).fin).normalize? <;> rfl

theorem thirdForm_on (u v x y z : E3) (a b c d : ℝ) :
    thirdForm (⟨.fin a, .fin b, .fin c, .fin d⟩ : Cubic XR) (.fin (inner ℝ x u), .fin (inner ℝ x v)) (.fin (inner ℝ y u), .fin (inner ℝ y v))
      (.fin (inner ℝ z u), .fin (inner ℝ z v)) = .fin (cubicOn u v a b c d x y z) := by
  unfold thirdForm cubicOn
  simp only [X_lit, R_lit0, X_mul, X_add, XR.fin.injEq]
  ring

theorem cornerForm_ok {u v n N : Vec3 ℝ} {k : VertCurv} (hn : ‖n.E‖ = 1) (hN : ‖N.E‖ = 1) (ho : N.E ≠ -n.E) :
    ∃ Q : E3 → E3, TurnsTo n.E N.E Q ∧ cornerForm (⟨u.fin, v.fin, n.fin⟩ : LFrame XR) k.row N.fin = some (fin3 (k.corner Q u.E v.E)) := by
  obtain ⟨Q, h1, h2⟩ := turned_ok (u := u) (v := v) (u' := k.tMax) (v' := k.tMin) hn hN ho
  refine ⟨Q, h1, ?_⟩
  have key : cornerForm (⟨u.fin, v.fin, n.fin⟩ : LFrame XR) k.row N.fin =
      (turned (⟨u.fin, v.fin, n.fin⟩ : LFrame XR) ⟨k.tMax.fin, k.tMin.fin, N.fin⟩).map fun e =>
        (secondForm ⟨k.row.kMax, Scalar.lit 0 1, Scalar.lit 0 1, k.row.kMin⟩ e.1 e.1,
          secondForm ⟨k.row.kMax, Scalar.lit 0 1, Scalar.lit 0 1, k.row.kMin⟩ e.1 e.2,
          secondForm ⟨k.row.kMax, Scalar.lit 0 1, Scalar.lit 0 1, k.row.kMin⟩ e.2 e.2) := by
    unfold cornerForm turned
    dsimp only
    cases rotTwo n.fin N.fin <;> rfl
  rw [key, h2, Option.map_some, lit_zero]
  unfold fin3 VertCurv.corner VertCurv.form VertCurv.row secondForm formOn
  simp only [X_mul, X_add, Option.some.injEq, Prod.mk.injEq, XR.fin.injEq]
  refine ⟨?_, ?_, ?_⟩ <;> ring

section
variable {m : Mesh XR} {p : Nat → E3}

/-- the outcome for one face -/
def CubicOut (m : Mesh XR) (p : Nat → E3) (K : Nat → VertCurv) (f : Nat) (r : Cubic XR × LFrame XR) : Prop :=
  ∃ (u v n : Vec3 ℝ) (a b c d : ℝ), r = (⟨.fin a, .fin b, .fin c, .fin d⟩, ⟨u.fin, v.fin, n.fin⟩) ∧ ‖n.E‖ = 1 ∧ n.E = unitOf (m.areaVec p f) ∧
    m.FaceCubic p K f (cubicOn u.E v.E a b c d)

theorem krows_at {K : Nat → VertCurv} {i v : Nat} (hi : m.vs[i]? = some v) : (m.vs.map fun v => (K v).row)[i]? = some (K v).row := by
  rw [List.getElem?_map, hi]
  rfl

theorem derivFace_exact (G : m.Good) {solve : LinSolve XR} (hS : solve.Exact) (A : m.AtE p) (C : m.CurvProper p) {T : Nat → VertTensor}
    {K : Nat → VertCurv} (hT : ∀ v, m.vAlive v = true → (T v).n.E = m.vNormal p v) {i f : Nat} (hi : m.fs[i]? = some f) :
    ∃ r, derivFace solve (m.vs.map fun v => (K v).row) (m.vs.map fun v => (T v).row) i m = .ok r m ∧ CubicOut m p K f r := by
  have w := G.wf
  have a := w.fDense.alive_at hi
  obtain ⟨b, ef⟩ := w.fHe_ok _ a
  have b1 := w.next_alive _ b
  have b2 := w.next_alive _ b1
  have a0 := w.src_alive _ b
  have a1 := w.src_alive _ b1
  have a2 := w.src_alive _ b2
  obtain ⟨i0, h0⟩ := w.vDense.exists_at a0
  obtain ⟨i1, h1⟩ := w.vDense.exists_at a1
  obtain ⟨i2, h2⟩ := w.vDense.exists_at a2
  obtain ⟨u, v, n, er, hf, hn, -, hd⟩ := faceFrame_ok (A _ a0) (A _ a1) (A _ a2) (C.closed _ b).2
  have hn' : n.E = unitOf (m.areaVec p f) := hn
  have nn : ‖n.E‖ = 1 := hf.on.1 2
  have corner : ∀ h, m.hAlive h = true → m.hFace h = f → ∃ Q : E3 → E3, TurnsTo n.E (T (m.hSrc h)).n.E Q ∧
      cornerForm (⟨u.fin, v.fin, n.fin⟩ : LFrame XR) (K (m.hSrc h)).row (T (m.hSrc h)).n.fin = some (fin3 ((K (m.hSrc h)).corner Q u.E v.E)) := by
    intro h ah fh
    have av := w.src_alive _ ah
    refine cornerForm_ok nn (by rw [hT _ av]; exact unit_norm (C.normal _ av)) ?_
    rw [hT _ av, hn']
    intro e
    have := C.turn h ah
    rw [fh] at this
    exact this (by rw [e, neg_neg])
  obtain ⟨Q0, t0, c0⟩ := corner _ b ef
  obtain ⟨Q1, t1, c1⟩ := corner _ b1 (by rw [w.face_next _ b, ef])
  obtain ⟨Q2, t2, c2⟩ := corner _ b2 (by rw [w.face_next _ b1, w.face_next _ b, ef])
  obtain ⟨x, y, z, k, et, fit⟩ := faceDeriv_fit (n := n) hS (A _ a0) (A _ a1) (A _ a2) hd.ne'
    ((K (m.hSrc (m.fHe f))).corner Q0 u.E v.E) ((K (m.hSrc (m.hNext (m.fHe f)))).corner Q1 u.E v.E)
    ((K (m.hSrc (m.hNext (m.hNext (m.fHe f))))).corner Q2 u.E v.E)
  refine ⟨_, ?_, u, v, n, x, y, z, k, rfl, nn, hn', Q0, Q1, Q2, u.E, v.E, x, y, z, k, by rw [← hn']; exact hf.on, rfl, ?_, ?_, ?_, fit⟩
  · unfold derivFace
    rw [bind_apply, faceAt_get hi]; dsimp only
    rw [bind_apply, triVerts_ok G a (C.closed _ b).1]; dsimp only
    rw [bind_apply, getPos_ok a0]; dsimp only
    rw [bind_apply, getPos_ok a1]; dsimp only
    rw [bind_apply, getPos_ok a2]; dsimp only
    rw [bind_apply, getVIdx_ok a0, w.vDense.idx_of h0]; dsimp only
    rw [bind_apply, getVIdx_ok a1, w.vDense.idx_of h1]; dsimp only
    rw [bind_apply, getVIdx_ok a2, w.vDense.idx_of h2]; dsimp only
    rw [er, bind_apply, orThrowM]
    change (atIdx _ _ >>= _) m = _
    rw [bind_apply, atIdx_ok (krows_at h0)]; dsimp only
    rw [bind_apply, atIdx_ok (rows_at h0)]; dsimp only
    rw [show (T (m.hSrc (m.fHe f))).row.2.n = (T (m.hSrc (m.fHe f))).n.fin from rfl, c0, bind_apply, orThrowM]
    change (atIdx _ _ >>= _) m = _
    rw [bind_apply, atIdx_ok (krows_at h1)]; dsimp only
    rw [bind_apply, atIdx_ok (rows_at h1)]; dsimp only
    rw [show (T (m.hSrc (m.hNext (m.fHe f)))).row.2.n = (T (m.hSrc (m.hNext (m.fHe f)))).n.fin from rfl, c1, bind_apply, orThrowM]
    change (atIdx _ _ >>= _) m = _
    rw [bind_apply, atIdx_ok (krows_at h2)]; dsimp only
    rw [bind_apply, atIdx_ok (rows_at h2)]; dsimp only
    rw [show (T (m.hSrc (m.hNext (m.hNext (m.fHe f))))).row.2.n = (T (m.hSrc (m.hNext (m.hNext (m.fHe f))))).n.fin from rfl, c2, bind_apply, orThrowM]
    change Out.ok (faceDeriv solve _ _ _ _ _ _ _, _) m = _
    rw [et]
  · rw [← hn', ← hT _ a0]; exact t0
  · rw [← hn', ← hT _ a1]; exact t1
  · rw [← hn', ← hT _ a2]; exact t2

theorem derivVertLoop_exact (w : m.WF) {faces : List (Cubic XR × LFrame XR)} {fr : LFrame XR} {v : Nat} {W X Y Z V : Nat → ℝ} :
    ∀ (l : List Nat) (a b c d s : ℝ), (∀ h ∈ l, m.hAlive h = true ∧ ∃ T ff x y, (∀ i : Nat, m.fs[i]? = some (m.hFace h) → faces[i]? = some (T, ff)) ∧
        turned fr ff = some (x, y) ∧ T.pull x y = ⟨.fin (X h), .fin (Y h), .fin (Z h), .fin (V h)⟩ ∧
        vorFace v (m.hFace h) m = .ok (.fin (W h)) m) →
      derivVertLoop faces fr v (l.map m.hFace) ⟨.fin a, .fin b, .fin c, .fin d⟩ (.fin s) m =
        .ok (⟨.fin (a + (l.map fun h => W h * X h).sum), .fin (b + (l.map fun h => W h * Y h).sum), .fin (c + (l.map fun h => W h * Z h).sum),
          .fin (d + (l.map fun h => W h * V h).sum)⟩, .fin (s + (l.map W).sum)) m := by
  intro l
  induction l with
  | nil => intro a b c d s _; simp [derivVertLoop]
  | cons h l ih =>
    intro a b c d s hl
    obtain ⟨ah, T, ff, x, y, h1, h2, h3, h4⟩ := hl h (by simp)
    have af := w.face_alive _ ah
    obtain ⟨i, hi⟩ := w.fDense.exists_at af
    rw [List.map_cons, derivVertLoop, bind_apply, getFIdx_ok af, w.fDense.idx_of hi]; dsimp only
    rw [bind_apply, atIdx_ok (h1 i hi)]; dsimp only
    rw [h2, bind_apply]
    change (vorFace v (m.hFace h) >>= _) m = _
    rw [bind_apply, h4]; dsimp only
    rw [h3]
    unfold Cubic.add Cubic.scale
    simp only [X_mul, X_add]
    rw [ih _ _ _ _ _ fun z hz => hl z (by simp [hz])]
    simp only [List.map_cons, List.sum_cons, add_assoc]

theorem derivVert_exact (G : m.Good) (A : m.AtE p) (C : m.CurvProper p) {T : Nat → VertTensor} {K : Nat → VertCurv}
    (hT : ∀ v, m.vAlive v = true → (T v).n.E = m.vNormal p v) {faces : List (Cubic XR × LFrame XR)}
    (hF : ∀ i f : Nat, m.fs[i]? = some f → ∃ r, faces[i]? = some r ∧ CubicOut m p K f r) {i v : Nat} (hi : m.vs[i]? = some v) :
    ∃ e : ℝ × ℝ, derivVert (m.vs.map fun v => (K v).row) (m.vs.map fun v => (T v).row) faces i m = .ok (.fin e.1, .fin e.2) m ∧
      m.DerivAt p T K v e := by
  classical
  have w := G.wf
  have a := w.vDense.alive_at hi
  have nn1 : ‖(T v).n.E‖ = 1 := by rw [hT v a]; exact unit_norm (C.normal v a)
  have data : ∀ h, m.hAlive h = true ∧ m.hSrc h = v → ∃ (D : Cubic XR) (ff : LFrame XR) (x y : XR × XR) (B : E3 → E3 → E3 → ℝ) (Q : E3 → E3),
      (∀ i : Nat, m.fs[i]? = some (m.hFace h) → faces[i]? = some (D, ff)) ∧ turned (T v).row.2 ff = some (x, y) ∧
      D.pull x y = ⟨.fin (B (Q (T v).u.E) (Q (T v).u.E) (Q (T v).u.E)), .fin (B (Q (T v).u.E) (Q (T v).u.E) (Q (T v).v.E)),
        .fin (B (Q (T v).u.E) (Q (T v).v.E) (Q (T v).v.E)), .fin (B (Q (T v).v.E) (Q (T v).v.E) (Q (T v).v.E))⟩ ∧
      m.FaceCubic p K (m.hFace h) B ∧ TurnsTo (T v).n.E (unitOf (m.areaVec p (m.hFace h))) Q := by
    intro h ⟨ah, sh⟩
    have af := w.face_alive _ ah
    obtain ⟨j, hj⟩ := w.fDense.exists_at af
    obtain ⟨r, er, u1, v1, n1, x, y, z, k, rfl, n1n, hn', fit⟩ := hF j _ hj
    obtain ⟨Q, hQ, ht⟩ := turned_ok (u := (T v).u) (v := (T v).v) (u' := u1) (v' := v1) nn1 n1n (by rw [hn', hT v a, ← sh]; exact C.turn h ah)
    refine ⟨⟨.fin x, .fin y, .fin z, .fin k⟩, ⟨u1.fin, v1.fin, n1.fin⟩, _, _, cubicOn u1.E v1.E x y z k, Q, ?_, ht, ?_, fit, ?_⟩
    · intro i' hi'
      have : i' = j := by
        have h1 := w.fDense.idx_of hi'
        have h2 := w.fDense.idx_of hj
        omega
      rw [this, er]
    · unfold Cubic.pull
      rw [thirdForm_on, thirdForm_on, thirdForm_on, thirdForm_on]
    · rw [← hn']; exact hQ
  haveI : Inhabited XR := ⟨.fin 0⟩
  haveI : Inhabited (Cubic XR) := ⟨Cubic.zero⟩
  haveI : Inhabited (LFrame XR) := ⟨⟨Vec3.zero, Vec3.zero, Vec3.zero⟩⟩
  choose! D ff x y B Q d1 d2 d3 d4 d5 using data
  have mem : ∀ h ∈ orbit m.sig (m.vHe v), m.hAlive h = true ∧ m.hSrc h = v := fun h hh => (w.mem_ring a).1 hh
  have hloop := derivVertLoop_exact (faces := faces) (fr := (T v).row.2) (v := v) w (W := fun h => m.cornerMix p h)
    (X := fun h => B h (Q h (T v).u.E) (Q h (T v).u.E) (Q h (T v).u.E)) (Y := fun h => B h (Q h (T v).u.E) (Q h (T v).u.E) (Q h (T v).v.E))
    (Z := fun h => B h (Q h (T v).u.E) (Q h (T v).v.E) (Q h (T v).v.E)) (V := fun h => B h (Q h (T v).v.E) (Q h (T v).v.E) (Q h (T v).v.E))
    (orbit m.sig (m.vHe v)) 0 0 0 0 0 (fun h hh => ⟨(mem h hh).1, D h, ff h, x h, y h, d1 h (mem h hh), d2 h (mem h hh), d3 h (mem h hh), by
      obtain ⟨ah, sh⟩ := mem h hh
      have := G.vorFace_ok ah (C.closed h ah).1
      rw [vorCorner_exact (A _ (w.src_alive _ ah)) (A _ (w.src_alive _ (w.next_alive _ ah)))
        (A _ (w.src_alive _ (w.next_alive _ (w.next_alive _ ah))))] at this
      rw [sh] at this
      rw [this, Mesh.cornerMix, sh]⟩)
  have hS : ((orbit m.sig (m.vHe v)).map fun h => m.cornerMix p h).sum = m.mixedSum p v := by
    unfold Mesh.mixedSum
    rw [← w.outs_sum a fun h => m.cornerMix p h]
    congr 1
    apply List.map_congr_left
    intro h hh
    obtain ⟨-, sh⟩ := mem h ((w.ring_perm a).mem_iff.2 hh)
    rw [Mesh.cornerMix, sh]
  have hpos := m.mixedSum_pos w a fun h ah _ => (C.closed h ah).2
  refine ⟨(_, _), ?_, B, Q, fun h ah sh => ⟨d4 h ⟨ah, sh⟩, d5 h ⟨ah, sh⟩⟩, _, _, _, _, rfl, rfl, rfl, rfl, rfl, rfl⟩
  unfold derivVert
  rw [bind_apply, vertexAt_ok hi]; dsimp only
  rw [bind_apply, atIdx_ok (rows_at hi)]; dsimp only
  rw [bind_apply, w.vertFaces_ok a]; dsimp only
  change (derivVertLoop faces _ v _ ⟨Scalar.lit 0 1, Scalar.lit 0 1, Scalar.lit 0 1, Scalar.lit 0 1⟩ (Scalar.lit 0 1) >>= _) m = _
  rw [lit_zero, bind_apply, hloop]; dsimp only
  rw [hS]
  simp only [zero_add, Cubic.divS]
  rw [bind_apply, atIdx_ok (krows_at hi)]; dsimp only
  rw [X_div _ hpos.ne', X_div _ hpos.ne', X_div _ hpos.ne', X_div _ hpos.ne', ← w.outs_sum a, ← w.outs_sum a, ← w.outs_sum a, ← w.outs_sum a]
  unfold coords2
  rw [show (K v).row.tMax = (K v).tMax.fin from rfl, show (K v).row.tMin = (K v).tMin.fin from rfl, show (T v).row.2.u = (T v).u.fin from rfl,
    show (T v).row.2.v = (T v).v.fin from rfl, Vec3.X_vdot, Vec3.X_vdot, Vec3.X_vdot, Vec3.X_vdot, ← Vec3.E_inner, ← Vec3.E_inner,
    ← Vec3.E_inner, ← Vec3.E_inner, thirdForm_on, thirdForm_on]
  rfl

end
end TinyMesh
