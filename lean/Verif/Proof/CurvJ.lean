import Verif.Proof.CurvH
import Verif.Spec.Deriv
/-
Smoothing of the tensors.
-/
namespace TinyMesh
open Orbit

theorem TurnsTo.keeps {n n' : E3} {Q : E3 → E3} (h : TurnsTo n n' Q) (x y : E3) : inner ℝ (Q x) (Q y) = inner ℝ x y := by
  rcases lt_or_ge (InnerProductGeometry.angle n n') (1 / 10 ^ 12) with c | c
  · rw [h.1 c, h.1 c]
  · obtain ⟨-, A, hA, hq⟩ := h.2 c
    exact rotation_inner hA (hq x) (hq y)

theorem TurnsTo.norm {n n' : E3} {Q : E3 → E3} (h : TurnsTo n n' Q) (x : E3) : ‖Q x‖ = ‖x‖ := by
  have := h.keeps x x
  rw [real_inner_self_eq_norm_sq, real_inner_self_eq_norm_sq] at this
  exact (sq_eq_sq₀ (norm_nonneg _) (norm_nonneg _)).1 this

theorem TurnsTo.linear {n n' : E3} {Q : E3 → E3} (h : TurnsTo n n' Q) (x y : E3) (s t : ℝ) : Q (s • x + t • y) = s • Q x + t • Q y := by
  rcases lt_or_ge (InnerProductGeometry.angle n n') (1 / 10 ^ 12) with c | c
  · rw [h.1 c, h.1 c, h.1 c]
  · obtain ⟨-, A, hA, hq⟩ := h.2 c
    apply (WithLp.equiv 2 _).injective
    change (Q (s • x + t • y)).ofLp = (s • Q x + t • Q y).ofLp
    rw [hq]
    simp only [WithLp.ofLp_add, WithLp.ofLp_smul, hq, Matrix.mulVec_add, Matrix.mulVec_smul]

/-- the turned and normalised axes in exact arithmetic -/
theorem turnedUnit_ok {u v n u' v' n' : Vec3 ℝ} (hu : ‖u.E‖ = 1) (hv : ‖v.E‖ = 1) (hn : ‖n.E‖ = 1) (hn' : ‖n'.E‖ = 1) (ho : n'.E ≠ -n.E) :
    ∃ Q : E3 → E3, TurnsTo n.E n'.E Q ∧ turnedUnit (⟨u.fin, v.fin, n.fin⟩ : LFrame XR) ⟨u'.fin, v'.fin, n'.fin⟩ =
      some ((.fin (inner ℝ (Q u.E) u'.E), .fin (inner ℝ (Q u.E) v'.E)), (.fin (inner ℝ (Q v.E) u'.E), .fin (inner ℝ (Q v.E) v'.E))) := by
  have unit : ∀ (z : Vec3 ℝ), ‖z.E‖ = 1 → (z.fin).normalize? = some z.fin := by
    intro z hz
    obtain ⟨t, e1, t', rfl, e2⟩ := Vec3.Is.normalize (a := z.fin) (x := z.E) ⟨z, rfl, rfl⟩ (by rw [← norm_ne_zero_iff, hz]; exact one_ne_zero)
    rw [unitOf, hz, inv_one, one_smul] at e2
    rw [e1, Vec3.E_inj.1 e2]
  have go : ∀ (R : Mat3 XR) (A : Matrix (Fin 3) (Fin 3) ℝ), rotTwo n.fin n'.fin = some R → R.Is A →
      (∀ x : E3, ‖(WithLp.toLp 2 (A.mulVec x.ofLp) : E3)‖ = ‖x‖) →
      turnedUnit (⟨u.fin, v.fin, n.fin⟩ : LFrame XR) ⟨u'.fin, v'.fin, n'.fin⟩ =
      some ((.fin (inner ℝ (WithLp.toLp 2 (A.mulVec u.E.ofLp) : E3) u'.E), .fin (inner ℝ (WithLp.toLp 2 (A.mulVec u.E.ofLp) : E3) v'.E)),
        (.fin (inner ℝ (WithLp.toLp 2 (A.mulVec v.E.ofLp) : E3) u'.E), .fin (inner ℝ (WithLp.toLp 2 (A.mulVec v.E.ofLp) : E3) v'.E))) := by
    intro R A hR hA hN
    obtain ⟨x, ex, hx⟩ := hA.apply u
    obtain ⟨y, ey, hy⟩ := hA.apply v
    have nx : ‖x.E‖ = 1 := by
      have := hN u.E
      rw [← hx, hu] at this
      exact this
    have ny : ‖y.E‖ = 1 := by
      have := hN v.E
      rw [← hy, hv] at this
      exact this
    unfold turnedUnit coords2
    dsimp only
    rw [hR]
    change ((R.apply u.fin).normalize? >>= fun x => (R.apply v.fin).normalize? >>= fun y => some _) = _
    rw [ex, ey, unit x nx, unit y ny]
    change some _ = _
    rw [← hx, ← hy, Vec3.X_vdot, Vec3.X_vdot, Vec3.X_vdot, Vec3.X_vdot]
    simp only [WithLp.toLp_ofLp, Vec3.E_inner]
  rcases lt_or_ge (InnerProductGeometry.angle n.E n'.E) (1 / 10 ^ 12) with h | h
  · obtain ⟨R, hR, hA, -⟩ := c39_close n n' hn hn' h
    refine ⟨id, ⟨fun _ x => rfl, fun h' => absurd h (not_lt.2 h')⟩, ?_⟩
    rw [go R 1 hR hA (fun x => by rw [Matrix.one_mulVec])]
    simp
  · obtain ⟨R, A, hR, hA, hS, hm⟩ := c39_rotation_partial n n' hn hn' ho h
    have T : TurnsTo n.E n'.E fun x => WithLp.toLp 2 (A.mulVec x.ofLp) :=
      ⟨fun h' => absurd h' (not_lt.2 h), fun _ => ⟨by dsimp only; rw [hm], A, hS, fun x => rfl⟩⟩
    exact ⟨_, T, go R A hR hA T.norm⟩

theorem pullBack'_form (u v x y : E3) (a b c : ℝ) :
    pullBack' (⟨.fin a, .fin b, .fin b, .fin c⟩ : Mat2 XR) (.fin (inner ℝ x u), .fin (inner ℝ x v)) (.fin (inner ℝ y u), .fin (inner ℝ y v)) =
      ⟨.fin (formOn u v a b c x x), .fin (formOn u v a b c x y), .fin (formOn u v a b c x y), .fin (formOn u v a b c y y)⟩ := by
  unfold pullBack' formOn
  simp only [X_mul, X_add, Mat2.mk.injEq, XR.fin.injEq]
  refine ⟨?_, ?_, ?_, ?_⟩ <;> ring

section
variable {m : Mesh XR} {p : Nat → E3}

theorem rows_at {T : Nat → VertTensor} {i v : Nat} (hi : m.vs[i]? = some v) : (m.vs.map fun v => (T v).row)[i]? = some (T v).row := by
  rw [List.getElem?_map, hi]
  rfl

theorem smoothTensorLoop_exact (w : m.WF) (A : m.AtE p) {T : Nat → VertTensor} (hs : m.meanLen p ≠ 0) {v : Nat} (a : m.vAlive v = true)
    {fr : LFrame XR} {X Y Z : Nat → ℝ} : ∀ (l : List Nat) (x y y' z s : ℝ), (∀ h ∈ l, m.hAlive h = true ∧ m.hSrc h = v ∧
        ∃ e f, turnedUnit fr (T (m.hSrc (m.hNext h))).row.2 = some (e, f) ∧
          pullBack' (T (m.hSrc (m.hNext h))).row.1 e f = ⟨.fin (X h), .fin (Y h), .fin (Y h), .fin (Z h)⟩) →
      smoothTensorLoop (m.vs.map fun v => (T v).row) (.fin (m.meanLen p)) fr v (l.map fun h => m.hSrc (m.hNext h)) ⟨.fin x, .fin y, .fin y', .fin z⟩ (.fin s) m =
        .ok (⟨.fin (x + (l.map fun h => m.nearWeight p h * X h).sum), .fin (y + (l.map fun h => m.nearWeight p h * Y h).sum),
          .fin (y' + (l.map fun h => m.nearWeight p h * Y h).sum), .fin (z + (l.map fun h => m.nearWeight p h * Z h).sum)⟩,
          .fin (s + (l.map (m.nearWeight p)).sum)) m := by
  intro l
  induction l with
  | nil => intro x y y' z s _; simp [smoothTensorLoop]
  | cons h l ih =>
    intro x y y' z s hl
    obtain ⟨ah, sh, e, f, h1, h2⟩ := hl h (by simp)
    have au := w.src_alive _ (w.next_alive _ ah)
    obtain ⟨i, hi⟩ := w.vDense.exists_at au
    have hw : Real.exp (-(1 / 2) * (‖p v - p (m.hSrc (m.hNext h))‖ / m.meanLen p) ^ 2) = m.nearWeight p h := by
      unfold Mesh.nearWeight
      rw [sh]
    rw [List.map_cons, smoothTensorLoop, bind_apply, getPos_ok a]; dsimp only
    rw [bind_apply, getPos_ok au]; dsimp only
    rw [bind_apply, getVIdx_ok au, w.vDense.idx_of hi]; dsimp only
    rw [bind_apply, atIdx_ok (rows_at hi), gaussW_exact (A v a) (A _ au) hs, hw]; dsimp only
    rw [h1, bind_apply]
    change smoothTensorLoop _ _ _ _ _ _ _ m = _
    rw [h2]
    unfold Mat2.add Mat2.scale
    simp only [X_mul, X_add]
    rw [ih _ _ _ _ _ fun z hz => hl z (by simp [hz])]
    simp only [List.map_cons, List.sum_cons, add_assoc]

theorem nearWeight_sum_pos (v : Nat) : 0 < 1 + ((m.outs v).map (m.nearWeight p)).sum := by
  have : 0 ≤ ((m.outs v).map (m.nearWeight p)).sum := List.sum_nonneg fun y hy => by
    obtain ⟨z, -, rfl⟩ := List.mem_map.1 hy
    exact (Real.exp_pos _).le
  linarith

theorem smoothTensor_exact (w : m.WF) (A : m.AtE p) {T : Nat → VertTensor} (hs : m.meanLen p ≠ 0)
    (unit : ∀ v, m.vAlive v = true → ‖(T v).u.E‖ = 1 ∧ ‖(T v).v.E‖ = 1 ∧ ‖(T v).n.E‖ = 1)
    (opp : ∀ h, m.hAlive h = true → (T (m.hSrc (m.hNext h))).n.E ≠ -(T (m.hSrc h)).n.E) {i v : Nat} (hi : m.vs[i]? = some v) :
    ∃ t : VertTensor, smoothTensor (m.vs.map fun v => (T v).row) (.fin (m.meanLen p)) i m = .ok t.row m ∧ m.SmoothedAt p T v t := by
  classical
  have a := w.vDense.alive_at hi
  have data : ∀ h, m.hAlive h = true ∧ m.hSrc h = v → ∃ Q : E3 → E3, TurnsTo (T v).n.E (T (m.hSrc (m.hNext h))).n.E Q ∧
      ∃ e f, turnedUnit (T v).row.2 (T (m.hSrc (m.hNext h))).row.2 = some (e, f) ∧
        pullBack' (T (m.hSrc (m.hNext h))).row.1 e f = ⟨.fin ((T (m.hSrc (m.hNext h))).form (Q (T v).u.E) (Q (T v).u.E)),
          .fin ((T (m.hSrc (m.hNext h))).form (Q (T v).u.E) (Q (T v).v.E)), .fin ((T (m.hSrc (m.hNext h))).form (Q (T v).u.E) (Q (T v).v.E)),
          .fin ((T (m.hSrc (m.hNext h))).form (Q (T v).v.E) (Q (T v).v.E))⟩ := by
    rintro h ⟨ah, sh⟩
    have au := w.src_alive _ (w.next_alive _ ah)
    obtain ⟨u1, u2, u3⟩ := unit v a
    have o := opp h ah
    rw [sh] at o
    obtain ⟨Q, hQ, e⟩ := turnedUnit_ok (u' := (T (m.hSrc (m.hNext h))).u) (v' := (T (m.hSrc (m.hNext h))).v) u1 u2 u3 (unit _ au).2.2 o
    exact ⟨Q, hQ, _, _, e, pullBack'_form _ _ _ _ _ _ _⟩
  choose! Q hQ he using data
  have mem : ∀ h ∈ orbit m.sig (m.vHe v), m.hAlive h = true ∧ m.hSrc h = v := fun h hh => (w.mem_ring a).1 hh
  have loop := smoothTensorLoop_exact w A (T := T) hs a (fr := (T v).row.2)
    (X := fun h => (T (m.hSrc (m.hNext h))).form (Q h (T v).u.E) (Q h (T v).u.E))
    (Y := fun h => (T (m.hSrc (m.hNext h))).form (Q h (T v).u.E) (Q h (T v).v.E))
    (Z := fun h => (T (m.hSrc (m.hNext h))).form (Q h (T v).v.E) (Q h (T v).v.E))
    (orbit m.sig (m.vHe v)) (T v).a (T v).b (T v).b (T v).c 1 (fun h hh => ⟨(mem h hh).1, (mem h hh).2, he h (mem h hh)⟩)
  have pos := nearWeight_sum_pos (m := m) (p := p) v
  refine ⟨⟨(T v).u, (T v).v, (T v).n,
      m.nearMean p v (T v).a (fun h => (T (m.hSrc (m.hNext h))).form (Q h (T v).u.E) (Q h (T v).u.E)),
      m.nearMean p v (T v).b (fun h => (T (m.hSrc (m.hNext h))).form (Q h (T v).u.E) (Q h (T v).v.E)),
      m.nearMean p v (T v).c (fun h => (T (m.hSrc (m.hNext h))).form (Q h (T v).v.E) (Q h (T v).v.E))⟩, ?_, rfl, rfl, rfl, Q, fun h ah sh => hQ h ⟨ah, sh⟩, rfl, rfl, rfl⟩
  unfold smoothTensor
  rw [bind_apply, vertexAt_ok hi]; dsimp only
  rw [bind_apply, atIdx_ok (rows_at hi)]; dsimp only
  rw [bind_apply, w.ringVerts_ok a]; dsimp only
  have l1 : (Scalar.lit 1 1 : XR) = .fin 1 := by rw [X_lit, R_lit]; norm_num
  change (smoothTensorLoop _ _ _ v _ ⟨.fin (T v).a, .fin (T v).b, .fin (T v).b, .fin (T v).c⟩ (Scalar.lit 1 1) >>= _) m = _
  rw [← w.outs_sum a, ← w.outs_sum a, ← w.outs_sum a, ← w.outs_sum a] at loop
  rw [l1, bind_apply, loop]
  dsimp only
  simp only [Mat2.divS, X_div _ pos.ne']
  rfl

/-- `smoothingTensors` in exact arithmetic -/
theorem smoothTensors_exact (w : m.WF) (A : m.AtE p) (hne : m.hes ≠ []) {T : Nat → VertTensor} (hs : m.meanLen p ≠ 0)
    (unit : ∀ v, m.vAlive v = true → ‖(T v).u.E‖ = 1 ∧ ‖(T v).v.E‖ = 1 ∧ ‖(T v).n.E‖ = 1)
    (opp : ∀ h, m.hAlive h = true → (T (m.hSrc (m.hNext h))).n.E ≠ -(T (m.hSrc h)).n.E) :
    ∃ T' : Nat → VertTensor, smoothTensors (m.vs.map fun v => (T v).row) m = .ok (m.vs.map fun v => (T' v).row) m ∧
      ∀ v, m.vAlive v = true → m.SmoothedAt p T v (T' v) := by
  have key : ∀ v, m.vAlive v = true → ∃ t : VertTensor, m.SmoothedAt p T v t ∧ ∀ i : Nat, m.vs[i]? = some v →
      smoothTensor (m.vs.map fun v => (T v).row) (.fin (m.meanLen p)) i m = .ok t.row m := by
    intro v a
    obtain ⟨i, hi⟩ := w.vDense.exists_at a
    obtain ⟨t, e, h⟩ := smoothTensor_exact w A hs unit opp hi
    refine ⟨t, h, fun j hj => ?_⟩
    have : j = i := by
      have h1 := w.vDense.idx_of hi
      have h2 := w.vDense.idx_of hj
      omega
    rw [this, e]
  haveI : Inhabited VertTensor := ⟨T 0⟩
  choose! T' h1 h2 using key
  refine ⟨T', ?_, h1⟩
  obtain ⟨as, e, len, q⟩ := eachM_range (m := m) (f := smoothTensor (m.vs.map fun v => (T v).row) (.fin (m.meanLen p)))
    (P := fun i r => ∀ v, m.vs[i]? = some v → r = (T' v).row) m.vs.length (fun i hi => by
      have hv : m.vs[i]? = some m.vs[i] := List.getElem?_eq_getElem hi
      refine ⟨_, h2 _ (w.vDense.alive_at hv) i hv, fun v hv' => ?_⟩
      rw [hv] at hv'; cases hv'; rfl)
  unfold smoothTensors
  rw [bind_apply, meanEdgeLength_exact w A hne]; dsimp only
  rw [List.length_map, e]
  congr 1
  apply List.ext_getElem?
  intro i
  by_cases hi : i < m.vs.length
  · obtain ⟨r, hr, hq⟩ := q i hi
    have hv : m.vs[i]? = some m.vs[i] := List.getElem?_eq_getElem hi
    rw [hr, rows_at hv, hq _ hv]
  · rw [List.getElem?_eq_none (by omega), List.getElem?_eq_none (by rw [List.length_map]; omega)]

/-- smoothing does not leave a range of curvatures that contains zero -/
theorem SmoothedAt.range (w : m.WF) {T : Nat → VertTensor} {v : Nat} (a : m.vAlive v = true) {t : VertTensor} (S : m.SmoothedAt p T v t)
    (axes : ∀ v, m.vAlive v = true → ‖(T v).u.E‖ = 1 ∧ ‖(T v).v.E‖ = 1 ∧ inner ℝ (T v).u.E (T v).v.E = 0)
    {lo hi : ℝ} (l0 : lo ≤ 0) (h0 : 0 ≤ hi)
    (h : ∀ v, m.vAlive v = true → ∀ x y, lo * (x ^ 2 + y ^ 2) ≤ (T v).quad x y ∧ (T v).quad x y ≤ hi * (x ^ 2 + y ^ 2)) (x y : ℝ) :
    lo * (x ^ 2 + y ^ 2) ≤ t.quad x y ∧ t.quad x y ≤ hi * (x ^ 2 + y ^ 2) := by
  obtain ⟨e1, e2, e3, Q, hQ, ha, hb, hc⟩ := S
  have pos := nearWeight_sum_pos (m := m) (p := p) v
  obtain ⟨u1, u2, u3⟩ := axes v a
  set z : E3 := x • t.u.E + y • t.v.E with hz
  have nz : inner ℝ z z = x ^ 2 + y ^ 2 := by
    rw [hz, e1, e2]
    simp only [inner_add_left, inner_add_right, inner_smul_left, inner_smul_right, real_inner_self_eq_norm_sq, u1, u2, u3,
      real_inner_comm (T v).u.E (T v).v.E, conj_trivial]
    ring
  -- the value of the smoothed form
  have val : t.quad x y * (1 + ((m.outs v).map (m.nearWeight p)).sum) =
      (T v).quad x y + ((m.outs v).map fun h => m.nearWeight p h * (T (m.hSrc (m.hNext h))).form (Q h z) (Q h z)).sum := by
    unfold VertTensor.quad
    rw [ha, hb, hc]
    unfold Mesh.nearMean
    have lin : ∀ l : List Nat, (∀ h ∈ l, m.hAlive h = true ∧ m.hSrc h = v) →
        (l.map fun h => m.nearWeight p h * (T (m.hSrc (m.hNext h))).form (Q h z) (Q h z)).sum =
        (l.map fun h => m.nearWeight p h * (T (m.hSrc (m.hNext h))).form (Q h t.u.E) (Q h t.u.E)).sum * x ^ 2 +
        2 * (l.map fun h => m.nearWeight p h * (T (m.hSrc (m.hNext h))).form (Q h t.u.E) (Q h t.v.E)).sum * (x * y) +
        (l.map fun h => m.nearWeight p h * (T (m.hSrc (m.hNext h))).form (Q h t.v.E) (Q h t.v.E)).sum * y ^ 2 := by
      intro l
      induction l with
      | nil => intro _; simp
      | cons h l ih =>
        intro hl
        obtain ⟨ah, sh⟩ := hl h (by simp)
        simp only [List.map_cons, List.sum_cons]
        rw [ih fun k hk => hl k (by simp [hk]), hz, (hQ h ah sh).linear]
        unfold VertTensor.form formOn
        simp only [inner_add_left, inner_smul_left, conj_trivial]
        ring
    rw [lin (m.outs v) fun h hh => by
      obtain ⟨h1, h2⟩ := List.mem_filter.1 hh
      exact ⟨(w.hDense.mem h).1 h1, beq_iff_eq.1 h2⟩]
    field_simp
    ring
  have bound : ∀ l : List Nat, (∀ h ∈ l, m.hAlive h = true ∧ m.hSrc h = v) →
      lo * (x ^ 2 + y ^ 2) * (l.map (m.nearWeight p)).sum ≤ (l.map fun h => m.nearWeight p h * (T (m.hSrc (m.hNext h))).form (Q h z) (Q h z)).sum ∧
      (l.map fun h => m.nearWeight p h * (T (m.hSrc (m.hNext h))).form (Q h z) (Q h z)).sum ≤ hi * (x ^ 2 + y ^ 2) * (l.map (m.nearWeight p)).sum := by
    intro l
    induction l with
    | nil => intro _; simp
    | cons h' l ih =>
      intro hl
      obtain ⟨ah, sh⟩ := hl h' (by simp)
      obtain ⟨i1, i2⟩ := ih fun k hk => hl k (by simp [hk])
      have au := w.src_alive _ (w.next_alive _ ah)
      obtain ⟨b1, b2, b3⟩ := axes _ au
      obtain ⟨f1, f2⟩ := h _ au (inner ℝ (Q h' z) (T (m.hSrc (m.hNext h'))).u.E) (inner ℝ (Q h' z) (T (m.hSrc (m.hNext h'))).v.E)
      have fe : (T (m.hSrc (m.hNext h'))).form (Q h' z) (Q h' z) = (T (m.hSrc (m.hNext h'))).quad
          (inner ℝ (Q h' z) (T (m.hSrc (m.hNext h'))).u.E) (inner ℝ (Q h' z) (T (m.hSrc (m.hNext h'))).v.E) := by
        unfold VertTensor.form formOn VertTensor.quad
        ring
      have bessel : inner ℝ (Q h' z) (T (m.hSrc (m.hNext h'))).u.E ^ 2 + inner ℝ (Q h' z) (T (m.hSrc (m.hNext h'))).v.E ^ 2 ≤ x ^ 2 + y ^ 2 := by
        rw [← nz, ← (hQ h' ah sh).keeps z z]
        set q := Q h' z
        set U := (T (m.hSrc (m.hNext h'))).u.E
        set V := (T (m.hSrc (m.hNext h'))).v.E
        have := real_inner_self_nonneg (x := q - (inner ℝ q U) • U - (inner ℝ q V) • V)
        have e : inner ℝ (q - (inner ℝ q U) • U - (inner ℝ q V) • V) (q - (inner ℝ q U) • U - (inner ℝ q V) • V) =
            inner ℝ q q - inner ℝ q U ^ 2 - inner ℝ q V ^ 2 := by
          have uu : inner ℝ U U = (1 : ℝ) := by rw [real_inner_self_eq_norm_sq, b1, one_pow]
          have vv : inner ℝ V V = (1 : ℝ) := by rw [real_inner_self_eq_norm_sq, b2, one_pow]
          have h1 : inner ℝ U q = inner ℝ q U := real_inner_comm _ _
          have h2 : inner ℝ V q = inner ℝ q V := real_inner_comm _ _
          have h3 : inner ℝ V U = (0 : ℝ) := by rw [real_inner_comm, b3]
          simp only [inner_sub_left, inner_sub_right, inner_smul_left, inner_smul_right, conj_trivial, uu, vv, b3, h1, h2, h3]
          ring
        rw [e] at this
        linarith
      have wp : 0 < m.nearWeight p h' := Real.exp_pos _
      simp only [List.map_cons, List.sum_cons]
      rw [fe]
      constructor
      · have : lo * (x ^ 2 + y ^ 2) ≤ (T (m.hSrc (m.hNext h'))).quad
          (inner ℝ (Q h' z) (T (m.hSrc (m.hNext h'))).u.E) (inner ℝ (Q h' z) (T (m.hSrc (m.hNext h'))).v.E) :=
          le_trans (mul_le_mul_of_nonpos_left bessel l0) f1
        nlinarith [mul_le_mul_of_nonneg_left this wp.le]
      · have : (T (m.hSrc (m.hNext h'))).quad
          (inner ℝ (Q h' z) (T (m.hSrc (m.hNext h'))).u.E) (inner ℝ (Q h' z) (T (m.hSrc (m.hNext h'))).v.E) ≤ hi * (x ^ 2 + y ^ 2) :=
          le_trans f2 (mul_le_mul_of_nonneg_left bessel h0)
        nlinarith [mul_le_mul_of_nonneg_left this wp.le]
  obtain ⟨b1, b2⟩ := bound (m.outs v) fun h hh => by
    obtain ⟨h1, h2⟩ := List.mem_filter.1 hh
    exact ⟨(w.hDense.mem h).1 h1, beq_iff_eq.1 h2⟩
  obtain ⟨f1, f2⟩ := h v a x y
  constructor
  · refine le_of_mul_le_mul_right ?_ pos
    rw [val]
    linarith
  · refine le_of_mul_le_mul_right ?_ pos
    rw [val]
    linarith

end
end TinyMesh
