import Verif.Proof.CurvF
import Verif.Proof.OperB
/-
The tensors of the vertices.
-/
namespace TinyMesh
open Orbit

/-! ### Loops -/

theorem eachM_range {F α : Type} {m : Mesh F} {f : Nat → M F α} {P : Nat → α → Prop} (n : Nat)
    (h : ∀ i, i < n → ∃ a, f i m = .ok a m ∧ P i a) :
    ∃ as, eachM f (List.range n) m = .ok as m ∧ as.length = n ∧ ∀ i : Nat, i < n → ∃ a, as[i]? = some a ∧ P i a := by
  have key : ∀ (l : List Nat), (∀ i ∈ l, i < n) → ∃ as : List α, eachM f l m = .ok as m ∧ as.length = l.length ∧
      ∀ k i : Nat, l[k]? = some i → ∃ a, as[k]? = some a ∧ P i a := by
    intro l
    induction l with
    | nil => intro _; exact ⟨[], rfl, rfl, fun k i hk => by simp at hk⟩
    | cons x l ih =>
      intro hl
      obtain ⟨a, e, pa⟩ := h x (hl x (by simp))
      obtain ⟨as, e', len, q⟩ := ih fun i hi => hl i (by simp [hi])
      refine ⟨a :: as, by rw [eachM, bind_apply, e]; dsimp only; rw [bind_apply, e']; rfl, by simp [len], fun k i hk => ?_⟩
      cases k with
      | zero => simp at hk; subst hk; exact ⟨a, by simp, pa⟩
      | succ k => simp at hk; obtain ⟨b, h1, h2⟩ := q k i hk; exact ⟨b, by simpa using h1, h2⟩
  obtain ⟨as, e, len, q⟩ := key (List.range n) fun i hi => List.mem_range.1 hi
  refine ⟨as, e, by simpa using len, fun i hi => q i i (by simp [hi])⟩

theorem atIdx_ok {F α : Type} {m : Mesh F} {l : List α} {i : Nat} {a : α} (h : l[i]? = some a) : atIdx l (i : Int) m = .ok a m := by
  unfold atIdx
  rw [if_neg (by omega)]
  simp [h]

/-! ### Rotations -/

theorem Mat3.Is.apply {R : Mat3 XR} {A : Matrix (Fin 3) (Fin 3) ℝ} (h : R.Is A) (w : Vec3 ℝ) :
    ∃ x : Vec3 ℝ, R.apply w.fin = x.fin ∧ x.E.ofLp = A.mulVec w.E.ofLp := by
  refine ⟨⟨A 0 0 * w.x + A 0 1 * w.y + A 0 2 * w.z, A 1 0 * w.x + A 1 1 * w.y + A 1 2 * w.z, A 2 0 * w.x + A 2 1 * w.y + A 2 2 * w.z⟩, ?_, ?_⟩
  · unfold Mat3.apply
    simp only [h _ _, Vec3.fin, X_mul, X_add]
  · ext i
    fin_cases i <;> simp [Vec3.E, Matrix.mulVec, dotProduct, Fin.sum_univ_three]

/-- the turned axes in exact arithmetic -/
theorem turned_ok {u v n u' v' n' : Vec3 ℝ} (hn : ‖n.E‖ = 1) (hn' : ‖n'.E‖ = 1) (ho : n'.E ≠ -n.E) :
    ∃ Q : E3 → E3, TurnsTo n.E n'.E Q ∧ turned (⟨u.fin, v.fin, n.fin⟩ : LFrame XR) ⟨u'.fin, v'.fin, n'.fin⟩ =
      some ((.fin (inner ℝ (Q u.E) u'.E), .fin (inner ℝ (Q u.E) v'.E)), (.fin (inner ℝ (Q v.E) u'.E), .fin (inner ℝ (Q v.E) v'.E))) := by
  have go : ∀ (R : Mat3 XR) (A : Matrix (Fin 3) (Fin 3) ℝ), rotTwo n.fin n'.fin = some R → R.Is A →
      turned (⟨u.fin, v.fin, n.fin⟩ : LFrame XR) ⟨u'.fin, v'.fin, n'.fin⟩ =
      some ((.fin (inner ℝ (WithLp.toLp 2 (A.mulVec u.E.ofLp) : E3) u'.E), .fin (inner ℝ (WithLp.toLp 2 (A.mulVec u.E.ofLp) : E3) v'.E)),
        (.fin (inner ℝ (WithLp.toLp 2 (A.mulVec v.E.ofLp) : E3) u'.E), .fin (inner ℝ (WithLp.toLp 2 (A.mulVec v.E.ofLp) : E3) v'.E))) := by
    intro R A hR hA
    obtain ⟨x, ex, hx⟩ := hA.apply u
    obtain ⟨y, ey, hy⟩ := hA.apply v
    unfold turned coords2
    dsimp only
    rw [hR, Option.map_some, ex, ey, ← hx, ← hy, Vec3.X_vdot, Vec3.X_vdot, Vec3.X_vdot, Vec3.X_vdot]
    simp only [WithLp.toLp_ofLp, Vec3.E_inner]
  rcases lt_or_ge (InnerProductGeometry.angle n.E n'.E) (1 / 10 ^ 12) with h | h
  · obtain ⟨R, hR, hA, -⟩ := c39_close n n' hn hn' h
    refine ⟨id, ⟨fun _ x => rfl, fun h' => absurd h (not_lt.2 h')⟩, ?_⟩
    rw [go R 1 hR hA]
    simp
  · obtain ⟨R, A, hR, hA, hS, hm⟩ := c39_rotation_partial n n' hn hn' ho h
    refine ⟨fun x => WithLp.toLp 2 (A.mulVec x.ofLp), ⟨fun h' => absurd h' (not_lt.2 h), fun _ => ⟨?_, A, hS, fun x => rfl⟩⟩, go R A hR hA⟩
    dsimp only
    rw [hm]

theorem pullBack_form (u v x y : E3) (a b c : ℝ) :
    pullBack (⟨.fin a, .fin b, .fin b, .fin c⟩ : Mat2 XR) (.fin (inner ℝ x u), .fin (inner ℝ x v)) (.fin (inner ℝ y u), .fin (inner ℝ y v)) =
      ⟨.fin (formOn u v a b c x x), .fin (formOn u v a b c x y), .fin (formOn u v a b c x y), .fin (formOn u v a b c y y)⟩ := by
  unfold pullBack secondForm formOn
  simp only [X_mul, X_add, Mat2.mk.injEq, XR.fin.injEq]
  refine ⟨?_, ?_, ?_, ?_⟩ <;> ring

section
variable {m : Mesh XR} {p : Nat → E3}

theorem unit_norm {x : E3} (h : x ≠ 0) : ‖unitOf x‖ = 1 := by
  rw [unitOf, norm_smul, norm_inv, norm_norm, inv_mul_cancel₀ (norm_ne_zero_iff.2 h)]

/-! ### Blurred normals -/

theorem gaussW_exact {x y : Vec3 XR} {a b : E3} (hx : x.Is a) (hy : y.Is b) {s : ℝ} (hs : s ≠ 0) :
    gaussW (.fin s) x y = .fin (Real.exp (-(1 / 2) * (‖a - b‖ / s) ^ 2)) := by
  unfold gaussW
  dsimp only
  rw [(hx.sub hy).length, X_div _ hs, X_lit, R_lit, X_mul, X_mul, X_exp]
  congr 2
  push_cast
  ring

theorem smoothNormLoop_exact (w : m.WF) (A : m.AtE p) {normals : List (Vec3 XR)} {ν : Nat → E3}
    (hN : ∀ i v : Nat, m.vs[i]? = some v → ∃ n, normals[i]? = some n ∧ n.Is (ν v)) {s : ℝ} (hs : s ≠ 0) {v : Nat} (a : m.vAlive v = true) :
    ∀ (us : List Nat) (n : Vec3 XR) (x : E3) (t : ℝ), (∀ u ∈ us, m.vAlive u = true) → n.Is x →
      ∃ n', smoothNormLoop normals (.fin s) v us n (.fin t) m =
        .ok (n', .fin (t + (us.map fun u => Real.exp (-(1 / 2) * (‖p v - p u‖ / s) ^ 2)).sum)) m ∧
        n'.Is (x + (us.map fun u => Real.exp (-(1 / 2) * (‖p v - p u‖ / s) ^ 2) • ν u).sum) := by
  intro us
  induction us with
  | nil => intro n x t _ hn; exact ⟨n, by simp [smoothNormLoop], by simpa using hn⟩
  | cons u us ih =>
    intro n x t hu hn
    have au := hu u (by simp)
    obtain ⟨i, hi⟩ := w.vDense.exists_at au
    obtain ⟨nj, e1, e2⟩ := hN i u hi
    obtain ⟨n', r1, r2⟩ := ih (n.add (nj.smul (.fin (Real.exp (-(1 / 2) * (‖p v - p u‖ / s) ^ 2))))) _
      (t + Real.exp (-(1 / 2) * (‖p v - p u‖ / s) ^ 2)) (fun z hz => hu z (by simp [hz])) (hn.add (e2.smul _))
    refine ⟨n', ?_, ?_⟩
    · rw [smoothNormLoop, bind_apply, getPos_ok a]; dsimp only
      rw [bind_apply, getPos_ok au]; dsimp only
      rw [bind_apply, getVIdx_ok au, w.vDense.idx_of hi]; dsimp only
      rw [bind_apply, atIdx_ok e1, gaussW_exact (A v a) (A u au) hs]; dsimp only
      rw [X_add, r1]
      simp only [List.map_cons, List.sum_cons, add_assoc]
    · simpa only [List.map_cons, List.sum_cons, add_assoc] using r2

theorem smoothNorm_exact (w : m.WF) (A : m.AtE p) {normals : List (Vec3 XR)}
    (hN : ∀ i v : Nat, m.vs[i]? = some v → ∃ n, normals[i]? = some n ∧ n.Is (m.vNormal p v)) (hs : m.meanLen p ≠ 0) {i v : Nat}
    (hi : m.vs[i]? = some v) (hb : m.blurSum p v ≠ 0) : ∃ n, smoothNorm normals (.fin (m.meanLen p)) i m = .ok n m := by
  have a := w.vDense.alive_at hi
  obtain ⟨n, e1, e2⟩ := hN i v hi
  have hmem : ∀ u ∈ (orbit m.sig (m.vHe v)).map (fun x => m.hSrc (m.hNext x)), m.vAlive u = true := by
    intro u hu
    obtain ⟨x, hx, rfl⟩ := List.mem_map.1 hu
    exact w.src_alive _ (w.next_alive _ ((w.mem_ring a).1 hx).1)
  obtain ⟨n', r1, r2⟩ := smoothNormLoop_exact w A hN hs a _ n _ 1 hmem e2
  have hsum : m.blurSum p v = m.vNormal p v + (((orbit m.sig (m.vHe v)).map (fun x => m.hSrc (m.hNext x))).map fun u =>
      Real.exp (-(1 / 2) * (‖p v - p u‖ / m.meanLen p) ^ 2) • m.vNormal p u).sum := by
    unfold Mesh.blurSum
    rw [w.outs_sum a, List.map_map]
    rfl
  rw [hsum] at hb
  set t := 1 + (((orbit m.sig (m.vHe v)).map (fun x => m.hSrc (m.hNext x))).map fun u =>
      Real.exp (-(1 / 2) * (‖p v - p u‖ / m.meanLen p) ^ 2)).sum with ht
  have tpos : 0 < t := by
    have : 0 ≤ (((orbit m.sig (m.vHe v)).map (fun x => m.hSrc (m.hNext x))).map fun u =>
      Real.exp (-(1 / 2) * (‖p v - p u‖ / m.meanLen p) ^ 2)).sum := List.sum_nonneg fun y hy => by
        obtain ⟨z, -, rfl⟩ := List.mem_map.1 hy
        exact (Real.exp_pos _).le
    linarith
  obtain ⟨n1, d1, d2⟩ := r2.div tpos.ne'
  obtain ⟨n2, q1, q2⟩ := d2.normalize (smul_ne_zero (inv_ne_zero tpos.ne') hb)
  refine ⟨n2, ?_⟩
  unfold smoothNorm
  rw [bind_apply, vertexAt_ok hi]; dsimp only
  rw [bind_apply, atIdx_ok e1]; dsimp only
  rw [bind_apply, w.ringVerts_ok a]; dsimp only
  have l1 : (Scalar.lit 1 1 : XR) = .fin 1 := by rw [X_lit, R_lit]; norm_num
  change (smoothNormLoop normals (XR.fin (m.meanLen p)) v _ n (Scalar.lit 1 1) >>= _) m = _
  rw [l1, bind_apply, r1]; dsimp only
  rw [d1]
  change orThrowM n1.normalize? m = _
  rw [q1]
  rfl

/-! ### Faces -/

theorem areaVec_of (w : m.WF) {h : Nat} (a : m.hAlive h = true) (t : m.OnTri h) :
    m.areaVec p (m.hFace h) = triNormal (p (m.hSrc h)) (p (m.hSrc (m.hNext h))) (p (m.hSrc (m.hNext (m.hNext h)))) := by
  have af := w.face_alive _ a
  obtain ⟨b, e⟩ := w.fHe_ok _ af
  have t' := t
  unfold Mesh.OnTri at t'
  unfold Mesh.areaVec
  rcases w.tri_face a t b e with hx | hx | hx
  · rw [hx]
  · rw [hx, t', triNormal_rot]
  · rw [hx, t', triNormal_rot, triNormal_rot]

theorem triVerts_ok (G : m.Good) {f : Nat} (a : m.fAlive f = true) (t : m.OnTri (m.fHe f)) :
    triVerts f m = .ok (m.hSrc (m.fHe f), m.hSrc (m.hNext (m.fHe f)), m.hSrc (m.hNext (m.hNext (m.fHe f)))) m := by
  obtain ⟨b, -⟩ := G.wf.fHe_ok _ a
  unfold triVerts
  rw [bind_apply, G.wf.faceVerts_ok a, G.wf.tri_orbit G.simple b t]
  rfl

/-- the outcome for one face -/
def FaceOut (m : Mesh XR) (p : Nat → E3) (f : Nat) (r : Mat2 XR × LFrame XR) : Prop :=
  ∃ (u v n : Vec3 ℝ) (a b c : ℝ), r = (⟨.fin a, .fin b, .fin b, .fin c⟩, ⟨u.fin, v.fin, n.fin⟩) ∧ Frame u v n ∧
    n.E = unitOf (m.areaVec p f) ∧ ∀ a' b' c', m.shapeAt p f u.E v.E a b c ≤ m.shapeAt p f u.E v.E a' b' c' ∧
      (m.shapeAt p f u.E v.E a' b' c' ≤ m.shapeAt p f u.E v.E a b c → a' = a ∧ b' = b ∧ c' = c)

theorem curvFace_exact (G : m.Good) {solve : LinSolve XR} (hS : solve.Exact) (A : m.AtE p) {i f : Nat} (hi : m.fs[i]? = some f)
    (t : m.OnTri (m.fHe f)) (hA : m.areaVec p f ≠ 0)
    (hn : ∀ v, m.vAlive v = true → ∃ n, vertNormal v m = .ok n m ∧ n.Is (m.vNormal p v)) :
    ∃ r, curvFace solve i m = .ok r m ∧ FaceOut m p f r := by
  have w := G.wf
  have a := w.fDense.alive_at hi
  obtain ⟨b, -⟩ := w.fHe_ok _ a
  have b1 := w.next_alive _ b
  have b2 := w.next_alive _ b1
  have a0 := w.src_alive _ b
  have a1 := w.src_alive _ b1
  have a2 := w.src_alive _ b2
  obtain ⟨n0, e0, i0⟩ := hn _ a0
  obtain ⟨n1, e1, i1⟩ := hn _ a1
  obtain ⟨n2, e2, i2⟩ := hn _ a2
  obtain ⟨u, v, n, ef, hf, hnn, -, hd⟩ := faceFrame_ok (A _ a0) (A _ a1) (A _ a2) hA
  obtain ⟨x, y, z, et, fit⟩ := faceTensor_fit (n := n) hS (A _ a0) (A _ a1) (A _ a2) hd.ne' i0 i1 i2
  refine ⟨_, ?_, u, v, n, x, y, z, rfl, hf, hnn, fit⟩
  unfold curvFace
  rw [bind_apply, faceAt_get hi]; dsimp only
  rw [bind_apply, triVerts_ok G a t]; dsimp only
  rw [bind_apply, getPos_ok a0]; dsimp only
  rw [bind_apply, getPos_ok a1]; dsimp only
  rw [bind_apply, getPos_ok a2]; dsimp only
  rw [bind_apply, e0]; dsimp only
  rw [bind_apply, e1]; dsimp only
  rw [bind_apply, e2]; dsimp only
  rw [ef, bind_apply]
  change Out.ok (faceTensor solve _ _ _ _ n0 n1 n2, _) m = _
  rw [et]

/-! ### Vertices -/

theorem curvVertLoop_exact (w : m.WF) {faces : List (Mat2 XR × LFrame XR)} {fr : LFrame XR} {v : Nat} {W X Y Z : Nat → ℝ} :
    ∀ (l : List Nat) (a b b' c s : ℝ), (∀ h ∈ l, m.hAlive h = true ∧ ∃ T ff x y, (∀ i : Nat, m.fs[i]? = some (m.hFace h) → faces[i]? = some (T, ff)) ∧
        turned fr ff = some (x, y) ∧ pullBack T x y = ⟨.fin (X h), .fin (Y h), .fin (Y h), .fin (Z h)⟩ ∧
        vorFace v (m.hFace h) m = .ok (.fin (W h)) m) →
      curvVertLoop faces fr v (l.map m.hFace) ⟨.fin a, .fin b, .fin b', .fin c⟩ (.fin s) m =
        .ok (⟨.fin (a + (l.map fun h => W h * X h).sum), .fin (b + (l.map fun h => W h * Y h).sum), .fin (b' + (l.map fun h => W h * Y h).sum),
          .fin (c + (l.map fun h => W h * Z h).sum)⟩, .fin (s + (l.map W).sum)) m := by
  intro l
  induction l with
  | nil => intro a b b' c s _; simp [curvVertLoop]
  | cons h l ih =>
    intro a b b' c s hl
    obtain ⟨ah, T, ff, x, y, h1, h2, h3, h4⟩ := hl h (by simp)
    have af := w.face_alive _ ah
    obtain ⟨i, hi⟩ := w.fDense.exists_at af
    rw [List.map_cons, curvVertLoop, bind_apply, getFIdx_ok af, w.fDense.idx_of hi]; dsimp only
    rw [bind_apply, atIdx_ok (h1 i hi)]; dsimp only
    rw [h2, bind_apply]
    change (vorFace v (m.hFace h) >>= _) m = _
    rw [bind_apply, h4]; dsimp only
    rw [h3]
    unfold Mat2.add Mat2.scale
    simp only [X_mul, X_add]
    rw [ih _ _ _ _ _ fun z hz => hl z (by simp [hz])]
    simp only [List.map_cons, List.sum_cons, add_assoc]

theorem vertFrame_exact (w : m.WF) (A : m.AtE p) {v : Nat} (a : m.vAlive v = true) {nn : Vec3 XR} (hn : vertNormal v m = .ok nn m)
    (hi : nn.Is (m.vNormal p v)) (hp : p (m.hSrc (m.hNext (m.vHe v))) ≠ p v) (hx : triNormal 0 (m.vNormal p v) (m.firstDir p v) ≠ 0) :
    ∃ u v' n : Vec3 ℝ, vertFrame v m = .ok ⟨u.fin, v'.fin, n.fin⟩ m ∧ n.E = m.vNormal p v ∧ u.E = m.firstDir p v ∧
      v'.E = unitOf (triNormal 0 (m.vNormal p v) (m.firstDir p v)) := by
  have hv := w.vHe_ok v a
  have a1 := w.src_alive _ (w.next_alive _ hv.1)
  obtain ⟨n, rfl, en⟩ := hi
  obtain ⟨_, e1, u, rfl, eu⟩ := Vec3.Is.normalize ((A _ a1).sub (A v a)) (sub_ne_zero.2 hp)
  have hcr : ((n.cross u).fin).Is (triNormal 0 (m.vNormal p v) (m.firstDir p v)) := by
    refine ⟨_, rfl, ?_⟩
    unfold Mesh.firstDir
    rw [← en, ← eu, ← E_zero, triNormal_E]
    congr 1
    apply Vec3.ext' <;> simp [Vec3.cross_def, Vec3.sub_def, Vec3.zero_def]
  obtain ⟨_, e2, v', rfl, ev⟩ := hcr.normalize hx
  refine ⟨u, v', n, ?_, en, eu, ev⟩
  unfold vertFrame
  rw [bind_apply, hn]; dsimp only
  rw [bind_apply, w.ringVerts_ok a]
  obtain ⟨tl, htl⟩ := List.head?_eq_some_iff.1 (w.permSig.orbit_head hv.1)
  have hup : (getPos (m.hSrc (m.hNext (m.vHe v))) >>= fun q => getPos v >>= fun p => orThrowM (q.sub p).normalize?) m = .ok u.fin m := by
    rw [bind_apply, getPos_ok a1]; dsimp only
    rw [bind_apply, getPos_ok a]; dsimp only
    rw [e1]
    rfl
  rw [htl]
  change ((getPos (m.hSrc (m.hNext (m.vHe v))) >>= fun q => getPos v >>= fun p => orThrowM (q.sub p).normalize?) >>= _) m = _
  rw [bind_apply, hup]
  change (orThrowM ((n.fin).cross u.fin).normalize? >>= _) m = _
  rw [Vec3.X_vcross, e2]
  rfl

theorem curvVert_exact (G : m.Good) (A : m.AtE p) (C : m.CurvProper p) {faces : List (Mat2 XR × LFrame XR)}
    (hF : ∀ i f : Nat, m.fs[i]? = some f → ∃ r, faces[i]? = some r ∧ FaceOut m p f r) {i v : Nat} (hi : m.vs[i]? = some v)
    (hn : ∃ n, vertNormal v m = .ok n m ∧ n.Is (m.vNormal p v)) : ∃ r, curvVert faces i m = .ok r m ∧ m.TensorAt p v r := by
  classical
  have w := G.wf
  have a := w.vDense.alive_at hi
  have hv := w.vHe_ok v a
  obtain ⟨nn, e1, e2⟩ := hn
  have hp : p (m.hSrc (m.hNext (m.vHe v))) ≠ p v := by
    have := (C.closed _ hv.1).2.ne.1
    rwa [hv.2] at this
  obtain ⟨u, v', n, ef, hn1, hu, hv'⟩ := vertFrame_exact w A a e1 e2 hp (C.first v a)
  have nn1 : ‖n.E‖ = 1 := by rw [hn1]; exact unit_norm (C.normal v a)
  -- data of the corners
  have data : ∀ h, m.hAlive h = true ∧ m.hSrc h = v → ∃ (T : Mat2 XR) (ff : LFrame XR) (x y : XR × XR) (B : E3 → E3 → ℝ) (Q : E3 → E3),
      (∀ i : Nat, m.fs[i]? = some (m.hFace h) → faces[i]? = some (T, ff)) ∧ turned ⟨u.fin, v'.fin, n.fin⟩ ff = some (x, y) ∧
      pullBack T x y = ⟨.fin (B (Q u.E) (Q u.E)), .fin (B (Q u.E) (Q v'.E)), .fin (B (Q u.E) (Q v'.E)), .fin (B (Q v'.E) (Q v'.E))⟩ ∧
      m.FaceForm p (m.hFace h) B ∧ TurnsTo n.E (unitOf (m.areaVec p (m.hFace h))) Q := by
    intro h ⟨ah, sh⟩
    have af := w.face_alive _ ah
    obtain ⟨j, hj⟩ := w.fDense.exists_at af
    obtain ⟨r, er, u1, v1, n1, x, y, z, rfl, fr, hn', fit⟩ := hF j _ hj
    have n1n : ‖n1.E‖ = 1 := fr.on.1 2
    obtain ⟨Q, hQ, ht⟩ := turned_ok (u := u) (v := v') (u' := u1) (v' := v1) nn1 n1n (by rw [hn', hn1, ← sh]; exact C.turn h ah)
    refine ⟨_, _, _, _, formOn u1.E v1.E x y z, Q, ?_, ht, pullBack_form _ _ _ _ _ _ _, ⟨u1.E, v1.E, x, y, z, ?_, rfl, fit⟩, ?_⟩
    · intro i' hi'
      have : i' = j := by
        have h1 := w.fDense.idx_of hi'
        have h2 := w.fDense.idx_of hj
        omega
      rw [this, er]
    · rw [← hn']; exact fr.on
    · rw [← hn']; exact hQ
  haveI : Inhabited XR := ⟨.fin 0⟩
  haveI : Inhabited (Mat2 XR) := ⟨Mat2.zero⟩
  haveI : Inhabited (LFrame XR) := ⟨⟨Vec3.zero, Vec3.zero, Vec3.zero⟩⟩
  choose! T ff x y B Q d1 d2 d3 d4 d5 using data
  have mem : ∀ h ∈ orbit m.sig (m.vHe v), m.hAlive h = true ∧ m.hSrc h = v := fun h hh => (w.mem_ring a).1 hh
  have hloop := curvVertLoop_exact (faces := faces) (fr := ⟨u.fin, v'.fin, n.fin⟩) (v := v) w (W := fun h => m.cornerMix p h)
    (X := fun h => B h (Q h u.E) (Q h u.E)) (Y := fun h => B h (Q h u.E) (Q h v'.E)) (Z := fun h => B h (Q h v'.E) (Q h v'.E))
    (orbit m.sig (m.vHe v)) 0 0 0 0 0 (fun h hh => ⟨(mem h hh).1, T h, ff h, x h, y h, d1 h (mem h hh), d2 h (mem h hh), d3 h (mem h hh), by
      obtain ⟨ah, sh⟩ := mem h hh
      have := G.vorFace_ok ah (C.closed h ah).1
      rw [vorCorner_exact (A _ (w.src_alive _ ah)) (A _ (w.src_alive _ (w.next_alive _ ah)))
        (A _ (w.src_alive _ (w.next_alive _ (w.next_alive _ ah))))] at this
      rw [sh] at this
      rw [this, Mesh.cornerMix, sh]⟩)
  have hS : ((orbit m.sig (m.vHe v)).map fun h => m.cornerMix p h).sum = m.mixedSum p v := by
    unfold Mesh.mixedSum
    rw [← w.outs_sum a fun h => m.cornerMix p h]
    congr 1
    apply List.map_congr_left
    intro h hh
    obtain ⟨-, sh⟩ := mem h ((w.ring_perm a).mem_iff.2 hh)
    rw [Mesh.cornerMix, sh]
  have hpos := m.mixedSum_pos w a fun h ah _ => (C.closed h ah).2
  refine ⟨_, ?_, u, v', n, _, _, _, rfl, hn1, hu, hv', B, Q, fun h ah sh => ⟨d4 h ⟨ah, sh⟩, d5 h ⟨ah, sh⟩⟩, rfl, rfl, rfl⟩
  unfold curvVert
  rw [bind_apply, vertexAt_ok hi]; dsimp only
  rw [bind_apply, ef]; dsimp only
  rw [bind_apply, w.vertFaces_ok a]; dsimp only
  change (curvVertLoop faces _ v _ ⟨Scalar.lit 0 1, Scalar.lit 0 1, Scalar.lit 0 1, Scalar.lit 0 1⟩ (Scalar.lit 0 1) >>= _) m = _
  rw [lit_zero, bind_apply, hloop]; dsimp only
  rw [hS]
  simp only [zero_add, Mat2.divS]
  rw [X_div _ hpos.ne', X_div _ hpos.ne', X_div _ hpos.ne', w.outs_sum a, w.outs_sum a, w.outs_sum a]
  rfl

/-- `getCurvatureTensors` in exact arithmetic -/
theorem curvatureTensors_exact (G : m.Good) {solve : LinSolve XR} (hS : solve.Exact) (A : m.AtE p) (C : m.CurvProper p) (hne : m.hes ≠ []) :
    ∃ ts, curvatureTensors solve m = .ok ts m ∧ ts.length = m.vs.length ∧
      ∀ i v : Nat, m.vs[i]? = some v → ∃ r, ts[i]? = some r ∧ m.TensorAt p v r := by
  have w := G.wf
  have hn : ∀ v, m.vAlive v = true → ∃ n, vertNormal v m = .ok n m ∧ n.Is (m.vNormal p v) := fun v a =>
    (vertNormal_exact w A a fun h ah sh => by have := (C.closed h ah).2.ne; rwa [sh] at this).1 (C.normal v a)
  have hlen : m.meanLen p ≠ 0 := by
    obtain ⟨h, hh⟩ := List.exists_mem_of_ne_nil _ hne
    have ah := (w.hDense.mem h).1 hh
    exact (meanLen_pos w ah (C.closed h ah).2.ne.1.symm).ne'
  have get : ∀ {l : List Nat} {i : Nat}, i < l.length → ∃ v, l[i]? = some v := fun hi => ⟨_, List.getElem?_eq_getElem hi⟩
  obtain ⟨normals, e1, -, q1⟩ := eachM_range (m := m) (f := fun i => do let v ← vertexAt i; vertNormal v)
    (P := fun i n => ∀ v, m.vs[i]? = some v → n.Is (m.vNormal p v)) m.vs.length (fun i hi => by
      obtain ⟨v, hv⟩ := get hi
      obtain ⟨n, h1, h2⟩ := hn v (w.vDense.alive_at hv)
      refine ⟨n, by rw [bind_apply, vertexAt_ok hv]; exact h1, fun v' hv' => ?_⟩
      rw [hv] at hv'; cases hv'; exact h2)
  have hN : ∀ i v : Nat, m.vs[i]? = some v → ∃ n, normals[i]? = some n ∧ n.Is (m.vNormal p v) := fun i v hv => by
    obtain ⟨n, h1, h2⟩ := q1 i (List.getElem?_eq_some_iff.1 hv).1
    exact ⟨n, h1, h2 v hv⟩
  obtain ⟨sm, e2, -, -⟩ := eachM_range (m := m) (f := smoothNorm normals (.fin (m.meanLen p))) (P := fun _ _ => True) m.vs.length (fun i hi => by
      obtain ⟨v, hv⟩ := get hi
      obtain ⟨n, h⟩ := smoothNorm_exact w A hN hlen hv (C.blur v (w.vDense.alive_at hv))
      exact ⟨n, h, trivial⟩)
  obtain ⟨faces, e3, -, q3⟩ := eachM_range (m := m) (f := curvFace solve) (P := fun i r => ∀ f, m.fs[i]? = some f → FaceOut m p f r) m.fs.length
    (fun i hi => by
      obtain ⟨f, hf⟩ := get hi
      have af := w.fDense.alive_at hf
      obtain ⟨b, e⟩ := w.fHe_ok _ af
      obtain ⟨r, h1, h2⟩ := curvFace_exact G hS A hf (C.closed _ b).1 (C.closed _ b).2 hn
      refine ⟨r, h1, fun f' hf' => ?_⟩
      rw [hf] at hf'; cases hf'; exact h2)
  have hF : ∀ i f : Nat, m.fs[i]? = some f → ∃ r, faces[i]? = some r ∧ FaceOut m p f r := fun i f hf => by
    obtain ⟨n, h1, h2⟩ := q3 i (List.getElem?_eq_some_iff.1 hf).1
    exact ⟨n, h1, h2 f hf⟩
  obtain ⟨ts, e4, l4, q4⟩ := eachM_range (m := m) (f := curvVert faces) (P := fun i r => ∀ v, m.vs[i]? = some v → m.TensorAt p v r) m.vs.length
    (fun i hi => by
      obtain ⟨v, hv⟩ := get hi
      obtain ⟨r, h1, h2⟩ := curvVert_exact G A C hF hv (hn v (w.vDense.alive_at hv))
      refine ⟨r, h1, fun f' hf' => ?_⟩
      rw [hv] at hf'; cases hf'; exact h2)
  refine ⟨ts, ?_, l4, fun i v hv => ?_⟩
  · unfold curvatureTensors
    rw [bind_apply, read_apply]; dsimp only
    rw [bind_apply, read_apply]; dsimp only
    rw [bind_apply, e1]; dsimp only
    rw [bind_apply, meanEdgeLength_exact w A hne]; dsimp only
    rw [bind_apply, e2]; dsimp only
    rw [bind_apply, e3]; dsimp only
    rw [e4]
  · obtain ⟨n, h1, h2⟩ := q4 i (List.getElem?_eq_some_iff.1 hv).1
    exact ⟨n, h1, h2 v hv⟩

end
end TinyMesh
