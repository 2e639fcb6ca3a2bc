import Verif.Proof.SimB
import Verif.Spec.Quadric
import Mathlib.LinearAlgebra.Matrix.NonsingularInverse
import Mathlib.Tactic.FinCases
/-
Quadrics in exact arithmetic.
-/
namespace TinyMesh
open Orbit

/-- homogeneous coordinates -/
noncomputable def homog (x : E3) : Fin 4 → ℝ := ![x 0, x 1, x 2, 1]

/-- the value of the quadratic form of a matrix -/
noncomputable def formVal (B : Matrix (Fin 4) (Fin 4) ℝ) (y z : Fin 4 → ℝ) : ℝ := y ⬝ᵥ B.mulVec z

/-- `A` is a finite, symmetric, positive semidefinite matrix with the values `e` on points and the quadratic part `H`. -/
structure Quad (A : Mat4 XR) (e : E3 → ℝ) (H : Matrix (Fin 3) (Fin 3) ℝ) (B : Matrix (Fin 4) (Fin 4) ℝ) : Prop where
  fin : A = fun i j => XR.fin (B i j)
  sym : ∀ i j, B i j = B j i
  pos : ∀ y, 0 ≤ formVal B y y
  val : ∀ x, formVal B (homog x) (homog x) = e x
  hess : ∀ i j : Fin 3, B i.castSucc j.castSucc = H i j

theorem Quad.zero : Quad Mat4.zero (fun _ => 0) 0 0 where
  fin := by funext i j; simp [Mat4.zero, R_lit0]
  sym _ _ := rfl
  pos y := by simp [formVal]
  val x := by simp [formVal]
  hess _ _ := rfl

theorem Quad.add {A A' : Mat4 XR} {e e' : E3 → ℝ} {H H' : Matrix (Fin 3) (Fin 3) ℝ} {B B' : Matrix (Fin 4) (Fin 4) ℝ}
    (h : Quad A e H B) (h' : Quad A' e' H' B') : Quad (A.add A') (fun x => e x + e' x) (H + H') (B + B') where
  fin := by funext i j; simp [Mat4.add, h.fin, h'.fin]
  sym i j := by simp [h.sym i j, h'.sym i j]
  pos y := by
    have := h.pos y; have := h'.pos y
    unfold formVal at *
    rw [Matrix.add_mulVec, dotProduct_add]; linarith
  val x := by
    rw [← h.val, ← h'.val]
    unfold formVal
    rw [Matrix.add_mulVec, dotProduct_add]
  hess i j := by simp [h.hess, h'.hess]

theorem R_tiny : (Scalar.lit 1 (10 ^ 12) : ℝ) = 1 / 10 ^ 12 := by
  rw [R_lit]; norm_num

/-- the quadric of a triangle -/
theorem Quad.ofTri {a b c : Vec3 XR} {p q r : E3} (ha : a.Is p) (hb : b.Is q) (hc : c.Is r) :
    ∃ K B, quadric a b c = some K ∧ Quad K (planeErr p q r) (Matrix.of fun i j => planeNormal p q r i * planeNormal p q r j) B := by
  obtain ⟨a, rfl, rfl⟩ := ha
  obtain ⟨b, rfl, rfl⟩ := hb
  obtain ⟨c, rfl, rfl⟩ := hc
  set N := (b.sub a).cross (c.sub a) with hN
  have hpos : 0 < N.length + 1 / 10 ^ 12 := by
    have : 0 ≤ N.length := by rw [← Vec3.E_norm]; exact norm_nonneg _
    positivity
  have hd : N.div? (N.length + 1 / 10 ^ 12) = some (N.divRaw (N.length + 1 / 10 ^ 12)) := by
    unfold Vec3.div?
    rw [if_neg]
    rw [R_eq, R_lit0]; exact hpos.ne'
  set n := N.divRaw (N.length + 1 / 10 ^ 12) with hn
  have nE : n.E = planeNormal a.E b.E c.E := by
    unfold planeNormal
    rw [triNormal_E, ← hN, Vec3.E_norm]
    apply Vec3.E_ext <;> simp [hn, Vec3.divRaw, div_eq_inv_mul]
  let cc : Fin 4 → ℝ := ![n.x, n.y, n.z, -n.dot a]
  refine ⟨fun i j => XR.fin (cc i * cc j), Matrix.of fun i j => cc i * cc j, ?_, ?_⟩
  rotate_left
  · have fv : ∀ y z, formVal (Matrix.of fun i j => cc i * cc j) y z = (y ⬝ᵥ cc) * (cc ⬝ᵥ z) := by
      intro y z
      simp only [formVal, Matrix.mulVec, dotProduct, Matrix.of_apply, Finset.mul_sum, Finset.sum_mul]
      rw [Finset.sum_comm]
      refine Finset.sum_congr rfl fun i _ => Finset.sum_congr rfl fun j _ => ?_
      ring
    refine ⟨rfl, fun i j => by simp [mul_comm], fun y => ?_, fun x => ?_, fun i j => ?_⟩
    · rw [fv, dotProduct_comm cc y]; exact mul_self_nonneg _
    · rw [fv, dotProduct_comm cc]
      unfold planeErr
      rw [← nE, pow_two]
      have : homog x ⬝ᵥ cc = inner ℝ n.E (x - a.E) := by
        simp [homog, cc, dotProduct, Fin.sum_univ_succ, PiLp.inner_apply, Vec3.dot_def, Vec3.E]
        ring
      rw [this]
    · rw [← nE]
      fin_cases i <;> fin_cases j <;> simp [cc, Vec3.E]
  · unfold quadric
    simp only [Vec3.X_vsub, Vec3.X_vcross, Vec3.X_vlength, X_lit, X_add, R_tiny, Vec3.X_vdiv, ← hN, hd]
    simp only [Option.map_some]
    congr 1
    funext i j
    have : ∀ i : Fin 4, (match i with
        | 0 => n.fin.x
        | 1 => n.fin.y
        | 2 => n.fin.z
        | 3 => -n.fin.dot a.fin : XR) = XR.fin (cc i) := by
      intro i
      fin_cases i <;> simp [cc, Vec3.fin]
      rfl
    have h1 := this i
    have h2 := this j
    rw [← X_mul, ← h1, ← h2]
    fin_cases i <;> fin_cases j <;> rfl

/-- the matrix that is inverted -/
noncomputable def sysMat (B : Matrix (Fin 4) (Fin 4) ℝ) : Matrix (Fin 4) (Fin 4) ℝ :=
  Matrix.of fun i j => if i = 3 then (if j = 3 then 1 else 0) else B i j

theorem sysMat_det (B : Matrix (Fin 4) (Fin 4) ℝ) : (sysMat B).det = (Matrix.of fun i j : Fin 3 => B i.castSucc j.castSucc).det := by
  rw [Matrix.det_succ_row _ (Fin.last 3), Fin.sum_univ_castSucc]
  have z : ∀ j : Fin 3, sysMat B (Fin.last 3) j.castSucc = 0 := by
    intro j; fin_cases j <;> simp [sysMat]
  have o : sysMat B (Fin.last 3) (Fin.last 3) = 1 := by simp [sysMat]
  simp only [z, o]
  have : (sysMat B).submatrix (Fin.last 3).succAbove (Fin.last 3).succAbove = Matrix.of fun i j : Fin 3 => B i.castSucc j.castSucc := by
    ext i j
    fin_cases i <;> fin_cases j <;> simp [sysMat, Fin.succAbove]
  rw [this]
  norm_num

/-- what `computeQEM` returns -/
theorem qemPos_exact {S : Solver XR} (hS : S.Exact) {A A' : Mat4 XR} {e e' : E3 → ℝ} {H H' : Matrix (Fin 3) (Fin 3) ℝ}
    {B B' : Matrix (Fin 4) (Fin 4) ℝ} (h : Quad A e H B) (h' : Quad A' e' H' B') {u v : Vec3 XR} {p q : E3} (hu : u.Is p) (hv : v.Is q) :
    ∃ x : E3, (qemPos S A A' u v).Is x ∧
      ((H + H').det < 1 / 10 ^ 8 → x = (1 / 2 : ℝ) • (p + q)) ∧
      (1 / 10 ^ 8 ≤ (H + H').det → ∀ y, e x + e' x ≤ e y + e' y) := by
  have K := h.add h'
  have hQ : (fun i j => if i = 3 then (if j = 3 then Scalar.lit 1 1 else Scalar.lit 0 1) else A i j + A' i j : Mat4 XR) =
      fun i j => XR.fin (sysMat (B + B') i j) := by
    funext i j
    simp only [sysMat, Matrix.of_apply]
    split
    · split <;> simp [R_lit0, R_lit1]
    · simp [h.fin, h'.fin]
  have hdet : (sysMat (B + B')).det = (H + H').det := by
    rw [sysMat_det]; congr 1; ext i j; exact K.hess i j
  have hl : (Scalar.lit 1 (10 ^ 8) : ℝ) = 1 / 10 ^ 8 := by rw [R_lit]; norm_num
  unfold qemPos
  dsimp only
  rw [hQ, hS.det, hdet, X_lit 1 (10 ^ 8), hl]
  by_cases c : (H + H').det < 1 / 10 ^ 8
  · rw [if_pos (by rw [X_lt, R_lt]; exact c)]
    refine ⟨(1 / 2 : ℝ) • (p + q), ?_, fun _ => rfl, fun c' => absurd c (not_lt.2 c')⟩
    have : (Scalar.lit 1 2 : ℝ) = 1 / 2 := by rw [R_lit]; norm_num
    have k := (hu.add hv).smul (Scalar.lit 1 2 : ℝ)
    rw [← this]; exact k
  · rw [if_neg (by rw [X_lt, R_lt]; exact c)]
    have nz : (sysMat (B + B')).det ≠ 0 := by rw [hdet]; intro e0; apply c; rw [e0]; norm_num
    obtain ⟨x, hx, ex⟩ := hS.solve (sysMat (B + B')) nz
    rw [ex]
    have r : ∀ i : Fin 4, i ≠ 3 → (B + B').mulVec x i = 0 := by
      intro i hi
      have := congrFun hx i
      simp only [Matrix.mulVec, dotProduct, sysMat, Matrix.of_apply, if_neg hi] at this
      simp only [Matrix.mulVec, dotProduct]
      rw [this]
      fin_cases i <;> simp at hi ⊢
    have x3 : x 3 = 1 := by
      have := congrFun hx 3
      simpa [Matrix.mulVec, dotProduct, sysMat] using this
    refine ⟨!₂[x 0, x 1, x 2], ⟨⟨x 0, x 1, x 2⟩, rfl, rfl⟩, fun c' => absurd c' c, fun _ y => ?_⟩
    have hh : homog !₂[x 0, x 1, x 2] = x := by
      funext i; fin_cases i <;> simp [homog, x3]
    have e1 := K.val !₂[x 0, x 1, x 2]
    have e2 := K.val y
    rw [← e1, ← e2, hh]
    have hy : homog y = x + (homog y - x) := by simp
    set d := homog y - x with hd
    have d3 : d 3 = 0 := by rw [hd, Pi.sub_apply, x3]; simp [homog]
    have dx : formVal (B + B') d x = 0 := by
      unfold formVal
      simp only [dotProduct]
      refine Finset.sum_eq_zero fun i _ => ?_
      by_cases hi : i = 3
      · rw [hi, d3, zero_mul]
      · rw [r i hi, mul_zero]
    have xd : formVal (B + B') x d = formVal (B + B') d x := by
      unfold formVal
      simp only [Matrix.mulVec, dotProduct, Finset.mul_sum]
      rw [Finset.sum_comm]
      refine Finset.sum_congr rfl fun i _ => Finset.sum_congr rfl fun j _ => ?_
      rw [K.sym j i]; ring
    have ex : formVal (B + B') (x + d) (x + d) = formVal (B + B') x x + formVal (B + B') x d + (formVal (B + B') d x + formVal (B + B') d d) := by
      unfold formVal
      rw [Matrix.mulVec_add, add_dotProduct, dotProduct_add, dotProduct_add]
    rw [hy, ex, xd, dx]
    have := K.pos d
    linarith

/-- exact arithmetic, finite positions, an exact solver: nothing can fail -/
theorem simCaps_exact {S : Solver XR} (hS : S.Exact) : SimCaps S FinPos (fun v => ∃ x, v.Is x) (fun A => ∃ e H B, Quad A e H B)
    (fun _ => False) where
  toCaps := caps_exact
  lap m g j := by
    obtain ⟨p, A⟩ := j
    obtain ⟨m', e, -, A'⟩ := c29_laplacian_formula g.wf A (Scalar.lit 1 1 : ℝ) 3
    have e' : smoothLaplacianDefault m = .ok () m' := e
    refine ⟨Or.inr (by rw [e']; simp), fun m2 h => ?_⟩
    rw [e'] at h; cases h
    exact ⟨_, A'⟩
  zero := ⟨_, _, _, Quad.zero⟩
  add A B := by
    rintro ⟨e, H, X, h⟩ ⟨e', H', X', h'⟩
    exact ⟨_, _, _, h.add h'⟩
  quad m j a b c aa ab ac := by
    obtain ⟨p, A⟩ := j
    obtain ⟨K, B, e, h⟩ := Quad.ofTri (A a aa) (A b ab) (A c ac)
    exact Or.inl ⟨K, e, _, _, _, h⟩
  cand m j X Y a b := by
    rintro ⟨e, H, B, h⟩ ⟨e', H', B', h'⟩ aa ab
    obtain ⟨p, A⟩ := j
    obtain ⟨x, hx, -⟩ := qemPos_exact hS h h' (A a aa) (A b ab)
    exact ⟨x, hx⟩
  set m j a v := by
    rintro ⟨x, hx⟩
    obtain ⟨p, A⟩ := j
    refine ⟨upd p a x, fun u au => ?_⟩
    by_cases h : u = a
    · subst h; simpa [upd] using hx
    · simpa [upd, h] using A u au

variable {m : Mesh XR}

open Classical in
/-- the condition for a face to count for `v` -/
theorem inner_iff (g : m.Good) {f v : Nat} (a : m.fAlive f = true) :
    ((∀ h', m.hAlive h' = true → m.hFace h' = m.hFace (m.fHe f) → m.hBd h' = false) ∧
      ∃ h', m.hAlive h' = true ∧ m.hFace h' = m.hFace (m.fHe f) ∧ m.hSrc h' = v) ↔
    (orbit m.hNext (m.fHe f)).any m.hBd = false ∧ v ∈ (orbit m.hNext (m.fHe f)).map m.hSrc := by
  have w := g.wf
  obtain ⟨ah, hf⟩ := w.fHe_ok f a
  rw [hf, List.any_eq_false, List.mem_map]
  constructor
  · rintro ⟨h1, x, ax, fx, sx⟩
    refine ⟨fun y hy => ?_, x, (w.mem_loop a).2 ⟨ax, fx⟩, sx⟩
    obtain ⟨ay, fy⟩ := (w.mem_loop a).1 hy
    rw [h1 y ay fy]; simp
  · rintro ⟨h1, x, hx, sx⟩
    obtain ⟨ax, fx⟩ := (w.mem_loop a).1 hx
    exact ⟨fun y ay fy => by simpa using h1 y ((w.mem_loop a).2 ⟨ay, fy⟩), x, ax, fx, sx⟩

open Classical in
/-- the quadrics that are accumulated are the errors of the vertices -/
theorem quadrics_exact (g : m.Good) {p : Nat → E3} (A : m.AtE p) {nv : Nat} (hn : m.vs.length ≤ nv) :
    ∀ (fs : List Nat) (qs : Nat → Mat4 XR) (e : Nat → E3 → ℝ) (H : Nat → Matrix (Fin 3) (Fin 3) ℝ), (∀ f ∈ fs, m.fAlive f = true) →
      (∀ v, m.vAlive v = true → ∃ B, Quad (qs (m.vIdx v).toNat) (e v) (H v) B) →
      ∃ qs', quadrics nv fs qs m = .ok (some qs') m ∧ ∀ v, m.vAlive v = true → ∃ B, Quad (qs' (m.vIdx v).toNat)
        (fun x => e v x + (((fs.map m.fHe).filter fun h => (∀ h', m.hAlive h' = true → m.hFace h' = m.hFace h → m.hBd h' = false) ∧
          ∃ h', m.hAlive h' = true ∧ m.hFace h' = m.hFace h ∧ m.hSrc h' = v).map fun h =>
          planeErr (p (m.hSrc h)) (p (m.hSrc (m.hNext h))) (p (m.hSrc (m.hNext (m.hNext h)))) x).sum)
        (H v + (((fs.map m.fHe).filter fun h => (∀ h', m.hAlive h' = true → m.hFace h' = m.hFace h → m.hBd h' = false) ∧
          ∃ h', m.hAlive h' = true ∧ m.hFace h' = m.hFace h ∧ m.hSrc h' = v).map fun h =>
          let n := planeNormal (p (m.hSrc h)) (p (m.hSrc (m.hNext h))) (p (m.hSrc (m.hNext (m.hNext h))))
          Matrix.of fun i j => n i * n j).sum) B
  | [], qs, e, H, _, h => ⟨qs, rfl, fun v a => by simpa using h v a⟩
  | f :: fs, qs, e, H, hf, h => by
    have w := g.wf
    have a := hf f (by simp)
    unfold quadrics
    rw [bind_apply, w.fIsBoundary_ok a]
    dsimp only
    simp only [List.map_cons, List.filter_cons, inner_iff g a, decide_eq_true_eq]
    split
    · next c =>
      simp only [c, Bool.true_eq_false, false_and, if_false]
      exact quadrics_exact g A hn fs qs e H (fun x hx => hf x (by simp [hx])) h
    · next c =>
      have c' : (orbit m.hNext (m.fHe f)).any m.hBd = false := by simpa using c
      simp only [c', true_and]
      obtain ⟨ah, hfh⟩ := w.fHe_ok f a
      have t := g.onTri ah (by rw [hfh]; exact c')
      have an := w.next_alive _ ah
      have ann := w.next_alive _ an
      have ev : faceVerts f m = .ok [m.hSrc (m.fHe f), m.hSrc (m.hNext (m.fHe f)), m.hSrc (m.hNext (m.hNext (m.fHe f)))] m :=
        (w.faceVerts_ok a).trans (by rw [w.tri_orbit g.simple ah t]; rfl)
      have ml : ∀ v, v ∈ (orbit m.hNext (m.fHe f)).map m.hSrc ↔ v = m.hSrc (m.fHe f) ∨ v = m.hSrc (m.hNext (m.fHe f)) ∨
          v = m.hSrc (m.hNext (m.hNext (m.fHe f))) := by
        intro v; rw [w.tri_orbit g.simple ah t]; simp
      simp only [ml]
      have ne1 := g.simple.no_loop _ ah
      have ne2 := g.simple.no_loop _ an
      have ne3 := g.simple.no_loop _ ann
      rw [t] at ne3
      have ax := w.src_alive _ ah
      have ay := w.src_alive _ an
      have az := w.src_alive _ ann
      set x := m.hSrc (m.fHe f) with hx
      set y := m.hSrc (m.hNext (m.fHe f)) with hy
      set z := m.hSrc (m.hNext (m.hNext (m.fHe f))) with hz
      rw [bind_apply, ev]
      dsimp only
      rw [bind_apply, getPos_ok ax]; dsimp only
      rw [bind_apply, getPos_ok ay]; dsimp only
      rw [bind_apply, getPos_ok az]; dsimp only
      obtain ⟨K, B, hK, qK⟩ := Quad.ofTri (A x ax) (A y ay) (A z az)
      rw [hK]; dsimp only
      rw [bind_apply, addQuadric_ok w hn K qs ax]; dsimp only
      rw [bind_apply, addQuadric_ok w hn K _ ay]; dsimp only
      rw [bind_apply, addQuadric_ok w hn K _ az]; dsimp only
      have inj : ∀ u v, m.vAlive u = true → m.vAlive v = true → (m.vIdx u).toNat = (m.vIdx v).toNat → u = v := by
        intro u v au av e
        have h1 := w.vDense.idx_lt au
        have h2 := w.vDense.idx_lt av
        have h3 := w.vDense.arrayAt au
        have h4 := w.vDense.arrayAt av
        have : m.vIdx u = m.vIdx v := by omega
        rw [this, h4] at h3
        exact (Option.some.inj h3).symm
      set qs' := upd (upd (upd qs (m.vIdx x).toNat ((qs (m.vIdx x).toNat).add K)) (m.vIdx y).toNat
        (((upd qs (m.vIdx x).toNat ((qs (m.vIdx x).toNat).add K)) (m.vIdx y).toNat).add K)) (m.vIdx z).toNat
        ((upd (upd qs (m.vIdx x).toNat ((qs (m.vIdx x).toNat).add K)) (m.vIdx y).toNat
        (((upd qs (m.vIdx x).toNat ((qs (m.vIdx x).toNat).add K)) (m.vIdx y).toNat).add K) (m.vIdx z).toNat).add K) with hqs
      have ixy : (m.vIdx x).toNat ≠ (m.vIdx y).toNat := fun e => ne1 (inj _ _ ax ay e)
      have iyz : (m.vIdx y).toNat ≠ (m.vIdx z).toNat := fun e => ne2 (inj _ _ ay az e)
      have izx : (m.vIdx z).toNat ≠ (m.vIdx x).toNat := fun e => ne3 (inj _ _ az ax e)
      have val : ∀ v, m.vAlive v = true → qs' (m.vIdx v).toNat = if v = x ∨ v = y ∨ v = z then (qs (m.vIdx v).toNat).add K else
          qs (m.vIdx v).toNat := by
        intro v av
        by_cases hvx : v = x
        · subst hvx; simp [hqs, upd, ixy, izx.symm]
        · by_cases hvy : v = y
          · subst hvy; simp [hqs, upd, ixy.symm, iyz]
          · by_cases hvz : v = z
            · subst hvz; simp [hqs, upd, iyz.symm, izx]
            · have k1 : (m.vIdx v).toNat ≠ (m.vIdx x).toNat := fun e => hvx (inj _ _ av ax e)
              have k2 : (m.vIdx v).toNat ≠ (m.vIdx y).toNat := fun e => hvy (inj _ _ av ay e)
              have k3 : (m.vIdx v).toNat ≠ (m.vIdx z).toNat := fun e => hvz (inj _ _ av az e)
              simp [hqs, upd, hvx, hvy, hvz, k1, k2, k3]
      obtain ⟨qs'', e1, h1⟩ := quadrics_exact g A hn fs qs'
        (fun v q => if v = x ∨ v = y ∨ v = z then e v q + planeErr (p x) (p y) (p z) q else e v q)
        (fun v => if v = x ∨ v = y ∨ v = z then H v + Matrix.of (fun i j => planeNormal (p x) (p y) (p z) i * planeNormal (p x) (p y) (p z) j)
          else H v) (fun x hx => hf x (by simp [hx])) (by
          intro v av
          rw [val v av]
          obtain ⟨Bv, hB⟩ := h v av
          split
          · exact ⟨_, hB.add qK⟩
          · exact ⟨_, hB⟩)
      refine ⟨qs'', e1, fun v av => ?_⟩
      obtain ⟨B', hB'⟩ := h1 v av
      refine ⟨B', ?_⟩
      by_cases hv : v = x ∨ v = y ∨ v = z
      · simp only [if_pos hv, List.map_cons, List.sum_cons] at hB' ⊢
        convert hB' using 1
        · funext q; simp only [hx, hy, hz]; ring
        · rw [← add_assoc]
      · simp only [if_neg hv] at hB' ⊢
        exact hB'

end TinyMesh
