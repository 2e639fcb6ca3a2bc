import Verif.Spec.Queue
import Verif.Proof.SimC
import Verif.Proof.SimE
/-
The values in the queue of the simplification.
-/
namespace TinyMesh

theorem Solver4.Exact.base {S : Solver4 XR} (hS : S.Exact) : S.base.Exact where
  det := hS.det
  solve A h := by
    obtain ⟨x, hx, e⟩ := hS.solve A h
    exact ⟨x, hx, by simp only [Solver4.base, e]⟩

section
variable {F : Type} [Scalar F]

theorem vBar_pos (S : Solver4 F) (m1 m2 : Mat4 F) (p1 p2 : Vec3 F) :
    (⟨vBar S m1 m2 p1 p2 0, vBar S m1 m2 p1 p2 1, vBar S m1 m2 p1 p2 2⟩ : Vec3 F) = qemPos S.base m1 m2 p1 p2 := by
  unfold vBar qemPos Solver4.base
  dsimp only
  split <;> rfl

end

theorem dot4_fin (a b : Fin 4 → ℝ) : dot4 (fun i => XR.fin (a i)) (fun i => XR.fin (b i)) = XR.fin (a ⬝ᵥ b) := by
  simp [dot4, dotProduct, Fin.sum_univ_four]

theorem vBar_exact {S : Solver4 XR} (hS : S.Exact) {A A' : Mat4 XR} {e e' : E3 → ℝ} {H H' : Matrix (Fin 3) (Fin 3) ℝ}
    {B B' : Matrix (Fin 4) (Fin 4) ℝ} (h : Quad A e H B) (h' : Quad A' e' H' B') {u v : Vec3 XR} {p q x : E3} (hu : u.Is p) (hv : v.Is q)
    (hx : (qemPos S.base A A' u v).Is x) : vBar S A A' u v = fun i => XR.fin (homog x i) := by
  have K := h.add h'
  have k3 : vBar S A A' u v 3 = XR.fin 1 := by
    have hQ : (fun i j => if i = 3 then (if j = 3 then Scalar.lit 1 1 else Scalar.lit 0 1) else A i j + A' i j : Mat4 XR) =
        fun i j => XR.fin (sysMat (B + B') i j) := by
      funext i j
      simp only [sysMat, Matrix.of_apply]
      split
      · split <;> simp [R_lit0, R_lit1]
      · simp [h.fin, h'.fin]
    have hl : (Scalar.lit 1 (10 ^ 8) : ℝ) = 1 / 10 ^ 8 := by rw [R_lit]; norm_num
    unfold vBar
    dsimp only
    rw [hQ, hS.det, X_lit 1 (10 ^ 8), hl]
    by_cases c : (sysMat (B + B')).det < 1 / 10 ^ 8
    · rw [if_pos (by rw [X_lt, R_lt]; exact c)]
      change Scalar.lit 1 1 = XR.fin 1
      rw [X_lit, R_lit1]
    · rw [if_neg (by rw [X_lt, R_lt]; exact c)]
      have nz : (sysMat (B + B')).det ≠ 0 := by intro e0; apply c; rw [e0]; norm_num
      obtain ⟨x, hx, ex⟩ := hS.solve (sysMat (B + B')) nz
      rw [ex]
      have := congrFun hx 3
      have x3 : x 3 = 1 := by simpa [Matrix.mulVec, dotProduct, sysMat] using this
      exact congrArg XR.fin x3
  rw [← vBar_pos] at hx
  obtain ⟨y, hy, rfl⟩ := hx
  simp only [Vec3.fin, Vec3.mk.injEq] at hy
  obtain ⟨h0, h1, h2⟩ := hy
  funext i
  fin_cases i
  · exact h0
  · exact h1
  · exact h2
  · exact k3

/-- the value that `computeQEM` returns is the error of the place that it returns -/
theorem qemValue_exact {S : Solver4 XR} (hS : S.Exact) {A A' : Mat4 XR} {e e' : E3 → ℝ} {H H' : Matrix (Fin 3) (Fin 3) ℝ}
    {B B' : Matrix (Fin 4) (Fin 4) ℝ} (h : Quad A e H B) (h' : Quad A' e' H' B') {u v : Vec3 XR} {p q x : E3} (hu : u.Is p) (hv : v.Is q)
    (hx : (qemPos S.base A A' u v).Is x) : qemValue S A A' u v = XR.fin (e x + e' x) := by
  have K := h.add h'
  unfold qemValue
  dsimp only
  rw [vBar_exact hS h h' hu hv hx]
  have : (fun i => dot4 (A.add A' i) fun i => XR.fin (homog x i)) = fun i => XR.fin ((B + B').mulVec (homog x) i) := by
    funext i
    rw [K.fin]
    exact dot4_fin _ _
  rw [this, dot4_fin]
  exact congrArg XR.fin (K.val x)

section
variable {F : Type} [Scalar F] {m : Mesh F}

/-- the node of a half-edge -/
def nodeOf (S : Solver4 F) (m : Mesh F) (qs : Nat → Mat4 F) (h : Nat) : QEMNode F :=
  ⟨qemValue S (qs (m.vIdx (m.hSrc h)).toNat) (qs (m.vIdx (m.hSrc (m.hNext h))).toNat) (m.vPos (m.hSrc h)) (m.vPos (m.hSrc (m.hNext h))), h,
    candPos S.base m qs h⟩

theorem qemNodes_ok (g : m.Good) (S : Solver4 F) {nv : Nat} (hn : m.vs.length ≤ nv) (qs : Nat → Mat4 F) :
    ∀ hs : List Nat, (∀ h ∈ hs, m.hAlive h = true) → qemNodes S nv qs hs m = .ok (hs.map (nodeOf S m qs)) m
  | [], _ => rfl
  | h :: hs, ha => by
    have w := g.wf
    have a := ha h (by simp)
    have as := w.src_alive _ a
    have an := w.next_alive _ a
    have ad := w.src_alive _ an
    have e := qemNodes_ok g S hn qs hs fun x hx => ha x (by simp [hx])
    simp [qemNodes, getSrc_ok a, getDst_ok a an, getVIdx_ok as, getVIdx_ok ad, inRange_ok w hn as, inRange_ok w hn ad,
      getPos_ok as, getPos_ok ad, e, candPos, nodeOf, vBar_pos]

end

theorem Mesh.errAt_nonneg {F : Type} (m : Mesh F) (p : Nat → E3) (v : Nat) (x : E3) : 0 ≤ m.errAt p v x := by
  refine List.sum_nonneg fun y hy => ?_
  obtain ⟨h, -, rfl⟩ := List.mem_map.1 hy
  exact sq_nonneg _

theorem Mesh.Target.twin {F : Type} {m : Mesh F} (w : m.WF) {p : Nat → E3} {h : Nat} (a : m.hAlive h = true) {x y : E3}
    (hx : m.Target p h x) (hy : m.Target p (m.hRev h) y) : m.cost p h x = m.cost p (m.hRev h) y := by
  have e1 : m.hSrc (m.hRev h) = m.hSrc (m.hNext h) := w.src_rev _ a
  have e2 : m.hSrc (m.hNext (m.hRev h)) = m.hSrc h := by
    rw [← w.src_rev _ (w.rev_alive _ a), w.rev_rev _ a]
  unfold Mesh.Target at hx hy
  unfold Mesh.cost
  simp only [e1, e2] at hx hy ⊢
  by_cases c : (m.hessAt p (m.hSrc h) + m.hessAt p (m.hSrc (m.hNext h))).det < 1 / 10 ^ 8
  · rw [hx.1 c, hy.1 (by rw [add_comm]; exact c), add_comm (p (m.hSrc h)), add_comm]
  · have k1 := hx.2 (not_lt.1 c) y
    have k2 := hy.2 (by rw [add_comm]; exact not_lt.1 c) x
    linarith

/-- the pass goes on to the first candidate that can be contracted -/
theorem qemPass_first {m : Mesh XR} (g : m.Good) {p : Nat → E3} (A : m.AtE p) {nv : Nat} (hn : m.vs.length ≤ nv) {target nr : Int}
    (lt : nr < target) {x : Nat → E3} : ∀ q : List (Nat × Vec3 XR), (∀ c ∈ q, m.hAlive c.1 = true ∧ c.2.Is (x c.1)) →
    ((∀ c ∈ q, ¬ m.Contractible p (fun _ => False) c.1 (x c.1)) ∧ qemPass nv target q [] (fun _ => false) nr m = .ok nr m) ∨
    ∃ pre c post, q = pre ++ c :: post ∧ (∀ b ∈ pre, ¬ m.Contractible p (fun _ => False) b.1 (x b.1)) ∧
      m.Contractible p (fun _ => False) c.1 (x c.1) ∧
      qemPass nv target q [] (fun _ => false) nr m = qemPass nv target (c :: post) [] (fun _ => false) nr m
  | [], _ => Or.inl ⟨by simp, rfl⟩
  | c :: q, hq => by
    obtain ⟨a, hv⟩ := hq c (by simp)
    by_cases k : m.Contractible p (fun _ => False) c.1 (x c.1)
    · exact Or.inr ⟨[], c, q, rfl, by simp, k, rfl⟩
    · have e : qemPass nv target (c :: q) [] (fun _ => false) nr m = qemPass nv target q [] (fun _ => false) nr m := by
        refine (qemPass_step g A hn lt a (by simp) hv rfl rfl rfl).2 ?_
        simpa using k
      rw [e]
      rcases qemPass_first g A hn lt q (fun b hb => hq b (by simp [hb])) with ⟨h1, h2⟩ | ⟨pre, b, post, e1, h1, h2, h3⟩
      · refine Or.inl ⟨fun b hb => ?_, h2⟩
        rcases List.mem_cons.1 hb with rfl | hb
        · exact k
        · exact h1 b hb
      · refine Or.inr ⟨c :: pre, b, post, by rw [e1]; rfl, fun d hd => ?_, h2, h3⟩
        rcases List.mem_cons.1 hd with rfl | hd
        · exact k
        · exact h1 d hd

end TinyMesh
