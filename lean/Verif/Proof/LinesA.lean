import Verif.Spec.Lines
import Verif.Proof.CurvG
import Verif.Proof.CurvE
import Verif.Proof.SimA
import Verif.Proof.L0A
/-
Ridge and valley lines: edges and faces.
-/
namespace TinyMesh
open Orbit

theorem lit_neg : (Scalar.lit (-1) 1 : XR) = .fin (-1) := by rw [X_lit, R_lit]; norm_num
theorem lit_hundredth : (Scalar.lit 1 100 : XR) = .fin (1 / 100) := by rw [X_lit, R_lit]; norm_num
theorem lit_tiny : (Scalar.lit 1 (10 ^ 8) : XR) = .fin (1 / 10 ^ 8) := by rw [X_lit, R_lit]; norm_num
theorem lit_int (k : Int) : (Scalar.lit k 1 : XR) = .fin (k : ℝ) := by rw [X_lit, R_lit]; norm_num

theorem X_lt_iff {x y : ℝ} : Scalar.lt (XR.fin x) (XR.fin y) = decide (x < y) := by
  rw [X_lt]; by_cases h : x < y
  · rw [decide_eq_true h, (R_lt _ _).2 h]
  · rw [decide_eq_false h]; rw [← Bool.not_eq_true, R_lt]; exact h

theorem X_le_iff {x y : ℝ} : Scalar.le (XR.fin x) (XR.fin y) = decide (x ≤ y) := by
  rw [X_le]; by_cases h : x ≤ y
  · rw [decide_eq_true h, (R_le _ _).2 h]
  · rw [decide_eq_false h]; rw [← Bool.not_eq_true, R_le]; exact h

theorem X_eq_iff {x y : ℝ} : Scalar.eq (XR.fin x) (XR.fin y) = decide (x = y) := by
  rw [X_eq]; by_cases h : x = y
  · rw [decide_eq_true h, (R_eq _ _).2 h]
  · rw [decide_eq_false h]; rw [← Bool.not_eq_true, R_eq]; exact h

/-- data of one vertex -/
structure HoldsAt (c : CurvData) (v : Nat) (k : Principal XR) (x : XR) : Prop where
  kMax : k.kMax = .fin (c.kMax v)
  kMin : k.kMin = .fin (c.kMin v)
  dir : k.tMax.Is (c.dir v)
  slope : x = .fin (c.slope v)

namespace CurvData
variable {c : CurvData} {p : Nat → E3} {u v : Nat}

theorem Ridge.symm (h : c.Ridge p u v) : c.Ridge p v u where
  distinct := h.distinct.symm
  crosses := by
    have := h.crosses
    unfold Crosses at this ⊢
    rw [real_inner_comm, mul_comm (c.slope v)]
    exact this
  convex := h.convex.symm
  grows := h.grows.symm

theorem Valley.symm (h : c.Valley p u v) : c.Valley p v u where
  distinct := h.distinct.symm
  crosses := by
    have := h.crosses
    unfold Crosses at this ⊢
    rw [real_inner_comm, mul_comm (c.slope v)]
    exact this
  concave := h.concave.symm
  falls := h.falls.symm

theorem Ridge.not_valley (h : c.Ridge p u v) : ¬c.Valley p u v := fun h' => lt_asymm h.convex.1 h'.concave.1

end CurvData

open Classical in
theorem checkRV_exact {c : CurvData} {p : Nat → E3} {u v : Nat} {k1 k2 : Principal XR} {x1 x2 : XR} {p1 p2 : Vec3 XR}
    (h1 : HoldsAt c u k1 x1) (h2 : HoldsAt c v k2 x2) (q1 : p1.Is (p u)) (q2 : p2.Is (p v)) :
    checkRV k1 k2 x1 x2 p1 p2 = if c.Ridge p u v then -1 else if c.Valley p u v then 1 else 0 := by
  have d12 := h1.dir.dot h2.dir
  have c1 := (q2.sub q1).dot h1.dir
  have c2 := (q1.sub q2).dot h2.dir
  have c2' := (q1.sub q2).dot (h2.dir.smul (-1))
  rw [inner_smul_right] at c2'
  unfold checkRV
  simp only [h1.kMax, h1.kMin, h2.kMax, h2.kMin, h1.slope, h2.slope, d12, lit_zero, lit_neg, lit_hundredth, X_lt_iff, X_sub, X_abs]
  by_cases t : inner ℝ (c.dir u) (c.dir v) < 0
  · simp only [t, decide_true, if_true, X_mul, X_le_iff, c1, c2', X_lt_iff]
    have e : (-1 * c.slope v) * (-1 * inner ℝ (p u - p v) (c.dir v)) = c.slope v * inner ℝ (p u - p v) (c.dir v) := by ring
    rw [e]
    by_cases a : c.Distinct u ∧ c.Distinct v
    · rw [if_neg (by
        simp only [Bool.or_eq_true, decide_eq_true_eq, not_or, not_lt]
        exact a)]
      by_cases b : 0 < c.slope u * c.slope v
      · rw [if_neg (by simp; nlinarith)]
        have cr : c.Crosses u v := .inr ⟨t, b⟩
        by_cases r : c.Ridge p u v
        · rw [if_pos r, if_pos (by simpa using ⟨r.convex, r.grows⟩)]
        · rw [if_neg r, if_neg (by
            intro h; simp only [Bool.and_eq_true, decide_eq_true_eq] at h
            exact r ⟨a, cr, h.1, h.2⟩)]
          by_cases w : c.Valley p u v
          · rw [if_pos w, if_pos (by simpa using ⟨w.concave, w.falls⟩)]
          · rw [if_neg w, if_neg (by
              intro h; simp only [Bool.and_eq_true, decide_eq_true_eq] at h
              exact w ⟨a, cr, h.1, h.2⟩)]
      · rw [if_pos (by simp; nlinarith)]
        have cr : ¬c.Crosses u v := by
          rintro (h | h)
          · exact absurd t (not_lt.2 h.1)
          · exact b h.2
        rw [if_neg fun h => cr h.crosses, if_neg fun h => cr h.crosses]
    · rw [if_pos (by
        by_contra h
        simp only [Bool.or_eq_true, decide_eq_true_eq, not_or, not_lt] at h
        exact a h)]
      rw [if_neg fun h => a h.distinct, if_neg fun h => a h.distinct]
  · simp only [t, decide_false, Bool.false_eq_true, if_false, X_mul, X_le_iff, c1, c2, X_lt_iff]
    by_cases a : c.Distinct u ∧ c.Distinct v
    · rw [if_neg (by
        simp only [Bool.or_eq_true, decide_eq_true_eq, not_or, not_lt]
        exact a)]
      by_cases b : c.slope u * c.slope v < 0
      · rw [if_neg (by simpa using b)]
        have cr : c.Crosses u v := .inl ⟨not_lt.1 t, b⟩
        by_cases r : c.Ridge p u v
        · rw [if_pos r, if_pos (by simpa using ⟨r.convex, r.grows⟩)]
        · rw [if_neg r, if_neg (by
            intro h; simp only [Bool.and_eq_true, decide_eq_true_eq] at h
            exact r ⟨a, cr, h.1, h.2⟩)]
          by_cases w : c.Valley p u v
          · rw [if_pos w, if_pos (by simpa using ⟨w.concave, w.falls⟩)]
          · rw [if_neg w, if_neg (by
              intro h; simp only [Bool.and_eq_true, decide_eq_true_eq] at h
              exact w ⟨a, cr, h.1, h.2⟩)]
      · rw [if_pos (by simpa using b)]
        have cr : ¬c.Crosses u v := by
          rintro (h | h)
          · exact b h.2
          · exact t h.1
        rw [if_neg fun h => cr h.crosses, if_neg fun h => cr h.crosses]
    · rw [if_pos (by
        by_contra h
        simp only [Bool.or_eq_true, decide_eq_true_eq, not_or, not_lt] at h
        exact a h)]
      rw [if_neg fun h => a h.distinct, if_neg fun h => a h.distinct]

section
variable {m : Mesh XR} {p : Nat → E3} {c : CurvData} {ks : List (Principal XR)} {es : List (XR × XR)}

theorem Mesh.HoldsCurv.at (H : m.HoldsCurv c ks es) (w : m.WF) {v : Nat} (a : m.vAlive v = true) :
    ∃ k x, (atIdx ks (m.vIdx v) m = .ok k m) ∧ (atIdx es (m.vIdx v) m = .ok x m) ∧ HoldsAt c v k x.1 := by
  obtain ⟨i, hi⟩ := w.vDense.exists_at a
  obtain ⟨k, x, h1, h2, h3, h4, h5, h6⟩ := H i v hi
  rw [w.vDense.idx_of hi]
  exact ⟨k, x, atIdx_ok h1, atIdx_ok h2, h3, h4, h5, h6⟩

/-- the kind of an edge -/
noncomputable def edgeKind (c : CurvData) (p : Nat → E3) (u v : Nat) : Int := by
  classical exact if c.Ridge p u v then -1 else if c.Valley p u v then 1 else 0

theorem edgeRV_ok (w : m.WF) (A : m.AtE p) (H : m.HoldsCurv c ks es) {u v : Nat} (a : m.vAlive u = true) (b : m.vAlive v = true) :
    edgeRV ks es u v m = .ok (edgeKind c p u v) m := by
  obtain ⟨k1, x1, h1, h2, h3⟩ := H.at w a
  obtain ⟨k2, x2, g1, g2, g3⟩ := H.at w b
  unfold edgeRV
  rw [bind_apply, getVIdx_ok a]; dsimp only
  rw [bind_apply, getVIdx_ok b]; dsimp only
  rw [bind_apply, getPos_ok a]; dsimp only
  rw [bind_apply, getPos_ok b]; dsimp only
  rw [bind_apply, h1]; dsimp only
  rw [bind_apply, g1]; dsimp only
  rw [bind_apply, h2]; dsimp only
  rw [bind_apply, g2]; dsimp only
  rw [pure_apply, checkRV_exact h3 g3 (A u a) (A v b)]
  unfold edgeKind
  congr

theorem edgeKind_ridge {u v : Nat} : edgeKind c p u v < 0 ↔ c.Ridge p u v := by
  unfold edgeKind
  by_cases h : c.Ridge p u v
  · simp [h]
  · by_cases h' : c.Valley p u v <;> simp [h, h']

theorem edgeKind_valley {u v : Nat} : 0 < edgeKind c p u v ↔ c.Valley p u v := by
  unfold edgeKind
  by_cases h : c.Ridge p u v
  · simp [h, h.not_valley]
  · by_cases h' : c.Valley p u v <;> simp [h, h']

open Classical in
theorem faceRV_eq {r0 r1 r2 : Int} {V R : Prop} (hV : (0 < r0 ∨ 0 < r1 ∨ 0 < r2) ↔ V) (hR : (r0 < 0 ∨ r1 < 0 ∨ r2 < 0) ↔ R) :
    faceRV r0 r1 r2 = if V ∧ ¬R then 1 else if R ∧ ¬V then -1 else 0 := by
  unfold faceRV
  dsimp only
  rw [← hV, ← hR]
  split_ifs <;> first | rfl | omega

/-- the half-edges of a triangle -/
theorem Mesh.WF.tri_edges (w : m.WF) {f : Nat} (a : m.fAlive f = true) (t : m.OnTri (m.fHe f)) (Q : Nat → Prop) :
    (∃ h, m.hAlive h = true ∧ m.hFace h = f ∧ Q h) ↔ Q (m.fHe f) ∨ Q (m.hNext (m.fHe f)) ∨ Q (m.hNext (m.hNext (m.fHe f))) := by
  obtain ⟨b, e⟩ := w.fHe_ok _ a
  constructor
  · rintro ⟨h, ah, eh, q⟩
    rcases w.tri_face b t ah (eh.trans e.symm) with rfl | rfl | rfl
    · exact .inl q
    · exact .inr (.inl q)
    · exact .inr (.inr q)
  · have b1 := w.next_alive _ b
    have e1 := w.face_next _ b
    have e2 := w.face_next _ b1
    rintro (q | q | q)
    · exact ⟨_, b, e, q⟩
    · exact ⟨_, b1, e1.trans e, q⟩
    · exact ⟨_, w.next_alive _ b1, (e2.trans e1).trans e, q⟩

theorem markFace_ok (G : m.Good) (A : m.AtE p) (H : m.HoldsCurv c ks es) {i f : Nat} (hi : m.fs[i]? = some f) (t : m.OnTri (m.fHe f)) :
    markFace ks es i m = .ok (m.faceKind p c f) m := by
  have w := G.wf
  have a := w.fDense.alive_at hi
  obtain ⟨b, -⟩ := w.fHe_ok _ a
  have b1 := w.next_alive _ b
  have b2 := w.next_alive _ b1
  unfold markFace
  rw [bind_apply, faceAt_get hi]; dsimp only
  rw [bind_apply, triVerts_ok G a t]; dsimp only
  rw [bind_apply, edgeRV_ok w A H (w.src_alive _ b) (w.src_alive _ b1)]; dsimp only
  rw [bind_apply, edgeRV_ok w A H (w.src_alive _ b1) (w.src_alive _ b2)]; dsimp only
  rw [bind_apply, edgeRV_ok w A H (w.src_alive _ b2) (w.src_alive _ b)]; dsimp only
  have e3 : m.hNext (m.hNext (m.hNext (m.fHe f))) = m.fHe f := t
  have hr := w.tri_edges a t fun h => c.Ridge p (m.hSrc h) (m.hSrc (m.hNext h))
  have hv := w.tri_edges a t fun h => c.Valley p (m.hSrc h) (m.hSrc (m.hNext h))
  rw [e3] at hr hv
  rw [pure_apply, faceRV_eq (V := m.HasValley p c f) (R := m.HasRidge p c f)]
  · rfl
  · simp only [edgeKind_valley]; exact hv.symm
  · simp only [edgeKind_ridge]; exact hr.symm

theorem marks_ok (G : m.Good) (A : m.AtE p) (H : m.HoldsCurv c ks es) (C : m.Closed p) :
    ∃ flags, eachM (markFace ks es) (List.range m.fs.length) m = .ok flags m ∧
      ∀ (i : Nat) f, m.fs[i]? = some f → flags[i]? = some (m.faceKind p c f) := by
  obtain ⟨fl, h1, h2, h3⟩ := eachM_range (m := m) (f := markFace ks es) (P := fun i k => ∀ f, m.fs[i]? = some f → k = m.faceKind p c f)
    m.fs.length (fun i hi => by
      have hf : m.fs[i]? = some m.fs[i] := List.getElem?_eq_getElem hi
      refine ⟨_, markFace_ok G A H hf (C _ (G.wf.fHe_ok _ (G.wf.fDense.alive_at hf)).1).1, fun f h => ?_⟩
      rw [hf] at h; cases h; rfl)
  refine ⟨fl, h1, fun i f hf => ?_⟩
  obtain ⟨k, hk, e⟩ := h3 i (List.getElem?_eq_some_iff.1 hf).1
  rw [hk, e f hf]

end
end TinyMesh
