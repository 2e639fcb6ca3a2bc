import Verif.Proof.SmoothB
import Verif.Proof.RealA
import Verif.Spec.Average
import Mathlib.Analysis.Convex.Combination
/-
Uniform smoothing in exact arithmetic.
-/
namespace TinyMesh
open Orbit

section
variable {F : Type} {m m' : Mesh F}

theorem Mesh.SameButPos.centroid (h : m.SameButPos m') (p : Nat → E3) (v : Nat) : m'.centroid p v = m.centroid p v := by
  rw [h]; rfl

theorem Mesh.SameButPos.pinned (h : m.SameButPos m') (v : Nat) : m'.Pinned v ↔ m.Pinned v := by
  rw [h]; rfl

theorem Mesh.SameButPos.average (h : m.SameButPos m') (eps : ℝ) (p : Nat → E3) : m'.average eps p = m.average eps p := by
  funext v
  unfold Mesh.average
  rw [h.centroid]
  by_cases hp : m.Pinned v
  · rw [if_pos hp, if_pos ((h.pinned v).2 hp)]
  · rw [if_neg hp, if_neg (fun h' => hp ((h.pinned v).1 h'))]

theorem Mesh.SameButPos.trans {m'' : Mesh F} (h : m.SameButPos m') (h' : m'.SameButPos m'') : m.SameButPos m'' := by
  unfold Mesh.SameButPos at *
  rw [h', h]

theorem Mesh.SameButPos.refl : m.SameButPos m := rfl

theorem Mesh.SameButPos.taubin (h : m.SameButPos m') (a b : ℝ) : ∀ (n it : Nat) (p : Nat → E3),
    m'.taubin a b it n p = m.taubin a b it n p
  | 0, _, _ => rfl
  | n + 1, it, p => by
    unfold Mesh.taubin
    rw [h.average, h.taubin a b n]

theorem Mesh.SameButPos.wf (h : m.SameButPos m') (w : m.WF) : m'.WF := by
  rw [h]; exact w.setPos _

theorem outDeg_pos (w : m.WF) {v : Nat} (a : m.vAlive v = true) : 0 < m.outDeg v := by
  rw [← w.ring_length a]
  have : m.vHe v ∈ orbit m.sig (m.vHe v) := (w.mem_ring a).2 (w.vHe_ok v a)
  exact List.length_pos_of_mem this

theorem centroid_ring (w : m.WF) {v : Nat} (a : m.vAlive v = true) (p : Nat → E3) : m.centroid p v =
    ((orbit m.sig (m.vHe v)).length : ℝ)⁻¹ • ((orbit m.sig (m.vHe v)).map fun h => p (m.hSrc (m.hNext h))).sum := by
  unfold Mesh.centroid
  rw [w.ring_length a, ((w.ring_perm a).map _).sum_eq]

end

/-! ### Vectors as points -/

theorem E_add (a b : Vec3 ℝ) : (a.add b).E = a.E + b.E := by
  ext i; fin_cases i <;> simp [Vec3.E, Vec3.add_def]

theorem E_sub (a b : Vec3 ℝ) : (a.sub b).E = a.E - b.E := by
  ext i; fin_cases i <;> simp [Vec3.E, Vec3.sub_def]

theorem E_smul (s : ℝ) (a : Vec3 ℝ) : (a.smul s).E = s • a.E := by
  ext i; fin_cases i <;> simp [Vec3.E, Vec3.smul_def, mul_comm]

theorem E_zero : (Vec3.zero : Vec3 ℝ).E = 0 := by
  ext i; fin_cases i <;> simp [Vec3.E, Vec3.zero_def]

theorem Vec3.Is.add {a b : Vec3 XR} {p q : E3} (ha : a.Is p) (hb : b.Is q) : (a.add b).Is (p + q) := by
  obtain ⟨u, rfl, rfl⟩ := ha
  obtain ⟨v, rfl, rfl⟩ := hb
  exact ⟨u.add v, Vec3.X_vadd _ _, E_add u v⟩

theorem Vec3.Is.sub {a b : Vec3 XR} {p q : E3} (ha : a.Is p) (hb : b.Is q) : (a.sub b).Is (p - q) := by
  obtain ⟨u, rfl, rfl⟩ := ha
  obtain ⟨v, rfl, rfl⟩ := hb
  exact ⟨u.sub v, Vec3.X_vsub _ _, E_sub u v⟩

theorem Vec3.Is.smul {a : Vec3 XR} {p : E3} (ha : a.Is p) (s : ℝ) : (a.smul (XR.fin s)).Is (s • p) := by
  obtain ⟨u, rfl, rfl⟩ := ha
  exact ⟨u.smul s, Vec3.X_vsmul _ _, E_smul s u⟩

theorem Vec3.Is.zero : (Vec3.zero : Vec3 XR).Is 0 := ⟨Vec3.zero, Vec3.X_vzero, E_zero⟩

theorem Vec3.Is.div {a : Vec3 XR} {p : E3} (ha : a.Is p) {s : ℝ} (hs : s ≠ 0) : ∃ b, a.div? (XR.fin s) = some b ∧ b.Is (s⁻¹ • p) := by
  obtain ⟨u, rfl, rfl⟩ := ha
  refine ⟨(⟨u.x / s, u.y / s, u.z / s⟩ : Vec3 ℝ).fin, ?_, _, rfl, ?_⟩
  · rw [Vec3.X_vdiv, Vec3.div?_def, if_neg hs]; rfl
  · ext i; fin_cases i <;> simp [Vec3.E, div_eq_inv_mul]

theorem Vec3.Is.unique {a : Vec3 XR} {p q : E3} (h : a.Is p) (h' : a.Is q) : p = q := by
  obtain ⟨u, rfl, rfl⟩ := h
  obtain ⟨v, e, rfl⟩ := h'
  rw [Vec3.fin_inj.1 e]

theorem Vec3.Is.foldl {f : Nat → Vec3 XR} {g : Nat → E3} : ∀ (l : List Nat) {a : Vec3 XR} {p : E3}, (∀ h ∈ l, (f h).Is (g h)) → a.Is p →
    ((l.map f).foldl Vec3.add a).Is (p + (l.map g).sum)
  | [], a, p, _, h => by simpa using h
  | x :: l, a, p, hl, h => by
    have := Vec3.Is.foldl l (fun y hy => hl y (by simp [hy])) (h.add (hl x (by simp)))
    simpa [add_assoc] using this

section
variable {m : Mesh XR} {p : Nat → E3}

theorem Vec3.Is.mv {a c : Vec3 XR} {x y : E3} (ha : a.Is x) (hc : c.Is y) (eps : ℝ) :
    (mv (XR.fin eps) a c).Is (x + eps • (y - x)) := by
  unfold TinyMesh.mv
  have h1 : (Scalar.lit 1 1 : XR) - XR.fin eps = XR.fin (1 - eps) := by rw [X_lit, X_sub, R_lit1]
  rw [h1]
  have := ((ha.smul (1 - eps)).add ((ha.add (hc.sub ha)).smul eps))
  convert this using 1
  module

theorem tauC_exact (w : m.WF) (A : m.AtE p) {v : Nat} (a : m.vAlive v = true) {c : Vec3 XR} (h : tauC m m.vPos v = some c) :
    c.Is (m.centroid p v) := by
  have hp := Vec3.Is.foldl (f := fun h => m.vPos (m.hSrc (m.hNext h))) (g := fun h => p (m.hSrc (m.hNext h))) (orbit m.sig (m.vHe v))
    (fun h hh => A _ (w.src_alive _ (w.next_alive _ ((w.mem_ring a).1 hh).1))) Vec3.Is.zero
  have hn : ((orbit m.sig (m.vHe v)).length : ℝ) ≠ 0 := by
    rw [w.ring_length a]; exact_mod_cast (outDeg_pos w a).ne'
  obtain ⟨b, hb, hb'⟩ := hp.div hn
  unfold tauC at h
  have hl : (Scalar.lit ((orbit m.sig (m.vHe v)).length : Nat) 1 : XR) = XR.fin ((orbit m.sig (m.vHe v)).length : ℝ) := by
    rw [X_lit, R_lit]; simp
  rw [hl, hb] at h
  cases h
  rw [centroid_ring w a]
  simpa using hb'

theorem tauC_some (w : m.WF) (A : m.AtE p) {v : Nat} (a : m.vAlive v = true) : tauC m m.vPos v ≠ none := by
  have hp := Vec3.Is.foldl (f := fun h => m.vPos (m.hSrc (m.hNext h))) (g := fun h => p (m.hSrc (m.hNext h))) (orbit m.sig (m.vHe v))
    (fun h hh => A _ (w.src_alive _ (w.next_alive _ ((w.mem_ring a).1 hh).1))) Vec3.Is.zero
  have hn : ((orbit m.sig (m.vHe v)).length : ℝ) ≠ 0 := by
    rw [w.ring_length a]; exact_mod_cast (outDeg_pos w a).ne'
  obtain ⟨b, hb, hb'⟩ := hp.div hn
  unfold tauC
  have hl : (Scalar.lit ((orbit m.sig (m.vHe v)).length : Nat) 1 : XR) = XR.fin ((orbit m.sig (m.vHe v)).length : ℝ) := by
    rw [X_lit, R_lit]; simp
  rw [hl, hb]
  simp

theorem lapAcc_uniform (A : ∀ h, m.hAlive h = true → (m.vPos (m.hSrc (m.hNext h))).Is (p (m.hSrc (m.hNext h)))) :
    ∀ (l : List Nat), (∀ h ∈ l, m.hAlive h = true) → ∀ (c : Vec3 XR) (q : E3) (s : ℝ), c.Is q →
    (lapAcc m false m.vPos l c (XR.fin s)).1.Is (q + (l.map fun h => p (m.hSrc (m.hNext h))).sum) ∧
      (lapAcc m false m.vPos l c (XR.fin s)).2 = XR.fin (s + l.length)
  | [], _, c, q, s, h => by simpa [lapAcc] using h
  | x :: l, hl, c, q, s, h => by
    have hw : lapWt m false m.vPos x = XR.fin 1 := by simp [lapWt, R_lit1]
    unfold lapAcc
    rw [hw, X_add]
    have h1 := (A x (hl x (by simp))).smul 1
    rw [one_smul] at h1
    have := lapAcc_uniform A l (fun y hy => hl y (by simp [hy])) _ _ (s + 1) (h.add h1)
    refine ⟨?_, ?_⟩
    · have := this.1
      simpa [add_assoc] using this
    · rw [this.2]
      congr 1
      push_cast [List.length_cons]
      ring

theorem lapC_exact (w : m.WF) (A : m.AtE p) {v : Nat} (a : m.vAlive v = true) :
    ∃ c, lapC m false m.vPos v = some c ∧ c.Is (m.centroid p v) := by
  obtain ⟨h1, h2⟩ := lapAcc_uniform (m := m) (p := p) (fun h hh => A _ (w.src_alive _ (w.next_alive _ hh)))
    (orbit m.sig (m.vHe v)) (fun h hh => ((w.mem_ring a).1 hh).1) Vec3.zero 0 0 Vec3.Is.zero
  have hn : (0 + (orbit m.sig (m.vHe v)).length : ℝ) ≠ 0 := by
    rw [w.ring_length a, zero_add]; exact_mod_cast (outDeg_pos w a).ne'
  obtain ⟨b, hb, hb'⟩ := h1.div hn
  refine ⟨b, ?_, ?_⟩
  · unfold lapC
    have hl : (Scalar.lit 0 1 : XR) = XR.fin 0 := by rw [X_lit, R_lit0]
    rw [hl, h2, hb]
  · rw [centroid_ring w a]
    simpa using hb'

theorem moved_exact (w : m.WF) (A : m.AtE p) {c : Nat → Vec3 XR} (hc : ∀ v, m.vAlive v = true → (c v).Is (m.centroid p v)) (eps : ℝ) :
    ({ m with vPos := moved m (XR.fin eps) c } : Mesh XR).AtE (m.average eps p) := by
  intro v a
  have a : m.vAlive v = true := a
  unfold moved Mesh.average
  dsimp only
  by_cases h : m.Pinned v
  · rw [if_pos h, if_neg (by rw [(pinB_iff w a).2 h]; simp)]
    exact A v a
  · have hb : pinB m v = false := by
      rw [← Bool.not_eq_true, pinB_iff w a]; exact h
    rw [if_neg h, if_pos ⟨a, hb⟩]
    exact (A v a).mv (hc v a) eps

theorem lapSweep_exact (w : m.WF) (A : m.AtE p) (eps : ℝ) : ∃ m', lapSweep (XR.fin eps) false m = .ok () m' ∧
    m.SameButPos m' ∧ m'.AtE (m.average eps p) := by
  rcases lapSweep_run w (XR.fin eps) false with ⟨c, hc, h⟩ | ⟨⟨v, a, h⟩, -⟩
  · refine ⟨_, h, rfl, moved_exact w A (fun v a => ?_) eps⟩
    obtain ⟨d, hd, hd'⟩ := lapC_exact w A a
    rw [hc v a] at hd
    cases hd
    exact hd'
  · obtain ⟨d, hd, hd'⟩ := lapC_exact w A a
    rw [h] at hd; cases hd

theorem tauSweep_exact (w : m.WF) (A : m.AtE p) (eps : ℝ) : ∃ m', tauSweep (XR.fin eps) m = .ok () m' ∧
    m.SameButPos m' ∧ m'.AtE (m.average eps p) := by
  rcases tauSweep_run w (XR.fin eps) with ⟨c, hc, h⟩ | ⟨⟨v, a, h⟩, -⟩
  · exact ⟨_, h, rfl, moved_exact w A (fun v a => tauC_exact w A a (hc v a)) eps⟩
  · exact absurd h (tauC_some w A a)

end

theorem smoothLaplacian_exact (eps : ℝ) : ∀ (n : Nat) {m : Mesh XR} {p : Nat → E3}, m.WF → m.AtE p →
    ∃ m', smoothLaplacian (XR.fin eps) false n m = .ok () m' ∧ m.SameButPos m' ∧ m'.AtE ((m.average eps)^[n] p)
  | 0, m, p, w, A => ⟨m, rfl, .refl, A⟩
  | n + 1, m, p, w, A => by
    obtain ⟨m1, h1, s1, A1⟩ := lapSweep_exact w A eps
    obtain ⟨m2, h2, s2, A2⟩ := smoothLaplacian_exact eps n (s1.wf w) A1
    refine ⟨m2, ?_, s1.trans s2, ?_⟩
    · rw [smoothLaplacian, bind_apply, h1]; exact h2
    · have : m1.average eps = m.average eps := funext fun q => s1.average eps q
      rw [this] at A2
      rw [Function.iterate_succ_apply]
      exact A2

theorem tauLoop_exact (a b : ℝ) : ∀ (n it : Nat) {m : Mesh XR} {p : Nat → E3}, m.WF → m.AtE p →
    ∃ m', tauLoop (XR.fin a) (XR.fin b) it n m = .ok () m' ∧ m.SameButPos m' ∧ m'.AtE (m.taubin a b it n p)
  | 0, it, m, p, w, A => ⟨m, rfl, .refl, A⟩
  | n + 1, it, m, p, w, A => by
    obtain ⟨m1, h1, s1, A1⟩ := tauSweep_exact w A (if it % 2 = 0 then a else -b)
    obtain ⟨m2, h2, s2, A2⟩ := tauLoop_exact a b n (it + 1) (s1.wf w) A1
    refine ⟨m2, ?_, s1.trans s2, ?_⟩
    · have e : (if it % 2 = 0 then XR.fin a else -XR.fin b) = XR.fin (if it % 2 = 0 then a else -b) := by
        split <;> simp
      rw [tauLoop, bind_apply, e, h1]; exact h2
    · rw [s1.taubin] at A2
      exact A2

/-! ### Properties of averaging -/

section
variable {F : Type} {m : Mesh F}

theorem centroid_convex (w : m.WF) {v : Nat} (a : m.vAlive v = true) {p : Nat → E3} {C : Set E3} (hC : Convex ℝ C)
    (h : ∀ u, m.Joined v u → p u ∈ C) : m.centroid p v ∈ C := by
  rw [centroid_ring w a]
  have hnd := w.permSig.nodup_orbit (w.vHe_ok v a).1
  have hpos : (0 : ℝ) < ((orbit m.sig (m.vHe v)).length : ℝ) := by
    rw [w.ring_length a]; exact_mod_cast outDeg_pos w a
  have e : ((orbit m.sig (m.vHe v)).map fun h => p (m.hSrc (m.hNext h))).sum =
      ∑ h ∈ (orbit m.sig (m.vHe v)).toFinset, p (m.hSrc (m.hNext h)) := (List.sum_toFinset _ hnd).symm
  rw [e, Finset.smul_sum]
  apply hC.sum_mem
  · intro _ _; positivity
  · rw [Finset.sum_const, List.toFinset_card_of_nodup hnd, nsmul_eq_mul, mul_inv_cancel₀ hpos.ne']
  · intro x hx
    obtain ⟨h1, h2⟩ := (w.mem_ring a).1 (List.mem_toFinset.1 hx)
    exact h _ ⟨x, h1, h2, rfl⟩

theorem average_convex (w : m.WF) {p : Nat → E3} {C : Set E3} (hC : Convex ℝ C) (h : ∀ u, m.vAlive u = true → p u ∈ C) {eps : ℝ}
    (h0 : 0 ≤ eps) (h1 : eps ≤ 1) : ∀ u, m.vAlive u = true → m.average eps p u ∈ C := by
  intro u a
  unfold Mesh.average
  split
  · exact h u a
  · have hc : m.centroid p u ∈ C := centroid_convex w a hC (by
      rintro v ⟨x, hx, -, rfl⟩
      exact h _ (w.src_alive _ (w.next_alive _ hx)))
    exact hC.add_smul_sub_mem (h u a) hc ⟨h0, h1⟩

theorem average_affine (w : m.WF) {p q : Nat → E3} (A : E3 →ᵃ[ℝ] E3) (h : ∀ u, m.vAlive u = true → q u = A (p u)) (eps : ℝ) :
    ∀ u, m.vAlive u = true → m.average eps q u = A (m.average eps p u) := by
  intro u a
  unfold Mesh.average
  split
  · exact h u a
  · have hc : m.centroid q u = A (m.centroid p u) := by
      rw [centroid_ring w a, centroid_ring w a]
      have hpos : ((orbit m.sig (m.vHe u)).length : ℝ) ≠ 0 := by
        rw [w.ring_length a]; exact_mod_cast (outDeg_pos w a).ne'
      have key : ∀ l : List Nat, (∀ x ∈ l, m.hAlive x = true) → (l.map fun x => q (m.hSrc (m.hNext x))).sum =
          A.linear (l.map fun x => p (m.hSrc (m.hNext x))).sum + (l.length : ℝ) • A 0 := by
        intro l
        induction l with
        | nil => intro _; simp
        | cons x l ih =>
          intro hl
          rw [List.map_cons, List.sum_cons, ih (fun y hy => hl y (by simp [hy])), List.map_cons, List.sum_cons,
            h _ (w.src_alive _ (w.next_alive _ (hl x (by simp)))), map_add]
          have : A (p (m.hSrc (m.hNext x))) = A.linear (p (m.hSrc (m.hNext x))) + A 0 := by
            rw [AffineMap.decomp' A]; simp
          rw [this, List.length_cons]
          push_cast
          module
      rw [key _ fun x hx => ((w.mem_ring a).1 hx).1, smul_add, smul_smul, inv_mul_cancel₀ hpos, one_smul, ← map_smul]
      have : ∀ z, A z = A.linear z + A 0 := by intro z; rw [AffineMap.decomp' A]; simp
      rw [this (_ • _)]
    rw [hc, h u a]
    have : ∀ z, A z = A.linear z + A 0 := by intro z; rw [AffineMap.decomp' A]; simp
    rw [this (p u + _), this (m.centroid p u), this (p u)]
    simp only [map_add, map_smul, map_sub]
    module

theorem average_iter_convex (w : m.WF) {C : Set E3} (hC : Convex ℝ C) {eps : ℝ} (h0 : 0 ≤ eps) (h1 : eps ≤ 1) :
    ∀ (n : Nat) (p : Nat → E3), (∀ u, m.vAlive u = true → p u ∈ C) → ∀ u, m.vAlive u = true → (m.average eps)^[n] p u ∈ C
  | 0, _, h => h
  | n + 1, p, h => by
    rw [Function.iterate_succ_apply]
    exact average_iter_convex w hC h0 h1 n _ (average_convex w hC h h0 h1)

theorem average_iter_affine (w : m.WF) (A : E3 →ᵃ[ℝ] E3) (eps : ℝ) : ∀ (n : Nat) (p q : Nat → E3),
    (∀ u, m.vAlive u = true → q u = A (p u)) → ∀ u, m.vAlive u = true → (m.average eps)^[n] q u = A ((m.average eps)^[n] p u)
  | 0, _, _, h => h
  | n + 1, p, q, h => by
    rw [Function.iterate_succ_apply, Function.iterate_succ_apply]
    exact average_iter_affine w A eps n _ _ (average_affine w A h eps)

theorem taubin_affine (w : m.WF) (A : E3 →ᵃ[ℝ] E3) (a b : ℝ) : ∀ (n it : Nat) (p q : Nat → E3),
    (∀ u, m.vAlive u = true → q u = A (p u)) → ∀ u, m.vAlive u = true → m.taubin a b it n q u = A (m.taubin a b it n p u)
  | 0, _, _, _, h => h
  | n + 1, it, p, q, h => taubin_affine w A a b n (it + 1) _ _ (average_affine w A h _)

end
end TinyMesh
