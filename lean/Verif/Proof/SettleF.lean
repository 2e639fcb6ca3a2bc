import Verif.Proof.SettleE
/-
The gradients.
-/
namespace TinyMesh
open Orbit
variable {m : Mesh XR} {p : Nat → E3}

/-- the double cross product -/
theorem crossE_crossE (a b : E3) : crossE a (crossE a b) = inner ℝ a b • a - ‖a‖ ^ 2 • b := by
  obtain ⟨u, rfl⟩ := Vec3.E_surj a
  obtain ⟨v, rfl⟩ := Vec3.E_surj b
  rw [crossE_E, crossE_E, Vec3.E_inner, Vec3.E_norm, pow_two, Vec3.length_sq, ← Vec3.E_smul, ← Vec3.E_smul, ← Vec3.E_sub, Vec3.E_inj]
  apply Vec3.ext' <;> simp [Vec3.cross_def, Vec3.smul_def, Vec3.sub_def, Vec3.dot_def] <;> ring

/-- the altitude of a triangle with positive area is not zero -/
theorem altitude_ne {x y z : E3} (h : triNormal x y z ≠ 0) :
    y ≠ x ∧ z ≠ y ∧ (inner ℝ (z - y) (x - y) / ‖z - y‖ ^ 2) • (z - y) - (x - y) ≠ 0 := by
  refine ⟨fun e => h ?_, fun e => h ?_, fun e => h ?_⟩
  · rw [e]; unfold triNormal; simp
  · rw [e]; unfold triNormal; simp
  · generalize inner ℝ (z - y) (x - y) / ‖z - y‖ ^ 2 = c at e
    have e : x - y = c • (z - y) := (sub_eq_zero.1 e).symm
    rw [← triNormal_rot]
    unfold triNormal
    rw [e]
    simp

theorem sideTurned_exact {a b c : Vec3 XR} {x y z : E3} (ha : a.Is x) (hb : b.Is y) (hc : c.Is z) (h : triNormal x y z ≠ 0) :
    ∃ e, sideTurned a b c = some e ∧ e.Is (awayOf x y z) := by
  obtain ⟨h1, h2, h3⟩ := altitude_ne h
  have nx : x - y ≠ 0 := sub_ne_zero.2 h1.symm
  have nz : z - y ≠ 0 := sub_ne_zero.2 h2
  obtain ⟨e10, k1, i1⟩ := (ha.sub hb).normalize nx
  obtain ⟨e12, k2, i2⟩ := (hc.sub hb).normalize nz
  have i3 := i2.crossE (i2.crossE i1)
  have eq : crossE (unitOf (z - y)) (crossE (unitOf (z - y)) (unitOf (x - y))) =
      ‖x - y‖⁻¹ • ((inner ℝ (z - y) (x - y) / ‖z - y‖ ^ 2) • (z - y) - (x - y)) := by
    rw [crossE_crossE, unit_norm nz]
    unfold unitOf
    generalize hX : x - y = X
    generalize hZ : z - y = Z
    rw [inner_smul_left, inner_smul_right, smul_sub, smul_smul, smul_smul, smul_smul]
    simp only [map_inv₀, conj_trivial, one_pow, one_mul]
    congr 2
    field_simp
  have hp : 0 < ‖x - y‖⁻¹ := inv_pos.2 (norm_pos_iff.2 nx)
  rw [eq] at i3
  obtain ⟨r, k3, i4⟩ := i3.normalize (smul_ne_zero hp.ne' h3)
  rw [unitOf_smul hp] at i4
  refine ⟨r.smul (c.sub b).length, ?_, ?_⟩
  · unfold sideTurned
    dsimp only
    simp only [k1, k2, Option.bind_eq_bind, Option.bind_some, k3]
    rfl
  · rw [(hc.sub hb).length]
    exact i4.smul _

/-- one term -/
theorem gradAt_exact (w : m.WF) (A : m.AtE p) {R : Nat → Option (Mat3 XR)} {Q : Nat → E3 → E3} {h : Nat} (a : m.hAlive h = true) (t : m.OnTri h)
    (z : m.areaVec p (m.hFace h) ≠ 0) (hR : ∃ B, R (m.hFace h) = some B ∧ ∀ c z, Vec3.Is c z → (B.apply c).Is (Q (m.hFace h) z)) :
    ∃ g, gradAt R h m = .ok g m ∧ g.Is ((1 / 2 : ℝ) • Q (m.hFace h) (m.away p h)) := by
  have a1 := w.next_alive _ a
  have a2 := w.next_alive _ a1
  have v0 := w.src_alive _ a
  have v1 := w.src_alive _ a1
  have v2 := w.src_alive _ a2
  rw [areaVec_of w a t] at z
  obtain ⟨e, k1, i1⟩ := sideTurned_exact (A _ v0) (A _ v1) (A _ v2) z
  obtain ⟨B, hB, hQ⟩ := hR
  obtain ⟨g, k2, i2⟩ := (hQ _ _ i1).div (s := 2) (by norm_num)
  refine ⟨g, ?_, ?_⟩
  · unfold gradAt
    have t' : m.hNext (m.hNext (m.hNext h)) = h := t
    have two : (Scalar.lit 2 1 : XR) = XR.fin 2 := by rw [X_lit_fin]; norm_num
    simp only [bind_apply, getNext_ok a, getNext_ok a1, getNext_ok a2, t', M.assert, beq_self_eq_true, if_true, getSrc_ok a, getSrc_ok a1, getSrc_ok a2,
      getPos_ok v0, getPos_ok v1, getPos_ok v2, k1, orThrowM, pure_apply, getFace_ok a, hB, two, k2]
  · rw [one_div]
    exact i2

theorem gradLoop_exact (w : m.WF) (A : m.AtE p) {R : Nat → Option (Mat3 XR)} {Q : Nat → E3 → E3} : ∀ (hs : List Nat) (s : Vec3 XR) (x : E3), s.Is x →
    (∀ h ∈ hs, m.hAlive h = true ∧ m.OnTri h ∧ m.areaVec p (m.hFace h) ≠ 0 ∧
      ∃ B, R (m.hFace h) = some B ∧ ∀ c z, Vec3.Is c z → (B.apply c).Is (Q (m.hFace h) z)) →
    ∃ g, gradLoop R hs s m = .ok g m ∧ g.Is (x + (hs.map fun h => (1 / 2 : ℝ) • Q (m.hFace h) (m.away p h)).sum)
  | [], s, x, hx, _ => ⟨s, rfl, by simpa using hx⟩
  | h :: hs, s, x, hx, H => by
    obtain ⟨a, t, z, hR⟩ := H h (by simp)
    obtain ⟨g, e, hg⟩ := gradAt_exact w A a t z hR
    obtain ⟨g', e', hg'⟩ := gradLoop_exact w A hs _ _ (hx.add hg) fun k hk => H k (by simp [hk])
    refine ⟨g', ?_, ?_⟩
    · rw [gradLoop, bind_apply, e]
      exact e'
    · rw [List.map_cons, List.sum_cons, ← add_assoc]
      exact hg'

/-- the mean at one vertex -/
theorem gradOf_exact (w : m.WF) (A : m.AtE p) {R : Nat → Option (Mat3 XR)} {Q : Nat → E3 → E3} {v : Nat} (a : m.vAlive v = true)
    (H : ∀ h, m.hAlive h = true → m.hSrc h = v → m.OnTri h ∧ m.areaVec p (m.hFace h) ≠ 0 ∧
      ∃ B, R (m.hFace h) = some B ∧ ∀ c z, Vec3.Is c z → (B.apply c).Is (Q (m.hFace h) z)) :
    ∃ g, gradOf R v m = .ok g m ∧ g.Is (m.meanAway p Q v) := by
  obtain ⟨g, e, hg⟩ := gradLoop_exact w A (R := R) (Q := Q) (orbit m.sig (m.vHe v)) Vec3.zero 0 Vec3.Is.zero (fun h hh => by
    obtain ⟨a1, a2⟩ := (w.mem_ring a).1 hh
    exact ⟨a1, H h a1 a2⟩)
  rw [zero_add, ← w.outs_sum a] at hg
  have hl : ((orbit m.sig (m.vHe v)).length : ℝ) ≠ 0 := by
    have : m.vHe v ∈ orbit m.sig (m.vHe v) := (w.mem_ring a).2 (w.vHe_ok v a)
    have := List.length_pos_of_mem this
    exact_mod_cast this.ne'
  obtain ⟨r, k, i⟩ := hg.div hl
  refine ⟨r, ?_, ?_⟩
  · unfold gradOf
    rw [bind_apply, w.ringList_ok a]; dsimp only
    rw [bind_apply, e]; dsimp only
    have : (Scalar.lit ((orbit m.sig (m.vHe v)).length : Int) 1 : XR) = XR.fin (orbit m.sig (m.vHe v)).length := by rw [X_lit_fin]; norm_num
    rw [this, k]; rfl
  · unfold Mesh.meanAway
    have : (m.outs v).length = (orbit m.sig (m.vHe v)).length := (w.ring_perm a).length_eq.symm
    rw [this]
    exact i

theorem gradsLoop_exact (w : m.WF) (A : m.AtE p) {R : Nat → Option (Mat3 XR)} {Q : Nat → E3 → E3} : ∀ (vs : List Nat) (g : Nat → Vec3 XR) (ds : List Nat),
    (∀ v ∈ ds, (g v).Is (m.meanAway p Q v)) → (∀ v ∈ vs, m.vAlive v = true ∧ ∀ h, m.hAlive h = true → m.hSrc h = v → m.OnTri h ∧ m.areaVec p (m.hFace h) ≠ 0 ∧
      ∃ B, R (m.hFace h) = some B ∧ ∀ c z, Vec3.Is c z → (B.apply c).Is (Q (m.hFace h) z)) →
    ∃ g', foldAll (fun v g => do
      let x ← gradOf R v
      pure (upd g v x)) vs g m = .ok g' m ∧ ∀ v ∈ ds ++ vs, (g' v).Is (m.meanAway p Q v)
  | [], g, ds, hg, _ => ⟨g, rfl, by simpa using hg⟩
  | v :: vs, g, ds, hg, H => by
    obtain ⟨x, e, hx⟩ := gradOf_exact w A (H v (by simp)).1 (H v (by simp)).2
    obtain ⟨g', e', hg'⟩ := gradsLoop_exact w A vs (upd g v x) (ds ++ [v]) (by
      intro u hu
      by_cases c : u = v
      · subst c; rw [upd_same]; exact hx
      · rw [upd_ne _ _ c]; exact hg u (by simpa [c] using hu)) fun u hu => H u (by simp [hu])
    refine ⟨g', ?_, ?_⟩
    · unfold foldAll
      rw [bind_apply, bind_apply, e]
      exact e'
    · rw [show ds ++ v :: vs = ds ++ [v] ++ vs by simp]; exact hg'

theorem gradients_exact (w : m.WF) (A : m.AtE p) {R : Nat → Option (Mat3 XR)} {Q : Nat → E3 → E3} {vs : List Nat}
    (H : ∀ v ∈ vs, m.vAlive v = true ∧ ∀ h, m.hAlive h = true → m.hSrc h = v → m.OnTri h ∧ m.areaVec p (m.hFace h) ≠ 0 ∧
      ∃ B, R (m.hFace h) = some B ∧ ∀ c z, Vec3.Is c z → (B.apply c).Is (Q (m.hFace h) z)) :
    ∃ g, gradients R vs m = .ok g m ∧ ∀ v ∈ vs, (g v).Is (m.meanAway p Q v) := by
  have := gradsLoop_exact w A (R := R) (Q := Q) vs (fun _ => Vec3.zero) [] (by intro v hv; cases hv) H
  rwa [List.nil_append] at this

end TinyMesh
