import Verif.Proof.RemC
import Verif.Proof.OperA
/-
Which vertices remeshing locks, in exact arithmetic.
-/
namespace TinyMesh
open Orbit
variable {m : Mesh XR} {p : Nat → E3}

theorem foldl_fmin (g : Nat → XR) (r : Nat → ℝ) (keep : ℝ) : ∀ (l : List Nat) (s : ℝ), (∀ j ∈ l, g j = XR.fin (r j)) →
    ∃ t : ℝ, l.foldl (fun mn j => fmin (g j) mn) (XR.fin s) = XR.fin t ∧ (t < keep ↔ s < keep ∨ ∃ j ∈ l, r j < keep)
  | [], s, _ => ⟨s, rfl, by simp⟩
  | j :: l, s, h => by
    obtain ⟨t, e, ht⟩ := foldl_fmin g r keep l (min (r j) s) fun x hx => h x (by simp [hx])
    refine ⟨t, ?_, ?_⟩
    · rw [List.foldl_cons, h j (by simp), X_fmin, R_fmin]; exact e
    · rw [ht, min_lt_iff]
      simp only [List.mem_cons, exists_eq_or_imp]
      tauto

/-- the neighbours of the `j`-th neighbour of a vertex, before and after it in the ring -/
theorem ring_nbr (w : m.WF) {v : Nat} (a : m.vAlive v = true) (q : Nat → Vec3 XR) (d : Vec3 XR) {j : Nat}
    (hj : j < (orbit m.sig (m.vHe v)).length) :
    ∃ h h', m.hAlive h = true ∧ m.hSrc h = v ∧ m.hAlive h' = true ∧ m.sig h' = h ∧ h = (orbit m.sig (m.vHe v))[j] ∧
      ((orbit m.sig (m.vHe v)).map q).getD j d = q h ∧
      ((orbit m.sig (m.vHe v)).map q).getD ((j + 1) % (orbit m.sig (m.vHe v)).length) d = q (m.sig h) ∧
      ((orbit m.sig (m.vHe v)).map q).getD ((j + (orbit m.sig (m.vHe v)).length - 1) % (orbit m.sig (m.vHe v)).length) d = q h' := by
  have hv := (w.vHe_ok v a).1
  have P := w.permSig
  have hs := P.period_spec hv
  rw [length_orbit] at hj ⊢
  set n := period m.sig (m.vHe v) with hn
  have get : ∀ k, k < n → ((orbit m.sig (m.vHe v)).map q).getD k d = q (m.sig^[k] (m.vHe v)) := by
    intro k hk
    have : (orbit m.sig (m.vHe v))[k]? = some (m.sig^[k] (m.vHe v)) := by
      unfold orbit
      rw [List.getElem?_map, List.getElem?_range (by rw [← hn]; exact hk)]; rfl
    rw [List.getD_eq_getElem?_getD, List.getElem?_map, this]; rfl
  have mem : m.sig^[j] (m.vHe v) ∈ orbit m.sig (m.vHe v) := (P.mem_orbit hv).2 ⟨j, rfl⟩
  have hm := (w.mem_ring a).1 mem
  refine ⟨m.sig^[j] (m.vHe v), m.sig^[(j + n - 1) % n] (m.vHe v), hm.1, hm.2, P.iter hv _, ?_, ?_, get j hj, ?_, ?_⟩
  · rw [← P.iter_mod hv, ← Function.iterate_succ_apply' m.sig, show (j + n - 1).succ = j + n by omega,
      Function.iterate_add_apply, hs.2.1]
  · unfold orbit
    simp
  · rw [get _ (Nat.mod_lt _ hs.1), ← P.iter_mod hv, Function.iterate_succ_apply' m.sig]
  · rw [get _ (Nat.mod_lt _ hs.1)]

theorem ringAngle_exact (w : m.WF) (A : m.AtE p) {v : Nat} (a : m.vAlive v = true)
    (t : ∀ h, m.hAlive h = true → m.hSrc h = v → m.OnTri h) (keep : ℝ) :
    Scalar.lt (ringAngle m v) (XR.fin keep) = true ↔
      Real.pi < keep ∨ ∃ h, m.hAlive h = true ∧ m.hSrc h = v ∧ m.angleOf p h < keep := by
  have hv := (w.vHe_ok v a).1
  unfold ringAngle minDihedral
  rw [List.length_map]
  set l := orbit m.sig (m.vHe v) with hl
  have key : ∀ j, j < l.length → ∃ h, l[j]? = some h ∧ m.hAlive h = true ∧ m.hSrc h = v ∧
      Vec3.dihedral ((l.map fun h => m.vPos (m.hSrc (m.hNext h))).getD ((j + 1) % l.length) (m.vPos v)) (m.vPos v)
        ((l.map fun h => m.vPos (m.hSrc (m.hNext h))).getD j (m.vPos v))
        ((l.map fun h => m.vPos (m.hSrc (m.hNext h))).getD ((j + l.length - 1) % l.length) (m.vPos v)) = XR.fin (m.angleOf p h) := by
    intro j hj
    obtain ⟨h, h', ah, sh, ah', hs, he, e1, e2, e3⟩ := ring_nbr w a (fun h => m.vPos (m.hSrc (m.hNext h))) (m.vPos v) hj
    refine ⟨h, by rw [he]; exact List.getElem?_eq_getElem hj, ah, sh, ?_⟩
    have ar := w.rev_alive _ ah
    have a2 := w.next_alive _ ah
    have a3 := w.next_alive _ a2
    have b2 := w.next_alive _ ar
    have b3 := w.next_alive _ b2
    have f : m.hSrc (m.hNext h') = m.hSrc (m.hNext (m.hNext h)) := by
      have ar' := w.rev_alive _ ah'
      have : m.hRev h' = m.hNext (m.hNext h) := by
        apply w.next_inj _ _ ar' a3
        have : m.hNext (m.hRev h') = h := hs
        rw [this, t h ah sh]
      rw [← this, w.src_rev _ ah']
    have f2 : m.hSrc (m.hNext (m.sig h)) = m.hSrc (m.hNext (m.hNext (m.hRev h))) := rfl
    rw [e1, e2, e3, f, f2]
    obtain ⟨p1, q1, r1⟩ := A _ (w.src_alive _ ah)
    obtain ⟨p2, q2, r2⟩ := A _ (w.src_alive _ a2)
    obtain ⟨p3, q3, r3⟩ := A _ (w.src_alive _ a3)
    obtain ⟨p4, q4, r4⟩ := A _ (w.src_alive _ b3)
    rw [← sh, q1, q2, q3, q4, dihedral_ok, r1, r2, r3, r4]
    unfold Mesh.angleOf
    dsimp only
    rw [InnerProductGeometry.angle_comm]
    simp only [or_comm]
  choose! h k1 k2 k3 k4 using key
  obtain ⟨s, e, hs⟩ := foldl_fmin (fun j => Vec3.dihedral ((l.map fun h => m.vPos (m.hSrc (m.hNext h))).getD ((j + 1) % l.length) (m.vPos v)) (m.vPos v)
        ((l.map fun h => m.vPos (m.hSrc (m.hNext h))).getD j (m.vPos v))
        ((l.map fun h => m.vPos (m.hSrc (m.hNext h))).getD ((j + l.length - 1) % l.length) (m.vPos v)))
    (fun j => m.angleOf p (h j)) keep (List.range l.length) Real.pi (fun j hj => k4 j (List.mem_range.1 hj))
  rw [X_pi, e, X_lt, R_lt, hs]
  refine or_congr Iff.rfl ⟨?_, ?_⟩
  · rintro ⟨j, hj, hk⟩
    have hj := List.mem_range.1 hj
    exact ⟨h j, k2 j hj, k3 j hj, hk⟩
  · rintro ⟨x, ax, sx, hk⟩
    have : x ∈ l := (w.mem_ring a).2 ⟨ax, sx⟩
    obtain ⟨j, hj, e⟩ := List.mem_iff_getElem.1 this
    refine ⟨j, List.mem_range.2 hj, ?_⟩
    have := k1 j hj
    rw [List.getElem?_eq_getElem hj, e] at this
    cases this; exact hk

end TinyMesh
