import Verif.Proof.CurvD
import Verif.Proof.Count
import Verif.Spec.Remesh
import Mathlib.Geometry.Euclidean.Triangle
/-
Sums over all vertices: the theorem of Gauss and Bonnet, the total area.
-/
namespace TinyMesh
open Orbit

theorem sum_key {A : Type} [AddCommMonoid A] {f : Nat → Nat} {ks : List Nat} (nd : ks.Nodup) (T : Nat → A) : ∀ l : List Nat, (∀ x ∈ l, f x ∈ ks) →
    (ks.map fun k => ((l.filter fun x => f x == k).map T).sum).sum = (l.map T).sum
  | [], _ => by simp
  | x :: l, h => by
    have ih := sum_key nd T l fun y hy => h y (by simp [hy])
    have hx : f x ∈ ks := h x (by simp)
    rw [List.map_cons, List.sum_cons, ← ih]
    have e : ∀ k, (((x :: l).filter fun x => f x == k).map T).sum = (if k = f x then T x else 0) + ((l.filter fun x => f x == k).map T).sum := by
      intro k
      rw [List.filter_cons]
      by_cases hk : k = f x
      · subst hk; simp
      · simp [hk, Ne.symm hk]
    rw [List.map_congr_left fun k _ => e k, List.sum_map_add]
    congr 1
    clear ih h e
    induction ks with
    | nil => simp at hx
    | cons k ks ih =>
      rw [List.nodup_cons] at nd
      rw [List.map_cons, List.sum_cons]
      by_cases hk : k = f x
      · subst hk
        rw [if_pos rfl]
        have : (ks.map fun k => if k = f x then T x else 0) = ks.map fun _ => 0 :=
          List.map_congr_left fun k hk => by rw [if_neg]; rintro rfl; exact nd.1 hk
        rw [this]; simp
      · rw [if_neg hk, zero_add]
        exact ih nd.2 (by simpa [Ne.symm hk] using hx)

section
variable {F : Type} {m : Mesh F} {p : Nat → E3}

theorem Mesh.WF.sum_verts {A : Type} [AddCommMonoid A] (w : m.WF) (T : Nat → A) :
    (m.vs.map fun v => ((m.outs v).map T).sum).sum = (m.hes.map T).sum :=
  sum_key w.vDense.nodup T _ fun h hh => (w.vDense.mem _).2 (w.src_alive _ ((w.hDense.mem h).1 hh))

theorem Mesh.WF.sum_next {A : Type} [AddCommMonoid A] (w : m.WF) (T : Nat → A) :
    (m.hes.map fun h => T (m.hNext h)).sum = (m.hes.map T).sum := by
  have hp : (m.hes.map m.hNext).Perm m.hes := by
    apply List.Subperm.perm_of_length_le
    · apply List.subperm_of_subset
      · apply List.Nodup.map_on _ w.hDense.nodup
        intro x hx y hy e
        exact w.next_inj _ _ ((w.hDense.mem _).1 hx) ((w.hDense.mem _).1 hy) e
      · intro x hx
        obtain ⟨y, hy, rfl⟩ := List.mem_map.1 hx
        exact (w.hDense.mem _).2 (w.next_alive _ ((w.hDense.mem _).1 hy))
    · simp
  rw [← (hp.map T).sum_eq, List.map_map]; rfl

/-- three times a sum over the corners is a sum over the triangles -/
theorem Mesh.WF.three_sum (w : m.WF) (T : Nat → ℝ) :
    3 * (m.hes.map T).sum = (m.hes.map fun h => T h + T (m.hNext h) + T (m.hNext (m.hNext h))).sum := by
  rw [List.sum_map_add, List.sum_map_add, w.sum_next fun h => T (m.hNext h), w.sum_next T]
  ring

theorem Mesh.Closed.ne (c : m.Closed p) {h : Nat} (a : m.hAlive h = true) : m.hNext h ≠ h := by
  intro e
  have := ((c h a).2).ne.1
  rw [e] at this
  exact this rfl

theorem Mesh.WF.closed_orbit (w : m.WF) (c : m.Closed p) {h : Nat} (a : m.hAlive h = true) :
    orbit m.hNext h = [h, m.hNext h, m.hNext (m.hNext h)] := by
  have hs := w.permNext.period_spec a
  have t := (c h a).1
  have h1 := c.ne a
  have h2 : m.hNext (m.hNext h) ≠ h := by
    intro e; unfold Mesh.OnTri at t; rw [e] at t; exact h1 t
  have p3 : period m.hNext h = 3 := by
    have hle : period m.hNext h ≤ 3 := by
      by_contra hgt
      exact hs.2.2 3 (by omega) (by omega) t
    have : period m.hNext h ≠ 1 := by intro e; have := hs.2.1; rw [e] at this; exact h1 this
    have : period m.hNext h ≠ 2 := by intro e; have := hs.2.1; rw [e] at this; exact h2 this
    omega
  unfold orbit
  rw [p3]; rfl

theorem Mesh.WF.sum_faces {A : Type} [AddCommMonoid A] (w : m.WF) (c : m.Closed p) (T : Nat → A) :
    (m.hes.map T).sum = (m.fs.map fun f => T (m.fHe f) + (T (m.hNext (m.fHe f)) + T (m.hNext (m.hNext (m.fHe f))))).sum := by
  rw [← sum_key w.fDense.nodup T _ fun h hh => (w.fDense.mem _).2 (w.face_alive _ ((w.hDense.mem h).1 hh))]
  congr 1
  refine List.map_congr_left fun f hf => ?_
  have af := (w.fDense.mem _).1 hf
  rw [← ((w.loop_perm af).map T).sum_eq, w.closed_orbit c (w.fHe_ok f af).1]
  simp

theorem Mesh.WF.closed_count (w : m.WF) (c : m.Closed p) : m.hes.length = 3 * m.fs.length := by
  have := w.sum_faces c fun _ => 1
  simp at this
  omega

theorem Mesh.WF.angle_total (w : m.WF) (c : m.Closed p) : (m.vs.map (m.angleSum p)).sum = Real.pi * m.fs.length := by
  have h1 : (m.vs.map (m.angleSum p)).sum = (m.hes.map (m.cornerAng p)).sum := w.sum_verts _
  have h2 := w.three_sum (m.cornerAng p)
  have h3 : (m.hes.map fun h => m.cornerAng p h + m.cornerAng p (m.hNext h) + m.cornerAng p (m.hNext (m.hNext h))).sum =
      (m.hes.map fun _ => Real.pi).sum := by
    congr 1
    refine List.map_congr_left fun h hh => ?_
    have a := (w.hDense.mem _).1 hh
    have t := (c h a).1
    unfold Mesh.OnTri at t
    unfold Mesh.cornerAng
    rw [t]
    have := EuclideanGeometry.angle_add_angle_add_angle_eq_pi (p (m.hSrc (m.hNext (m.hNext h)))) ((c h a).2).ne.1
    rw [← this]
    rw [EuclideanGeometry.angle_comm (p (m.hSrc (m.hNext (m.hNext h)))) (p (m.hSrc (m.hNext h))) (p (m.hSrc h)),
      EuclideanGeometry.angle_comm (p (m.hSrc h)) (p (m.hSrc (m.hNext (m.hNext h)))) (p (m.hSrc (m.hNext h))),
      EuclideanGeometry.angle_comm (p (m.hSrc (m.hNext h))) (p (m.hSrc h)) (p (m.hSrc (m.hNext (m.hNext h))))]
    ring
  have h4 := w.closed_count c
  have h5 : (m.hes.length : ℝ) = 3 * m.fs.length := by exact_mod_cast h4
  rw [h3, List.map_const', List.sum_replicate, nsmul_eq_mul, h5] at h2
  rw [h1]
  linarith

theorem mixed_three (x y z : E3) : mixedArea x y z + mixedArea y z x + mixedArea z x y ≤ triArea x y z ∧
    triArea x y z - 1 / 10 ^ 20 ≤ mixedArea x y z + mixedArea y z x + mixedArea z x y := by
  obtain ⟨u, rfl⟩ := Vec3.E_surj x
  obtain ⟨v, rfl⟩ := Vec3.E_surj y
  obtain ⟨t, rfl⟩ := Vec3.E_surj z
  obtain ⟨a, b, c, h1, h2, h3, -, -, -, h4, h5⟩ := vor_sum u v t
  rw [triArea_E]
  have iu : Vec3.Is u.fin u.E := ⟨_, rfl, rfl⟩
  have iv : Vec3.Is v.fin v.E := ⟨_, rfl, rfl⟩
  have it : Vec3.Is t.fin t.E := ⟨_, rfl, rfl⟩
  rw [vorCorner_exact iu iv it, XR.fin.injEq] at h1
  rw [vorCorner_exact iv it iu, XR.fin.injEq] at h2
  rw [vorCorner_exact it iu iv, XR.fin.injEq] at h3
  rw [h1, h2, h3]
  exact ⟨h4, h5⟩

theorem Mesh.WF.area_total (w : m.WF) (c : m.Closed p) : (m.vs.map (m.mixedSum p)).sum ≤ m.totalArea p ∧
    m.totalArea p - m.fs.length / 10 ^ 20 ≤ (m.vs.map (m.mixedSum p)).sum := by
  let M : Nat → ℝ := fun h => mixedArea (p (m.hSrc h)) (p (m.hSrc (m.hNext h))) (p (m.hSrc (m.hNext (m.hNext h))))
  have e : (m.vs.map (m.mixedSum p)).sum = (m.hes.map M).sum := by
    rw [← w.sum_verts]
    congr 1
    refine List.map_congr_left fun v hv => ?_
    unfold Mesh.mixedSum
    congr 1
    refine List.map_congr_left fun h hh => ?_
    have : m.hSrc h = v := by simpa using (List.mem_filter.1 hh).2
    simp only [M]
    rw [this]
  rw [e, w.sum_faces c]
  unfold Mesh.totalArea
  have tri : ∀ f ∈ m.fs, M (m.fHe f) + (M (m.hNext (m.fHe f)) + M (m.hNext (m.hNext (m.fHe f)))) ≤
      triArea (p (m.hSrc (m.fHe f))) (p (m.hSrc (m.hNext (m.fHe f)))) (p (m.hSrc (m.hNext (m.hNext (m.fHe f))))) ∧
      triArea (p (m.hSrc (m.fHe f))) (p (m.hSrc (m.hNext (m.fHe f)))) (p (m.hSrc (m.hNext (m.hNext (m.fHe f))))) + -(1 / 10 ^ 20) ≤
      M (m.fHe f) + (M (m.hNext (m.fHe f)) + M (m.hNext (m.hNext (m.fHe f)))) := by
    intro f hf
    have a := (w.fHe_ok f ((w.fDense.mem _).1 hf)).1
    have t := (c _ a).1
    unfold Mesh.OnTri at t
    have := mixed_three (p (m.hSrc (m.fHe f))) (p (m.hSrc (m.hNext (m.fHe f)))) (p (m.hSrc (m.hNext (m.hNext (m.fHe f)))))
    simp only [M]
    rw [t]
    rw [← add_assoc]
    exact ⟨this.1, by linarith [this.2]⟩
  constructor
  · exact List.sum_le_sum fun f hf => (tri f hf).1
  · have := List.sum_le_sum fun f hf => (tri f hf).2
    rw [List.sum_map_add, List.map_const', List.sum_replicate, nsmul_eq_mul] at this
    have e2 : (m.fs.length : ℝ) * -(1 / 10 ^ 20) = -(m.fs.length / 10 ^ 20) := by ring
    rw [e2] at this
    linarith

end

variable {m : Mesh XR} {p : Nat → E3}

/-- the sum of the Gaussian curvatures times the areas is `2π` times the Euler characteristic -/
theorem gauss_bonnet (w : m.WF) (A : m.AtE p) (c : m.Closed p) :
    ∃ K B : Nat → ℝ, (∀ v, m.vAlive v = true → gaussK v m = .ok (.fin (K v)) m ∧ vorArea v m = .ok (.fin (B v)) m ∧ 0 < B v) ∧
      (m.vs.map fun v => K v * B v).sum = Real.pi * m.euler2 ∧
      (m.vs.map B).sum ≤ m.totalArea p ∧ m.totalArea p - m.fs.length / 10 ^ 20 ≤ (m.vs.map B).sum := by
  have hf : ∀ v h, m.hAlive h = true → m.hSrc h = v → m.Fat p h := fun v h a _ => (c h a).2
  have t : ∀ v, m.TriRing v := fun v h a _ => (c h a).1
  refine ⟨fun v => (2 * Real.pi - m.angleSum p v) / m.mixedSum p v, m.mixedSum p, fun v a =>
    ⟨gaussK_exact w A a (t v) (hf v), vorArea_exact w A a (t v), m.mixedSum_pos w a (hf v)⟩, ?_, w.area_total c⟩
  have e : (m.vs.map fun v => (2 * Real.pi - m.angleSum p v) / m.mixedSum p v * m.mixedSum p v) =
      m.vs.map fun v => 2 * Real.pi + -1 * m.angleSum p v := by
    refine List.map_congr_left fun v hv => ?_
    rw [div_mul_cancel₀ _ (m.mixedSum_pos w ((w.vDense.mem _).1 hv) (hf v)).ne']
    ring
  rw [e, List.sum_map_add, List.sum_map_mul_left (f := m.angleSum p), w.angle_total c, List.map_const', List.sum_replicate, nsmul_eq_mul]
  have h4 := w.closed_count c
  have h5 : (m.hes.length : ℝ) = 3 * m.fs.length := by exact_mod_cast h4
  unfold Mesh.euler2
  push_cast
  rw [h5]
  ring

end TinyMesh
