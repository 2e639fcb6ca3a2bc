import Verif.Proof.CurvE
import Verif.Props.Denoise
/-
C59: vertex normals. C60: Gaussian curvature. C61: mean curvature.
-/
set_option maxRecDepth 100000
namespace TinyMesh
open Sample Orbit
attribute [local instance] Sample.ratScalar

section
variable {m : Mesh XR} {p : Nat → E3}

/-! ## C59: vertex normals -/

/-- C59: `Vertex::normal` at a vertex of a consistent mesh none of whose neighbours in the faces around it coincides with it. The result is
the direction of the sum of the face normals, each divided by the squares of the lengths of its two edges at the vertex; there is an
exception when that sum is zero. With a coinciding neighbour there is an exception in any case. -/
theorem c59_normal (w : m.WF) (A : m.AtE p) {v : Nat} (a : m.vAlive v = true) :
    ((∀ h, m.hAlive h = true → m.hSrc h = v → p (m.hSrc (m.hNext h)) ≠ p v ∧ p (m.hSrc (m.hNext (m.hNext h))) ≠ p v) →
      (m.maxSum p v ≠ 0 → ∃ n, vertNormal v m = .ok n m ∧ n.Is (unitOf (m.maxSum p v))) ∧
      (m.maxSum p v = 0 → vertNormal v m = .err .throw)) ∧
    (∀ h, m.hAlive h = true → m.hSrc h = v → p (m.hSrc (m.hNext h)) = p v ∨ p (m.hSrc (m.hNext (m.hNext h))) = p v →
      vertNormal v m = .err .throw) :=
  ⟨fun hd => vertNormal_exact w A a hd, fun _ ah sh hz => vertNormal_throws w A a ah sh hz⟩

/-- C59: the vertex normal is exact on a sphere. If all faces at a vertex are triangles, the vertex and its neighbours lie on a sphere and
the triangles face away from its centre, then the result is the unit vector from the centre to the vertex, whatever the shape of the
triangles. -/
theorem c59_sphere (w : m.WF) (A : m.AtE p) {v : Nat} (a : m.vAlive v = true) (t : m.TriRing v) {c : E3} {r : ℝ} (hs : m.OnSphere p c r v)
    (o : m.Outward p c v) : ∃ n, vertNormal v m = .ok n m ∧ n.Is (r⁻¹ • (p v - c)) := by
  obtain ⟨-, h0, hu⟩ := m.maxSum_sphere w a t hs o
  have hd : ∀ h, m.hAlive h = true → m.hSrc h = v → p (m.hSrc (m.hNext h)) ≠ p v ∧ p (m.hSrc (m.hNext (m.hNext h))) ≠ p v :=
    fun h ah sh => by have := (o.fat h ah sh).ne; rwa [sh] at this
  rw [← hu]
  exact (vertNormal_exact w A a hd).1 h0

/-- C59: the vertex normal is exact on a plane. If all faces at a vertex are triangles in the plane through the vertex with unit normal
`ν` and face the side of `ν`, then the result is `ν`. -/
theorem c59_plane (w : m.WF) (A : m.AtE p) {v : Nat} (a : m.vAlive v = true) (t : m.TriRing v) {ν : E3} (hν : ‖ν‖ = 1)
    (hs : ∀ h, m.hAlive h = true → m.hSrc h = v → inner ℝ (p (m.hSrc (m.hNext h)) - p v) ν = 0)
    (o : ∀ h, m.hAlive h = true → m.hSrc h = v → 0 < inner ℝ (triNormal (p v) (p (m.hSrc (m.hNext h))) (p (m.hSrc (m.hNext (m.hNext h))))) ν) :
    ∃ n, vertNormal v m = .ok n m ∧ n.Is ν := by
  have o' : m.Outward p (p v - ν) v := fun h ah sh => by rw [sub_sub_cancel]; exact o h ah sh
  have hd : ∀ h, m.hAlive h = true → m.hSrc h = v → p (m.hSrc (m.hNext h)) ≠ p v ∧ p (m.hSrc (m.hNext (m.hNext h))) ≠ p v :=
    fun h ah sh => by have := (o'.fat h ah sh).ne; rwa [sh] at this
  have hpar := m.maxSum_plane w a t hs
  rw [hν, one_pow, one_smul] at hpar
  have hp : 0 < inner ℝ (m.maxSum p v) ν := by
    unfold Mesh.maxSum
    rw [inner_sum_list]
    apply List.sum_pos
    · intro x hx
      obtain ⟨h, hh, rfl⟩ := List.mem_map.1 hx
      obtain ⟨h1, h2⟩ := (w.mem_ring a).1 ((w.ring_perm a).mem_iff.2 hh)
      rw [inner_smul_left]
      have n1 := norm_pos_iff.2 (sub_ne_zero.2 (hd h h1 h2).1)
      have n2 := norm_pos_iff.2 (sub_ne_zero.2 (hd h h1 h2).2)
      exact mul_pos (by simp only [conj_trivial]; positivity) (o h h1 h2)
    · intro e
      have := (w.ring_perm a).mem_iff.1 ((w.mem_ring a).2 (w.vHe_ok v a))
      rw [List.map_eq_nil_iff] at e
      change _ ∈ m.outs v at this
      rw [e] at this
      cases this
  have h0 : m.maxSum p v ≠ 0 := fun e => by rw [e, inner_zero_left] at hp; exact lt_irrefl _ hp
  obtain ⟨n, h1, h2⟩ := (vertNormal_exact w A a hd).1 h0
  refine ⟨n, h1, ?_⟩
  rw [hpar, unitOf_smul hp] at h2
  rwa [unitOf, hν, inv_one, one_smul] at h2

/-! ## C60: Gaussian curvature -/

/-- C60: at a vertex of a consistent mesh all of whose faces are triangles of positive area, `volonoiArea` returns the sum of the mixed
areas, which is positive, and `K` the defect of the angles divided by it. -/
theorem c60_defect (w : m.WF) (A : m.AtE p) {v : Nat} (a : m.vAlive v = true) (t : m.TriRing v)
    (hf : ∀ h, m.hAlive h = true → m.hSrc h = v → m.Fat p h) :
    vorArea v m = .ok (.fin (m.mixedSum p v)) m ∧ 0 < m.mixedSum p v ∧
      gaussK v m = .ok (.fin ((2 * Real.pi - m.angleSum p v) / m.mixedSum p v)) m :=
  ⟨vorArea_exact w A a t, m.mixedSum_pos w a hf, gaussK_exact w A a t hf⟩

/-- C60: theorem of Gauss and Bonnet. On a consistent closed mesh of triangles of positive area, `K` and `volonoiArea` succeed for every
vertex, and the sum of their products over all vertices is `2π` times the Euler characteristic. The areas of the vertices add up to the
area of the mesh, up to 1e-20 for each triangle. -/
theorem c60_gauss_bonnet (w : m.WF) (A : m.AtE p) (c : m.Closed p) :
    ∃ K B : Nat → ℝ, (∀ v, m.vAlive v = true → gaussK v m = .ok (.fin (K v)) m ∧ vorArea v m = .ok (.fin (B v)) m ∧ 0 < B v) ∧
      (m.vs.map fun v => K v * B v).sum = Real.pi * m.euler2 ∧
      (m.vs.map B).sum ≤ m.totalArea p ∧ m.totalArea p - m.fs.length / 10 ^ 20 ≤ (m.vs.map B).sum := gauss_bonnet w A c

/-! ## C61: mean curvature -/

/-- C61: at a vertex of a consistent mesh all of whose faces are triangles of positive area and whose normal exists, `H` returns the
component of the cotangent Laplacian against the normal, divided by twice the area of the vertex. -/
theorem c61_formula (w : m.WF) (A : m.AtE p) {v : Nat} (a : m.vAlive v = true) (t : m.TriRing v)
    (hf : ∀ h, m.hAlive h = true → m.hSrc h = v → m.Fat p h) (hn : m.maxSum p v ≠ 0) :
    meanH v m = .ok (.fin (-inner ℝ (m.cotLap p v) (unitOf (m.maxSum p v)) / (2 * m.mixedSum p v))) m := meanH_exact w A a t hf hn

/-- C61: on a plane `H` is zero. -/
theorem c61_plane (w : m.WF) (A : m.AtE p) {v : Nat} (a : m.vAlive v = true) (t : m.TriRing v)
    (hf : ∀ h, m.hAlive h = true → m.hSrc h = v → m.Fat p h) (hn : m.maxSum p v ≠ 0) {ν : E3} (h0 : ν ≠ 0)
    (hs : ∀ h, m.hAlive h = true → m.hSrc h = v → inner ℝ (p (m.hSrc (m.hNext h)) - p v) ν = 0) :
    meanH v m = .ok (.fin 0) m := meanH_plane w A a t hf hn h0 hs

/-- C61, as far as it holds: on a sphere of radius `r`, at a vertex whose triangles are not obtuse and face outwards, `H` returns `2 / r`
exactly, for every number and shape of the triangles. This is the sum of the principal curvatures. -/
theorem c61_sphere_partial (w : m.WF) (A : m.AtE p) {v : Nat} (a : m.vAlive v = true) (t : m.TriRing v) {c : E3} {r : ℝ}
    (hs : m.OnSphere p c r v) (o : m.Outward p c v)
    (no : ∀ h, m.hAlive h = true → m.hSrc h = v → NotObtuse (p v) (p (m.hSrc (m.hNext h))) (p (m.hSrc (m.hNext (m.hNext h))))) :
    meanH v m = .ok (.fin (2 / r)) m := meanH_sphere w A a t hs o no

end

/-! ### Examples -/

/-- the corners of a regular tetrahedron -/
def ballAt (v : Nat) : Vec3 ℝ := if v = 1 then ⟨1, 1, 1⟩ else if v = 2 then ⟨1, -1, -1⟩ else if v = 3 then ⟨-1, 1, -1⟩ else ⟨-1, -1, 1⟩

/-- a regular tetrahedron satisfies the hypotheses of the theorems for closed meshes and for spheres -/
theorem ball_facts : ∃ m : Mesh XR, m.Good ∧ m.vs = [1, 2, 3, 4] ∧ (m.AtE fun v => (ballAt v).E) ∧ (m.Closed fun v => (ballAt v).E) ∧
    ∀ v, m.vAlive v = true → m.TriRing v ∧ m.OnSphere (fun v => (ballAt v).E) 0 (Real.sqrt 3) v ∧ m.Outward (fun v => (ballAt v).E) 0 v ∧
      ∀ h, m.hAlive h = true → m.hSrc h = v →
        NotObtuse (ballAt v).E (ballAt (m.hSrc (m.hNext h))).E (ballAt (m.hSrc (m.hNext (m.hNext h)))).E := by
  obtain ⟨m, G, C⟩ := corner_tables
  have w := G.wf
  have hh : ∀ h, m.hAlive h = true → h ∈ [1, 2, 3, 4, 5, 6, 7, 8, 9, 10, 11, 12] := fun h a => by
    rw [← C.hes]; exact (w.hDense.mem h).2 a
  have hv : ∀ v, m.vAlive v = true → v ∈ [1, 2, 3, 4] := fun v a => by rw [← C.vs]; exact (w.vDense.mem v).2 a
  obtain ⟨a1, a2, a3, d, e, f, g, h0⟩ := C
  rw [a3] at e f g h0
  simp only [List.map_cons, List.map_nil, List.cons.injEq, and_true] at e f g h0
  have tri : ∀ h, m.hAlive h = true → m.OnTri h := fun h a => by
    have := hh h a
    simp only [List.mem_cons, List.not_mem_nil, or_false] at this
    unfold Mesh.OnTri
    rcases this with rfl | rfl | rfl | rfl | rfl | rfl | rfl | rfl | rfl | rfl | rfl | rfl <;> simp only [f]
  have norm3 : ∀ x : Vec3 ℝ, x.x ^ 2 + x.y ^ 2 + x.z ^ 2 = 3 → ‖x.E - 0‖ = Real.sqrt 3 := by
    intro x hx
    rw [sub_zero, ← hx, ← Real.sqrt_sq (norm_nonneg x.E), ← real_inner_self_eq_norm_sq, Vec3.E_inner, Vec3.dot_def]
    congr 1; ring
  have onS : ∀ v, m.vAlive v = true → ‖(ballAt v).E - 0‖ = Real.sqrt 3 := fun v a => by
    have := hv v a
    simp only [List.mem_cons, List.not_mem_nil, or_false] at this
    apply norm3
    rcases this with rfl | rfl | rfl | rfl <;> norm_num [ballAt]
  have out : ∀ h, m.hAlive h = true → 0 < inner ℝ (triNormal (ballAt (m.hSrc h)).E (ballAt (m.hSrc (m.hNext h))).E
      (ballAt (m.hSrc (m.hNext (m.hNext h)))).E) ((ballAt (m.hSrc h)).E - 0) ∧
      NotObtuse (ballAt (m.hSrc h)).E (ballAt (m.hSrc (m.hNext h))).E (ballAt (m.hSrc (m.hNext (m.hNext h)))).E := fun h a => by
    have := hh h a
    simp only [List.mem_cons, List.not_mem_nil, or_false] at this
    rw [triNormal_E, sub_zero, Vec3.E_inner, NotObtuse, ← Vec3.E_sub, ← Vec3.E_sub, ← Vec3.E_sub, ← Vec3.E_sub, ← Vec3.E_sub, ← Vec3.E_sub,
      Vec3.E_inner, Vec3.E_inner, Vec3.E_inner]
    rcases this with rfl | rfl | rfl | rfl | rfl | rfl | rfl | rfl | rfl | rfl | rfl | rfl <;>
      (simp only [f, e, ballAt]; norm_num [Vec3.cross_def, Vec3.sub_def, Vec3.dot_def])
  refine ⟨m.overR ballAt, G.over _, a2, fun v _ => ⟨ballAt v, rfl, rfl⟩, fun h a => ⟨tri h a, fun e => ?_⟩, fun v a =>
    ⟨fun h a _ => tri h a, ⟨onS v a, fun h a _ => onS _ (w.src_alive _ (w.next_alive _ a))⟩, ?_, ?_⟩⟩
  · have := (out h a).1
    unfold Mesh.overR Mesh.over at e
    dsimp only at e
    rw [e, inner_zero_left] at this
    exact lt_irrefl _ this
  · intro h a s
    have := (out h a).1
    change m.hSrc h = v at s
    rw [s] at this
    exact this
  · intro h a s
    have := (out h a).2
    change m.hSrc h = v at s
    rw [s] at this
    exact this

/-- C61 does not hold: `H`, documented as the mean curvature, differs from the mean curvature `1 / r` of the sphere at every vertex of
every mesh as in `c61_sphere_partial`; a regular tetrahedron is such a mesh. -/
theorem c61_mean_counterexample : (∃ (m : Mesh XR) (p : Nat → E3) (v : Nat), m.Good ∧ m.AtE p ∧ m.vAlive v = true ∧ m.TriRing v ∧
      m.OnSphere p 0 (Real.sqrt 3) v ∧ m.Outward p 0 v ∧ meanH v m ≠ .ok (.fin (1 / Real.sqrt 3)) m) ∧
    ∀ (m : Mesh XR) (p : Nat → E3) (v : Nat) (c : E3) (r : ℝ), m.WF → m.AtE p → m.vAlive v = true → m.TriRing v → m.OnSphere p c r v →
      m.Outward p c v →
      (∀ h, m.hAlive h = true → m.hSrc h = v → NotObtuse (p v) (p (m.hSrc (m.hNext h))) (p (m.hSrc (m.hNext (m.hNext h))))) →
      meanH v m ≠ .ok (.fin (1 / r)) m := by
  have main : ∀ (m : Mesh XR) (p : Nat → E3) (v : Nat) (c : E3) (r : ℝ), m.WF → m.AtE p → m.vAlive v = true → m.TriRing v → m.OnSphere p c r v →
      m.Outward p c v →
      (∀ h, m.hAlive h = true → m.hSrc h = v → NotObtuse (p v) (p (m.hSrc (m.hNext h))) (p (m.hSrc (m.hNext (m.hNext h))))) →
      meanH v m ≠ .ok (.fin (1 / r)) m := by
    intro m p v c r w A a t hs o no e
    have hr := (m.maxSum_sphere w a t hs o).1
    rw [c61_sphere_partial w A a t hs o no] at e
    have : 2 / r = 1 / r := by injection e with e _; injection e
    rw [div_left_inj' hr.ne'] at this
    norm_num at this
  refine ⟨?_, main⟩
  obtain ⟨m, G, vs, A, c, h⟩ := ball_facts
  have a : m.vAlive 1 = true := (G.wf.vDense.mem 1).1 (by rw [vs]; simp)
  obtain ⟨t, s, o, no⟩ := h 1 a
  exact ⟨m, _, 1, G, A, a, t, s, o, main m _ 1 0 _ G.wf A a t s o no⟩

/-- the total curvature of a tetrahedron is `4π` -/
example : ∃ (m : Mesh XR) (K B : Nat → ℝ), m.Good ∧ m.vs = [1, 2, 3, 4] ∧
    (∀ v, m.vAlive v = true → gaussK v m = .ok (.fin (K v)) m ∧ vorArea v m = .ok (.fin (B v)) m ∧ 0 < B v) ∧
    (m.vs.map fun v => K v * B v).sum = Real.pi * m.euler2 := by
  obtain ⟨m, G, vs, A, c, h⟩ := ball_facts
  obtain ⟨K, B, h1, h2, -⟩ := c60_gauss_bonnet G.wf A c
  exact ⟨m, K, B, G, vs, h1, h2⟩

/-- the normal of the corner of the tetrahedron at (1, 1, 1) -/
example : ∃ (m : Mesh XR) (n : Vec3 XR), m.Good ∧ m.vAlive 1 = true ∧ vertNormal 1 m = .ok n m ∧ n.Is ((Real.sqrt 3)⁻¹ • ((⟨1, 1, 1⟩ : Vec3 ℝ).E - 0)) := by
  obtain ⟨m, G, vs, A, c, h⟩ := ball_facts
  have a : m.vAlive 1 = true := (G.wf.vDense.mem 1).1 (by rw [vs]; simp)
  obtain ⟨t, s, o, no⟩ := h 1 a
  obtain ⟨n, h1, h2⟩ := c59_sphere G.wf A a t s o
  exact ⟨m, n, G, a, h1, h2⟩

/-- a vertex inside a triangle, with three triangles around it -/
def flatAt (v : Nat) : Vec3 ℝ := if v = 1 then ⟨0, 0, 0⟩ else if v = 2 then ⟨1, 0, 0⟩ else if v = 3 then ⟨0, 1, 0⟩ else ⟨-1, -1, 0⟩

/-- its normal is the normal of the plane and its mean curvature is zero -/
example : ∃ (m : Mesh XR) (n : Vec3 XR), m.Good ∧ m.vAlive 1 = true ∧ vertNormal 1 m = .ok n m ∧ n.Is (⟨0, 0, 1⟩ : Vec3 ℝ).E ∧
    meanH 1 m = .ok (.fin 0) m := by
  obtain ⟨m, G, C⟩ := corner_tables
  have w := G.wf
  have hh : ∀ h, m.hAlive h = true → h ∈ [1, 2, 3, 4, 5, 6, 7, 8, 9, 10, 11, 12] := fun h a => by
    rw [← C.hes]; exact (w.hDense.mem h).2 a
  have a : m.vAlive 1 = true := (w.vDense.mem 1).1 (by rw [C.vs]; simp)
  obtain ⟨a1, a2, a3, d, e, f, g, h0⟩ := C
  rw [a3] at e f g h0
  simp only [List.map_cons, List.map_nil, List.cons.injEq, and_true] at e f g h0
  have tri : (m.overR flatAt).TriRing 1 := fun h a _ => by
    have := hh h a
    simp only [List.mem_cons, List.not_mem_nil, or_false] at this
    change m.OnTri h
    unfold Mesh.OnTri
    rcases this with rfl | rfl | rfl | rfl | rfl | rfl | rfl | rfl | rfl | rfl | rfl | rfl <;> simp only [f]
  have A : (m.overR flatAt).AtE fun v => (flatAt v).E := fun v _ => ⟨flatAt v, rfl, rfl⟩
  have w' := w.over fun v => (flatAt v).fin
  have hs : ∀ h, m.hAlive h = true → m.hSrc h = 1 → inner ℝ ((flatAt (m.hSrc (m.hNext h))).E - (flatAt 1).E) (⟨0, 0, 1⟩ : Vec3 ℝ).E = 0 ∧
      0 < inner ℝ (triNormal (flatAt 1).E (flatAt (m.hSrc (m.hNext h))).E (flatAt (m.hSrc (m.hNext (m.hNext h)))).E) (⟨0, 0, 1⟩ : Vec3 ℝ).E := by
    intro h a s
    have := hh h a
    simp only [List.mem_cons, List.not_mem_nil, or_false] at this
    rw [triNormal_E, ← Vec3.E_sub, Vec3.E_inner, Vec3.E_inner]
    rcases this with rfl | rfl | rfl | rfl | rfl | rfl | rfl | rfl | rfl | rfl | rfl | rfl <;>
      first
      | (exfalso; simp only [e] at s; omega)
      | (simp only [f, e, flatAt]; norm_num [Vec3.cross_def, Vec3.sub_def, Vec3.dot_def])
  have n1 : ‖(⟨0, 0, 1⟩ : Vec3 ℝ).E‖ = 1 := by
    rw [← Real.sqrt_sq (norm_nonneg _), ← real_inner_self_eq_norm_sq, Vec3.E_inner, Vec3.dot_def]; norm_num
  obtain ⟨n, h1, h2⟩ := c59_plane w' A a tri n1 (fun h a s => (hs h a s).1) fun h a s => (hs h a s).2
  have fat : ∀ h, m.hAlive h = true → m.hSrc h = 1 → (m.overR flatAt).Fat (fun v => (flatAt v).E) h := by
    intro h a s e
    have := (hs h a s).2
    unfold Mesh.overR Mesh.over at e
    dsimp only at e
    rw [s] at e
    rw [e, inner_zero_left] at this
    exact lt_irrefl _ this
  refine ⟨m.overR flatAt, n, G.over _, a, h1, h2, c61_plane w' A a tri fat ?_ (fun e => ?_) fun h a s => (hs h a s).1⟩
  · intro e
    have := (vertNormal_exact w' A a fun h ah sh => ?_).2 e
    · rw [h1] at this; cases this
    · have := (fat h ah sh).ne
      change m.hSrc h = 1 at sh
      unfold Mesh.overR Mesh.over at this
      dsimp only at this
      rw [sh] at this
      exact this
  · rw [e, norm_zero] at n1; norm_num at n1

end TinyMesh
