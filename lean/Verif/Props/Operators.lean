import Verif.Proof.OperB
import Verif.Spec.SampleX
/-
C30, C51: Laplacian matrices and averages.
-/
set_option maxRecDepth 100000
namespace TinyMesh
open Sample

/-! ## C30: Laplacian matrices -/

/-- C30: on a consistent mesh the adjacency Laplacian is computed without undefined behaviour. It is a symmetric real matrix whose rows
add up to zero, and its quadratic form is the sum of the squared differences along the edges. When no two edges join the same vertices
the diagonal has the degrees, and the other coefficients are -1 for neighbours and 0 otherwise. -/
theorem c30_adjacent {m : Mesh XR} (wf : m.WF) : ∃ L A, meshLaplacian .adjacent m = .ok L m ∧ m.HasMatrix L A ∧
    A.mulVec (fun _ => 1) = 0 ∧ A.IsSymm ∧
    (∀ x : Nat → ℝ, dotProduct (fun i : Fin m.vs.length => x m.vs[i]) (A.mulVec fun i => x m.vs[i]) = m.energy (fun _ => 1) x) ∧
    (m.Simple → (∀ i, A i i = m.outDeg m.vs[i]) ∧
      ∀ i j, i ≠ j → (m.Joined m.vs[i] m.vs[j] → A i j = -1) ∧ (¬ m.Joined m.vs[i] m.vs[j] → A i j = 0)) := by
  obtain ⟨ts, L, h1, h2, h3⟩ := laplacian_of wf (w := fun _ => 1) (row := adjRow) fun i v hi => adjRow_ok wf hi
  refine ⟨L, m.lapMat fun _ => 1, ?_, h3.hasMatrix, lapMat_rows wf _, lapMat_symm wf fun _ _ => rfl,
    lapMat_energy wf fun _ _ => rfl, ?_⟩
  · simp only [meshLaplacian, bind_apply, read_apply]
    rw [h1]
    exact h2
  · intro sm
    have hout : ∀ v, m.weightOut (fun _ => 1) v = m.outDeg v := by
      intro v
      unfold Mesh.weightOut Mesh.outDeg
      rw [List.countP_eq_length_filter]
      simp
    have hto : ∀ u v, m.weightTo (fun _ => 1) u v = (m.hes.filter fun h => m.hSrc h == u && m.hSrc (m.hNext h) == v).length := by
      intro u v
      unfold Mesh.weightTo
      simp
    have hz : ∀ u v, ¬ m.Joined u v → m.weightTo (fun _ => 1) u v = 0 := by
      intro u v hj
      rw [hto, List.filter_eq_nil_iff.2]
      · simp
      · intro h hh
        rw [Bool.and_eq_true, beq_iff_eq, beq_iff_eq]
        exact fun e => hj ⟨h, (wf.hDense.mem h).1 hh, e.1, e.2⟩
    constructor
    · intro i
      unfold Mesh.lapMat
      rw [if_pos rfl, hout, hz, sub_zero]
      rintro ⟨h, a, e1, e2⟩
      exact sm.no_loop h a (e1.trans e2.symm)
    · intro i j hij
      unfold Mesh.lapMat
      rw [if_neg hij, zero_sub]
      constructor
      · rintro ⟨h, a, e1, e2⟩
        have : (m.hes.filter fun h => m.hSrc h == m.vs[i] && m.hSrc (m.hNext h) == m.vs[j]).Perm [h] := by
          rw [List.perm_ext_iff_of_nodup (wf.hDense.nodup.filter _) (by simp)]
          intro y
          rw [List.mem_filter, Bool.and_eq_true, beq_iff_eq, beq_iff_eq, List.mem_singleton]
          constructor
          · rintro ⟨hy, e3, e4⟩
            exact sm.no_dup _ _ ((wf.hDense.mem y).1 hy) a (e3.trans e1.symm) (e4.trans e2.symm)
          · rintro rfl
            exact ⟨(wf.hDense.mem _).2 a, e1, e2⟩
        rw [hto, this.length_eq]
        simp
      · intro hj
        rw [hz _ _ hj, neg_zero]

/-- C30: with finite positions the cotangent Laplacian is a symmetric real matrix whose rows add up to zero; its weights are half the
sum of the cotangents of the two angles opposite to the edge. -/
theorem c30_cotangent {m : Mesh XR} (wf : m.WF) {p : Nat → E3} (A : m.AtE p) : ∃ L A, meshLaplacian .cotangent m = .ok L m ∧
    m.HasMatrix L A ∧ A.mulVec (fun _ => 1) = 0 ∧ A.IsSymm ∧ m.IsLaplacian (m.cotOf p) L ∧
    ∀ x : Nat → ℝ, dotProduct (fun i : Fin m.vs.length => x m.vs[i]) (A.mulVec fun i => x m.vs[i]) = m.energy (m.cotOf p) x := by
  obtain ⟨ts, L, h1, h2, h3⟩ := laplacian_of wf (w := m.cotOf p) (row := cotRow) fun i v hi => cotRow_ok wf A hi
  refine ⟨L, m.lapMat (m.cotOf p), ?_, h3.hasMatrix, lapMat_rows wf _, lapMat_symm wf fun h a => cotOf_rev wf p a, h3,
    lapMat_energy wf fun h a => cotOf_rev wf p a⟩
  simp only [meshLaplacian, bind_apply, read_apply]
  rw [h1]
  exact h2

/-- C30: with finite positions that are not all the same along every edge the Belkin Laplacian is a symmetric positive semidefinite real
matrix whose rows add up to zero; the scale is the mean edge length. -/
theorem c30_belkin {m : Mesh XR} (wf : m.WF) {p : Nat → E3} (A : m.AtE p) {h0 : Nat} (a0 : m.hAlive h0 = true)
    (hp : p (m.hSrc h0) ≠ p (m.hSrc (m.hNext h0))) : ∃ L A, meshLaplacian .belkin08 m = .ok L m ∧
    m.HasMatrix L A ∧ A.mulVec (fun _ => 1) = 0 ∧ A.IsSymm ∧ m.IsLaplacian (m.gaussOf p (m.meanLen p)) L ∧
    ∀ x : Nat → ℝ, dotProduct (fun i : Fin m.vs.length => x m.vs[i]) (A.mulVec fun i => x m.vs[i]) =
      m.energy (m.gaussOf p (m.meanLen p)) x ∧ 0 ≤ m.energy (m.gaussOf p (m.meanLen p)) x := by
  have hpos := meanLen_pos wf a0 hp
  obtain ⟨ts, L, h1, h2, h3⟩ := laplacian_of wf (w := m.gaussOf p (m.meanLen p)) (row := belRow (XR.fin (m.meanLen p)))
    fun i v hi => belRow_ok wf A hpos.ne' hi
  refine ⟨L, m.lapMat (m.gaussOf p (m.meanLen p)), ?_, h3.hasMatrix, lapMat_rows wf _,
    lapMat_symm wf fun h a => gaussOf_rev wf p _ a, h3, fun x => ⟨lapMat_energy wf (fun h a => gaussOf_rev wf p _ a) x, ?_⟩⟩
  · simp only [meshLaplacian, bind_apply, read_apply]
    rw [meanEdgeLength_exact wf A (List.ne_nil_of_mem ((wf.hDense.mem h0).2 a0))]
    dsimp only
    rw [h1]
    exact h2
  · unfold Mesh.energy
    apply div_nonneg _ (by norm_num)
    apply List.sum_nonneg
    intro y hy
    obtain ⟨h, -, rfl⟩ := List.mem_map.1 hy
    apply mul_nonneg _ (sq_nonneg _)
    unfold Mesh.gaussOf
    have := Real.exp_pos (-(dist (p (m.hSrc h)) (p (m.hSrc (m.hNext h))) ^ 2 / (4 * m.meanLen p)))
    have := Real.pi_pos
    positivity

/-- C30: a value outside the enumeration ends the program. -/
theorem c30_other {m : Mesh XR} : meshLaplacian .other m = .err .abort := rfl

/-! ## C51: averages -/

/-- C51: with finite positions the mean edge length is the sum of the lengths of the edges over their number. -/
theorem c51_edge_length {m : Mesh XR} (wf : m.WF) {p : Nat → E3} (A : m.AtE p) (hne : m.hes ≠ []) {S : List Nat} (o : m.OnePerEdge S) :
    meanEdgeLength m = .ok (XR.fin ((S.map fun h => dist (p (m.hSrc h)) (p (m.hSrc (m.hNext h)))).sum / S.length)) m := by
  rw [meanEdgeLength_exact wf A hne]
  have e : m.meanLen p = (m.hes.map (lenOf m p)).sum / m.hes.length := rfl
  rw [e, onePerEdge_sum wf o fun h a => lenOf_rev wf a, onePerEdge_length wf o]
  push_cast
  rw [mul_div_mul_left _ _ (by norm_num)]
  rfl

/-- C51: with finite positions the mean dihedral angle is the sum of the angles at the edges over their number. -/
theorem c51_dihedral {m : Mesh XR} (wf : m.WF) {p : Nat → E3} (A : m.AtE p) (hne : m.hes ≠ []) {S : List Nat} (o : m.OnePerEdge S) :
    meanDihedralAngle m = .ok (XR.fin ((S.map fun h => m.angleOf p h).sum / S.length)) m := by
  rw [meanDihedralAngle_exact wf A hne, onePerEdge_sum wf o fun h a => angleOf_rev wf a, onePerEdge_length wf o]
  push_cast
  rw [mul_div_mul_left _ _ (by norm_num)]

/-- every mesh has such a choice of half-edges -/
theorem c51_choice {m : Mesh XR} (wf : m.WF) : ∃ S, m.OnePerEdge S := by
  have key : ∀ l : List Nat, (∀ h ∈ l, m.hAlive h = true) → l.Nodup → ∃ S : List Nat, S.Nodup ∧ (∀ h ∈ S, h ∈ l ∧ m.hRev h ∉ S) ∧
      ∀ h ∈ l, h ∈ S ∨ m.hRev h ∈ S := by
    intro l
    induction l with
    | nil => intro _ _; exact ⟨[], by simp, by simp, by simp⟩
    | cons x l ih =>
      intro hl nd
      obtain ⟨hx, nd⟩ := List.nodup_cons.1 nd
      obtain ⟨S, h1, h2, h3⟩ := ih (fun h hh => hl h (by simp [hh])) nd
      by_cases c : m.hRev x ∈ S
      · refine ⟨S, h1, fun h hh => ⟨by simp [(h2 h hh).1], (h2 h hh).2⟩, ?_⟩
        intro h hh
        rcases List.mem_cons.1 hh with rfl | hh
        · exact Or.inr c
        · exact h3 h hh
      · refine ⟨x :: S, List.nodup_cons.2 ⟨fun e => hx (h2 x e).1, h1⟩, ?_, ?_⟩
        · intro h hh
          rcases List.mem_cons.1 hh with rfl | hh
          · refine ⟨by simp, fun e => ?_⟩
            rcases List.mem_cons.1 e with e | e
            · exact wf.rev_ne _ (hl _ (by simp)) e
            · exact c e
          · refine ⟨by simp [(h2 h hh).1], fun e => ?_⟩
            rcases List.mem_cons.1 e with e | e
            · apply c
              rw [← e, wf.rev_rev _ (hl h (by simp [(h2 h hh).1]))]
              exact hh
            · exact (h2 h hh).2 e
        · intro h hh
          rcases List.mem_cons.1 hh with rfl | hh
          · exact Or.inl (by simp)
          · rcases h3 h hh with h4 | h4
            · exact Or.inl (by simp [h4])
            · exact Or.inr (by simp [h4])
  obtain ⟨S, h1, h2, h3⟩ := key m.hes (fun h hh => (wf.hDense.mem h).1 hh) wf.hDense.nodup
  exact ⟨S, h1, fun h hh => (wf.hDense.mem h).1 (h2 h hh).1, fun h hh => (h2 h hh).2, fun h a => h3 h ((wf.hDense.mem h).2 a)⟩

/-- C51: when all faces are triangles the mean face area is the sum of the areas of the faces over their number. A mesh with a boundary
counts the polygons that fill its holes as faces too. -/
theorem c51_face_area_partial {m : Mesh XR} (g : m.Good) {p : Nat → E3} (A : m.AtE p) (ht : ∀ f, m.fAlive f = true → m.OnTri (m.fHe f))
    (hne : m.fs ≠ []) :
    meanFaceArea m = .ok (XR.fin ((m.fs.map fun f => m.areaOf p (m.fHe f)).sum / m.fs.length)) m :=
  meanFaceArea_exact g A ht hne

/-- C51 fails for faces with more corners: the computed area of a trapezoid depends on the corner where the loop begins. -/
theorem c51_area_counterexample : ∃ a b c d : Vec3 ℝ,
    polyArea [a.fin, b.fin, c.fin, d.fin] = XR.fin 3 ∧ polyArea [b.fin, c.fin, d.fin, a.fin] = XR.fin 2 := by
  have hl : (Scalar.lit 0 1 : XR) = XR.fin 0 := by rw [X_lit, R_lit0]
  have s4 : Real.sqrt 4 = 2 := by rw [show (4 : ℝ) = 2 * 2 by norm_num, Real.sqrt_mul_self (by norm_num)]
  have s16 : Real.sqrt 16 = 4 := by rw [show (16 : ℝ) = 4 * 4 by norm_num, Real.sqrt_mul_self (by norm_num)]
  refine ⟨⟨0, 0, 0⟩, ⟨4, 0, 0⟩, ⟨3, 1, 0⟩, ⟨1, 1, 0⟩, ?_, ?_⟩
  all_goals
    simp only [polyArea, areaLoop]
    rw [hl]
    simp only [Vec3.X_vsub, Vec3.X_vcross, Vec3.X_vlength, X_lit, X_mul, X_add]
    congr 1
    simp only [Vec3.length_def, Vec3.dot_def, Vec3.cross_def, Vec3.sub_def, R_lit]
    norm_num [s4, s16]

/-- a closed mesh with exact coordinates, all of whose faces are triangles and whose edges are not degenerate -/
example : ∃ (m : Mesh XR) (p : Nat → E3) (S : List Nat) (h : Nat), m.Good ∧ m.AtE p ∧ m.vs.length = 4 ∧ m.hes ≠ [] ∧ m.OnePerEdge S ∧
    m.hAlive h = true ∧ p (m.hSrc h) ≠ p (m.hSrc (m.hNext h)) ∧ (∀ f, m.fAlive f = true → m.OnTri (m.fHe f)) ∧ m.fs ≠ [] := by
  obtain ⟨m, hm, G, hv, hi⟩ := closedX corner_valid corner_merged corner_manifold corner_closed dbl
  obtain ⟨p, A, hp⟩ := exists_at G.wf hv
  obtain ⟨S, hS⟩ := c51_choice G.wf
  have h4 : m.vs.length = 4 := by
    have := congrArg List.length hv
    simpa [cornerV] using this
  obtain ⟨v, l, hvl⟩ := List.exists_cons_of_ne_nil (show m.vs ≠ [] by intro e; rw [e] at h4; simp at h4)
  have av : m.vAlive v = true := (G.wf.vDense.mem v).1 (by rw [hvl]; simp)
  obtain ⟨ah, hsrc⟩ := G.wf.vHe_ok v av
  refine ⟨m, fun v => (p v).E, S, m.vHe v, G, fun v a => ⟨p v, A v a, rfl⟩, h4, List.ne_nil_of_mem ((G.wf.hDense.mem _).2 ah), hS, ah, ?_, ?_⟩
  on_goal 2 =>
    obtain ⟨ts, e, hc⟩ := c02_closed_no_holes (Owned.empty dbl) hm
    rw [hi] at e
    have e : ts = cornerT := by
      have h3 := toTris_ofTris ts
      rw [← e, toTris_ofTris] at h3
      cases h3; rfl
    subst e
    obtain ⟨h1, -, h2⟩ := hc (by decide +kernel)
    exact ⟨fun f a => (h2 _ (G.wf.fHe_ok f a).1).1, by intro e; rw [e] at h1; exact absurd h1 (by decide +kernel)⟩
  intro e
  dsimp only at e
  rw [Vec3.E_inj] at e
  have nd : (m.vs.map p).Nodup := by
    rw [hp]
    have : (cornerV).Nodup := by simp [cornerV, pt]
    refine this.map ?_
    intro a b h
    cases a; cases b
    simpa [Vec3.toR] using h
  have := List.inj_on_of_nodup_map nd ((G.wf.vDense.mem _).2 (G.wf.src_alive _ ah))
    ((G.wf.vDense.mem _).2 (G.wf.src_alive _ (G.wf.next_alive _ ah))) e
  exact G.simple.no_loop _ ah this

end TinyMesh
