import Verif.Props.Coherent
/-
C69, C70: the mixture and the radius for the curvatures of a mesh.
-/
namespace TinyMesh
variable {m : Mesh XR} {p : Nat → E3}

theorem maxCurve_list {ks : List (Principal XR)} {ab : List (ℝ × ℝ)}
    (fin : ks.map (fun k => (k.kMax, k.kMin)) = ab.map fun x => (XR.fin x.1, XR.fin x.2)) :
    ks.map maxCurve = (ab.map fun x => max |x.1| |x.2|).map XR.fin := by
  have e1 : ks.map maxCurve = (ks.map fun k => (k.kMax, k.kMin)).map fun x => fmax (ScalarX.abs x.1) (ScalarX.abs x.2) := by
    rw [List.map_map]; rfl
  rw [e1, fin, List.map_map, List.map_map]
  refine List.map_congr_left fun x _ => ?_
  simp only [Function.comp]
  rw [X_abs, X_abs, X_fmax, R_fmax]

/-- C69: the samples are the larger of the absolute values of the two curvatures of every vertex. -/
theorem c69_curvatures {ks : List (Principal XR)} {ab : List (ℝ × ℝ)}
    (fin : ks.map (fun k => (k.kMax, k.kMin)) = ab.map fun x => (XR.fin x.1, XR.fin x.2)) {cs : List ℝ}
    (hcs : cs = ab.map fun x => max |x.1| |x.2|) {a b : ℝ} (ha : a ∈ cs) (hb : b ∈ cs) (hab : a ≠ b) :
    ∃ M : Nat → Mixture, M 0 = Mixture.start cs ∧ ∀ k, Gmm.run (ks.map maxCurve) k = (M k).fin ∧ (M k).Proper ∧ (M k).Next (M (k + 1)) cs ∧
      (M k).logLik cs ≤ (M (k + 1)).logLik cs := by
  obtain ⟨M, h0, h⟩ := c69_rounds ha hb hab
  refine ⟨M, h0, fun k => ⟨?_, (h k).2.1, (h k).2.2.1, (h k).2.2.2.1⟩⟩
  rw [maxCurve_list fin, ← hcs]
  exact (h k).1

/-- two vertices, with curvatures 2 and -3, and 1 and -1: the samples are 3 and 1 -/
example (s t : Vec3 XR) : ∃ M : Nat → Mixture, M 0 = Mixture.start [3, 1] ∧ ∀ k,
    Gmm.run ([⟨.fin 2, .fin (-3), s, t⟩, ⟨.fin 1, .fin (-1), s, t⟩].map maxCurve) k = (M k).fin ∧ (M k).Proper := by
  obtain ⟨M, h0, h⟩ := c69_curvatures (ks := [⟨.fin 2, .fin (-3), s, t⟩, ⟨.fin 1, .fin (-1), s, t⟩]) (ab := [(2, -3), (1, -1)]) rfl
    (cs := [3, 1]) (a := 3) (b := 1) (by simp [abs_of_pos]; norm_num) (by simp) (by simp) (by norm_num)
  exact ⟨M, h0, fun k => ⟨(h k).1, (h k).2.1⟩⟩

/-- C70, as far as it holds, for a mesh whose curvatures are computed and finite: the mixture is fitted to the larger of the absolute
values of the two curvatures of every vertex. If these numbers are all equal, the conversion to `int` is undefined behaviour; otherwise
the rounds are those of C69 for these numbers and the radius is `⌈1 / (L μ) + 1⌉` for the mean edge length `L` and the mean `μ` of the
second component after 20 rounds, if this fits into an `int`. -/
theorem c70_mesh_partial (w : m.WF) (A : m.AtE p) (hne : m.hes ≠ []) (hL : 0 < m.meanLen p) {solve : LinSolve XR}
    {ks : List (Principal XR)} (run : principalCurvatures solve false m = .ok ks m) {ab : List (ℝ × ℝ)}
    (fin : ks.map (fun k => (k.kMax, k.kMin)) = ab.map fun x => (XR.fin x.1, XR.fin x.2)) {cs : List ℝ}
    (hcs : cs = ab.map fun x => max |x.1| |x.2|) :
    (cs ≠ [] → (∀ a ∈ cs, ∀ b ∈ cs, a = b) → patchRadiusM solve m = .err .ub) ∧
    ∀ a ∈ cs, ∀ b ∈ cs, a ≠ b → ∃ M : Nat → Mixture, M 0 = Mixture.start cs ∧
      (∀ k, (M k).Proper ∧ (M k).Next (M (k + 1)) cs ∧ (M k).logLik cs ≤ (M (k + 1)).logLik cs) ∧ 0 < (M 20).mean 1 ∧
      patchRadiusM solve m = if ⌈1 / (m.meanLen p * (M 20).mean 1) + 1⌉ ≤ 2147483647
        then .ok ⌈1 / (m.meanLen p * (M 20).mean 1) + 1⌉ m else .err .ub := by
  have hm : ks.map maxCurve = cs.map XR.fin := by rw [maxCurve_list fin, hcs]
  have out : patchRadiusM solve m = match patchRadius (cs.map XR.fin) (.fin (m.meanLen p)) with
      | .ok k => .ok k m
      | .error e => .err e := by
    unfold patchRadiusM
    simp only [bind_apply, meanEdgeLength_exact w A hne, run]
    rw [hm]
    cases patchRadius (cs.map XR.fin) (.fin (m.meanLen p)) <;> rfl
  have pos : ∀ c ∈ cs, 0 ≤ c := by
    intro c hc
    rw [hcs] at hc
    obtain ⟨x, -, rfl⟩ := List.mem_map.1 hc
    exact le_max_of_le_left (abs_nonneg _)
  constructor
  · intro h0 h
    obtain ⟨c, hc⟩ := List.exists_mem_of_ne_nil _ h0
    rw [out, c70_counterexample.1 cs c _ h0 fun a ha => h a ha c hc]
  · intro a ha b hb hab
    obtain ⟨M, h0, h⟩ := c69_rounds ha hb hab
    obtain ⟨N, e1, e2, -, e3⟩ := c70_radius_partial ha hb hab pos hL
    have e : N.mean 1 = (M 20).mean 1 := by
      have := congrArg (fun g : Gmm XR => g.mu 1) (e1.symm.trans (h 20).1)
      exact XR.fin_inj.1 this
    refine ⟨M, h0, fun k => ⟨(h k).2.1, (h k).2.2.1, (h k).2.2.2.1⟩, by rw [← e]; exact e2, ?_⟩
    rw [out, e3, e]
    by_cases c : ⌈1 / (m.meanLen p * (M 20).mean 1) + 1⌉ ≤ 2147483647
    · rw [if_pos c, if_pos c]
    · rw [if_neg c, if_neg c]

/-- a regular tetrahedron: the curvatures are `1 / √3` and a third of it at all vertices -/
example : ∃ (m : Mesh XR) (p : Nat → E3) (ks : List (Principal XR)) (ab : List (ℝ × ℝ)), m.WF ∧ m.AtE p ∧ m.hes ≠ [] ∧ 0 < m.meanLen p ∧
    principalCurvatures exactSolve false m = .ok ks m ∧ ks.map (fun k => (k.kMax, k.kMin)) = ab.map (fun x => (XR.fin x.1, XR.fin x.2)) ∧
    ab.length = 4 ∧ (ab.map fun x => max |x.1| |x.2|) ≠ [] ∧ patchRadiusM exactSolve m = .err .ub := by
  obtain ⟨m, G, vs, hne, A, I, hb, ha, h8⟩ := ball_inscribed
  obtain ⟨ks, e, len, h⟩ := c63_sphere_partial G exactSolve_exact A I hb ha hne
  have len4 : ks.length = 4 := by rw [len, vs]; rfl
  have hk : ∀ k ∈ ks, k.kMax = .fin (Real.sqrt 3)⁻¹ ∧ k.kMin = .fin ((Real.sqrt 3)⁻¹ / 3) := by
    intro k hk
    obtain ⟨i, hi⟩ := List.mem_iff_getElem?.1 hk
    have hlt : i < m.vs.length := by rw [← len]; exact (List.getElem?_eq_some_iff.1 hi).1
    have hv : m.vs[i]? = some m.vs[i] := List.getElem?_eq_getElem hlt
    obtain ⟨k', hk', h1, h2⟩ := h i _ hv
    cases hi.symm.trans hk'
    refine ⟨h1, h2.trans ?_⟩
    have hh := G.wf.vHe_ok _ (G.wf.vDense.alive_at hv)
    have e8 := h8 _ hh.1
    rw [hh.2] at e8
    rw [e8, Real.sq_sqrt (by norm_num)]
    congr 1
    ring
  have hL : 0 < m.meanLen fun v => (ballAt v).E := by
    obtain ⟨x, hx⟩ := List.exists_mem_of_ne_nil _ hne
    have ax := (G.wf.hDense.mem x).1 hx
    refine meanLen_pos G.wf ax fun h => ?_
    have := h8 x ax
    rw [h, sub_self, norm_zero] at this
    norm_num at this
  have fin : ks.map (fun k => (k.kMax, k.kMin)) =
      (ks.map fun _ => ((Real.sqrt 3)⁻¹, (Real.sqrt 3)⁻¹ / 3)).map fun x => (XR.fin x.1, XR.fin x.2) := by
    rw [List.map_map]
    exact List.map_congr_left fun k h => by rw [(hk k h).1, (hk k h).2]; rfl
  have ne : ((ks.map fun _ => ((Real.sqrt 3)⁻¹, (Real.sqrt 3)⁻¹ / 3)).map fun x => max |x.1| |x.2|) ≠ [] := by
    intro h0
    have := congrArg List.length h0
    rw [List.length_map, List.length_map, len4] at this
    cases this
  refine ⟨m, _, ks, _, G.wf, A, hne, hL, e, fin, by rw [List.length_map, len4], ne,
    (c70_mesh_partial G.wf A hne hL e fin rfl).1 ne ?_⟩
  intro a ha b hb
  simp only [List.map_map, List.mem_map] at ha hb
  obtain ⟨x, -, rfl⟩ := ha
  obtain ⟨y, -, rfl⟩ := hb
  rfl

end TinyMesh
