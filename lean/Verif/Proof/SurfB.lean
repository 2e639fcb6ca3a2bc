import Verif.Proof.SurfA
import Verif.Proof.CurvD
import Mathlib.Analysis.Convex.Join
/-
Cutting a triangle in two.
-/
namespace TinyMesh

theorem segment_split {p q x y : E3} (hx : x ∈ segment ℝ p q) (hy : y ∈ segment ℝ p q) : y ∈ segment ℝ p x ∨ y ∈ segment ℝ x q := by
  rw [segment_eq_image_lineMap] at hx hy
  obtain ⟨u, ⟨u0, u1⟩, rfl⟩ := hx
  obtain ⟨t, ⟨t0, t1⟩, rfl⟩ := hy
  rcases le_total t u with h | h
  · left
    rcases u0.eq_or_lt with rfl | u0
    · have : t = 0 := le_antisymm h t0
      rw [this]; exact right_mem_segment ℝ _ _
    · rw [segment_eq_image_lineMap]
      refine ⟨t / u, ⟨by positivity, (div_le_one u0).2 h⟩, ?_⟩
      have e : t / u * u = t := div_mul_cancel₀ _ u0.ne'
      simp only [AffineMap.lineMap_apply_module']
      rw [add_sub_cancel_right, smul_smul, e]
  · right
    rcases u1.eq_or_lt with rfl | u1
    · have : t = 1 := le_antisymm t1 h
      rw [this]; exact left_mem_segment ℝ _ _
    · rw [segment_eq_image_lineMap]
      have h1 : 0 < 1 - u := by linarith
      refine ⟨(t - u) / (1 - u), ⟨div_nonneg (by linarith) h1.le, (div_le_one h1).2 (by linarith)⟩, ?_⟩
      have e : (t - u) / (1 - u) * (1 - u) = t - u := div_mul_cancel₀ _ h1.ne'
      simp only [AffineMap.lineMap_apply_module']
      have k : q - (u • (q - p) + p) = (1 - u) • (q - p) := by module
      rw [k, smul_smul, e]; module

/-- the triangle `p`, `q`, `r` cut along the line from `r` to a point of the opposite side -/
theorem hull_split {p q r x : E3} (hx : x ∈ segment ℝ p q) :
    convexHull ℝ {p, q, r} = convexHull ℝ {p, x, r} ∪ convexHull ℝ {x, q, r} := by
  have perm : ∀ a b : E3, convexHull ℝ {a, b, r} = convexJoin ℝ {r} (segment ℝ a b) := by
    intro a b
    have : ({a, b, r} : Set E3) = insert r {a, b} := by ext y; simp only [Set.mem_insert_iff, Set.mem_singleton_iff]; tauto
    rw [this, convexHull_insert (by simp), convexHull_pair]
  rw [perm, perm, perm, ← convexJoin_union_right]
  congr 1
  refine Set.Subset.antisymm (fun y hy => segment_split hx hy) ?_
  rintro y (hy | hy)
  · exact (convex_segment p q).segment_subset (left_mem_segment ℝ _ _) hx hy
  · exact (convex_segment p q).segment_subset hx (right_mem_segment ℝ _ _) hy

theorem triNormal_split {p q r x : E3} (t : ℝ) (hx : x = p + t • (q - p)) :
    triNormal p x r = t • triNormal p q r ∧ triNormal x q r = (1 - t) • triNormal p q r := by
  subst hx
  unfold triNormal
  constructor
  all_goals
    ext i
    fin_cases i <;> simp [crossProduct, Matrix.vecHead, Matrix.vecTail] <;> ring

theorem area_split {p q r x : E3} (hx : x ∈ segment ℝ p q) :
    ‖triNormal p x r‖ / 2 + ‖triNormal x q r‖ / 2 = ‖triNormal p q r‖ / 2 := by
  rw [segment_eq_image'] at hx
  obtain ⟨t, ⟨t0, t1⟩, rfl⟩ := hx
  obtain ⟨e1, e2⟩ := triNormal_split (r := r) t (rfl : p + t • (q - p) = _)
  rw [e1, e2, norm_smul, norm_smul, Real.norm_of_nonneg t0, Real.norm_of_nonneg (by linarith)]
  ring

theorem hull_rot (a b c : E3) : convexHull ℝ {a, b, c} = convexHull ℝ {b, c, a} := by
  congr 1; ext y; simp only [Set.mem_insert_iff, Set.mem_singleton_iff]; tauto

/-- two triangles with a common side, cut along the other diagonal -/
theorem hull_flip {p q r s x : E3} (h1 : x ∈ segment ℝ p q) (h2 : x ∈ segment ℝ r s) :
    convexHull ℝ {s, r, p} ∪ convexHull ℝ {r, s, q} = convexHull ℝ {p, q, r} ∪ convexHull ℝ {q, p, s} := by
  have h1' := h1
  rw [segment_symm] at h1'
  have h2' := h2
  rw [segment_symm] at h2'
  rw [hull_split h1, hull_split h1', hull_split h2, hull_split h2', hull_rot s x p, ← hull_rot p x r, hull_rot r x q, ← hull_rot q x s]
  ext y
  simp only [Set.mem_union]
  tauto

theorem area_flip {p q r s x : E3} (h1 : x ∈ segment ℝ p q) (h2 : x ∈ segment ℝ r s) :
    ‖triNormal s r p‖ / 2 + ‖triNormal r s q‖ / 2 = ‖triNormal p q r‖ / 2 + ‖triNormal q p s‖ / 2 := by
  have h1' := h1
  rw [segment_symm] at h1'
  have h2' := h2
  rw [segment_symm] at h2'
  rw [← area_split h1, ← area_split h1', ← area_split h2, ← area_split h2', ← triNormal_rot s x p, triNormal_rot p x r,
    ← triNormal_rot r x q, triNormal_rot q x s]
  ring

/-- the determinant, in coordinates -/
theorem tetVol6_coord (a b c d : E3) : tetVol6 a b c d =
    (b 0 - a 0) * ((c 1 - a 1) * (d 2 - a 2) - (c 2 - a 2) * (d 1 - a 1)) +
    (b 1 - a 1) * ((c 2 - a 2) * (d 0 - a 0) - (c 0 - a 0) * (d 2 - a 2)) +
    (b 2 - a 2) * ((c 0 - a 0) * (d 1 - a 1) - (c 1 - a 1) * (d 0 - a 0)) := by
  unfold tetVol6 triNormal
  simp [crossProduct, PiLp.inner_apply, Fin.sum_univ_three, Matrix.vecHead, Matrix.vecTail]
  ring

theorem tetVol6_split (o : E3) {p q r x : E3} (hx : x ∈ segment ℝ p q) : tetVol6 o p x r + tetVol6 o x q r = tetVol6 o p q r := by
  rw [segment_eq_image'] at hx
  obtain ⟨t, -, rfl⟩ := hx
  simp only [tetVol6_coord, PiLp.add_apply, PiLp.smul_apply, PiLp.sub_apply, smul_eq_mul]
  ring

theorem tetVol6_rot (o a b c : E3) : tetVol6 o a b c = tetVol6 o b c a := by
  simp only [tetVol6_coord]; ring

theorem tetVol6_flip (o p q r s : E3) :
    tetVol6 o s r p + tetVol6 o r s q = tetVol6 o p q r + tetVol6 o q p s + tetVol6 p q r s := by
  simp only [tetVol6_coord]; ring

theorem tetVol6_flat {p q r s x : E3} (h1 : x ∈ segment ℝ p q) (h2 : x ∈ segment ℝ r s) : tetVol6 p q r s = 0 := by
  rw [segment_eq_image'] at h1 h2
  obtain ⟨t, -, rfl⟩ := h1
  obtain ⟨u, -, e⟩ := h2
  have e := fun i => congrFun (congrArg WithLp.ofLp e) i
  have e0 := e 0; have e1 := e 1; have e2 := e 2
  simp only [PiLp.add_apply, PiLp.smul_apply, PiLp.sub_apply, smul_eq_mul] at e0 e1 e2
  rw [tetVol6_coord]
  linear_combination
    (e0 * ((q 1 - p 1) * (r 2 - p 2) - (q 2 - p 2) * (r 1 - p 1)) + e1 * ((q 2 - p 2) * (r 0 - p 0) - (q 0 - p 0) * (r 2 - p 2)) +
      e2 * ((q 0 - p 0) * (r 1 - p 1) - (q 1 - p 1) * (r 0 - p 0))) +
    (e0 * ((s 1 - p 1) * (q 2 - p 2) - (s 2 - p 2) * (q 1 - p 1)) + e1 * ((s 2 - p 2) * (q 0 - p 0) - (s 0 - p 0) * (q 2 - p 2)) +
      e2 * ((s 0 - p 0) * (q 1 - p 1) - (s 1 - p 1) * (q 0 - p 0)))

/-! ### Meshes -/

variable {F A : Type} {m m' : Mesh F}

theorem triVals_congr (w : m.WF) {φ ψ : Nat → Nat → Nat → A}
    (e : ∀ a b c, m.vAlive a = true → m.vAlive b = true → m.vAlive c = true → φ a b c = ψ a b c) : m.triVals φ = m.triVals ψ := by
  unfold Mesh.triVals
  congr 1
  refine List.map_congr_left fun f hf => ?_
  have af := (w.fDense.mem f).1 (List.mem_filter.1 hf).1
  have ah := (w.fHe_ok _ af).1
  have ah1 := w.next_alive _ ah
  exact e _ _ _ (w.src_alive _ ah) (w.src_alive _ ah1) (w.src_alive _ (w.next_alive _ ah1))

/-- the hull of three vertices -/
def hullAt (p : Nat → E3) (a b c : Nat) : Set E3 := convexHull ℝ {p a, p b, p c}

theorem hullAt_cyclic (p : Nat → E3) : Cyclic (hullAt p) := fun a b c => by
  unfold hullAt
  congr 1; ext y; simp only [Set.mem_insert_iff, Set.mem_singleton_iff]; tauto

theorem area_cyclic (p : Nat → E3) : Cyclic (fun a b c => ‖triNormal (p a) (p b) (p c)‖ / 2) := fun a b c => by
  simp only [triNormal_rot]

theorem vol_cyclic (o : E3) (p : Nat → E3) : Cyclic (fun a b c => tetVol6 o (p a) (p b) (p c)) := fun a b c => tetVol6_rot _ _ _ _

theorem Mesh.WF.mem_points (w : m.WF) {p : Nat → E3} {x : E3} : x ∈ m.points p ↔ ∃ T ∈ m.triVals (hullAt p), x ∈ T := by
  constructor
  · rintro ⟨f, af, nh, hx⟩
    refine ⟨m.atCorners (hullAt p) f, ?_, hx⟩
    unfold Mesh.triVals
    exact Multiset.mem_coe.2 (List.mem_map.2 ⟨f, List.mem_filter.2 ⟨(w.fDense.mem f).2 af, by simpa using nh⟩, rfl⟩)
  · rintro ⟨T, hT, hx⟩
    obtain ⟨f, hf, rfl⟩ := List.mem_map.1 (Multiset.mem_coe.1 hT)
    obtain ⟨h1, h2⟩ := List.mem_filter.1 hf
    exact ⟨f, (w.fDense.mem f).1 h1, by simpa using h2, hx⟩

theorem points_congr (w : m.WF) {p p' : Nat → E3} (e : ∀ v, m.vAlive v = true → p v = p' v) : m.points p = m.points p' := by
  ext x
  rw [w.mem_points, w.mem_points, triVals_congr w fun a b c ha hb hc => ?_]
  unfold hullAt
  rw [e a ha, e b hb, e c hc]

theorem surfArea_congr (w : m.WF) {p p' : Nat → E3} (e : ∀ v, m.vAlive v = true → p v = p' v) : m.surfArea p = m.surfArea p' := by
  unfold Mesh.surfArea
  rw [triVals_congr w fun a b c ha hb hc => ?_]
  rw [e a ha, e b hb, e c hc]

theorem volume_congr (w : m.WF) {p p' : Nat → E3} (o : E3) (e : ∀ v, m.vAlive v = true → p v = p' v) : m.volume o p = m.volume o p' := by
  unfold Mesh.volume
  rw [triVals_congr w fun a b c ha hb hc => ?_]
  rw [e a ha, e b hb, e c hc]

theorem SameSurface.refl (m : Mesh F) (p : Nat → E3) : SameSurface m p m p := ⟨rfl, rfl, fun _ => rfl⟩

theorem SameSurface.trans {a b c : Mesh F} {p q r : Nat → E3} (h : SameSurface a p b q) (k : SameSurface b q c r) : SameSurface a p c r :=
  ⟨k.points.trans h.points, k.area.trans h.area, fun o => (k.volume o).trans (h.volume o)⟩

theorem sameSurface_congr (w : m.WF) {p p' : Nat → E3} (e : ∀ v, m.vAlive v = true → p v = p' v) : SameSurface m p m p' :=
  ⟨(points_congr w e).symm, (surfArea_congr w e).symm, fun o => (volume_congr w o e).symm⟩

/-- Triangles are replaced by others that cover the same points and have the same area and volume. -/
theorem sameSurface_of (w : m.WF) (w' : m'.WF) {p : Nat → E3} {C C' : List (Nat × Nat × Nat)}
    (H : ∀ {A : Type} (φ : Nat → Nat → Nat → A), Cyclic φ → ∃ R : Multiset A, m.triVals φ = (C.map fun t => φ t.1 t.2.1 t.2.2 : List A) + R ∧
      m'.triVals φ = (C'.map fun t => φ t.1 t.2.1 t.2.2 : List A) + R)
    (h1 : ∀ x, (∃ t ∈ C', x ∈ hullAt p t.1 t.2.1 t.2.2) ↔ ∃ t ∈ C, x ∈ hullAt p t.1 t.2.1 t.2.2)
    (h2 : (C'.map fun t => ‖triNormal (p t.1) (p t.2.1) (p t.2.2)‖ / 2).sum = (C.map fun t => ‖triNormal (p t.1) (p t.2.1) (p t.2.2)‖ / 2).sum)
    (h3 : ∀ o, (C'.map fun t => tetVol6 o (p t.1) (p t.2.1) (p t.2.2)).sum = (C.map fun t => tetVol6 o (p t.1) (p t.2.1) (p t.2.2)).sum) :
    SameSurface m p m' p := by
  refine ⟨?_, ?_, fun o => ?_⟩
  · obtain ⟨R, e, e'⟩ := H _ (hullAt_cyclic p)
    ext x
    rw [w.mem_points, w'.mem_points, e, e']
    simp only [Multiset.mem_add, Multiset.mem_coe, List.mem_map, or_and_right, exists_or]
    refine or_congr ?_ Iff.rfl
    constructor
    · rintro ⟨T, ⟨t, ht, rfl⟩, hx⟩
      obtain ⟨u, hu, hx'⟩ := (h1 x).1 ⟨t, ht, hx⟩
      exact ⟨_, ⟨u, hu, rfl⟩, hx'⟩
    · rintro ⟨T, ⟨t, ht, rfl⟩, hx⟩
      obtain ⟨u, hu, hx'⟩ := (h1 x).2 ⟨t, ht, hx⟩
      exact ⟨_, ⟨u, hu, rfl⟩, hx'⟩
  · obtain ⟨R, e, e'⟩ := H _ (area_cyclic p)
    unfold Mesh.surfArea
    rw [e, e', Multiset.sum_add, Multiset.sum_add, Multiset.sum_coe, Multiset.sum_coe, h2]
  · obtain ⟨R, e, e'⟩ := H _ (vol_cyclic o p)
    unfold Mesh.volume
    rw [e, e', Multiset.sum_add, Multiset.sum_add, Multiset.sum_coe, Multiset.sum_coe, h3 o]

theorem SplitStep.sameSurface [Scalar F] (g : m.Good) {h he : Nat} (S : SplitStep m m' h he) {p : Nat → E3}
    (hx : p m.vFresh ∈ segment ℝ (p (m.hSrc he)) (p (m.hSrc (m.hRev he)))) : SameSurface m p m' p := by
  have hx' := hx
  rw [segment_symm] at hx'
  refine sameSurface_of g.wf (S.done g).good.wf (C := [(m.hSrc he, m.hSrc (m.hRev he), m.hSrc (m.hNext (m.hNext he))),
      (m.hSrc (m.hRev he), m.hSrc he, m.hSrc (m.hNext (m.hNext (m.hRev he))))])
    (C' := [(m.vFresh, m.hSrc (m.hRev he), m.hSrc (m.hNext (m.hNext he))),
      (m.hSrc (m.hRev he), m.vFresh, m.hSrc (m.hNext (m.hNext (m.hRev he)))), (m.hSrc he, m.vFresh, m.hSrc (m.hNext (m.hNext he))),
      (m.vFresh, m.hSrc he, m.hSrc (m.hNext (m.hNext (m.hRev he))))]) (fun φ cy => S.triVals g cy) (fun x => ?_) ?_ (fun o => ?_)
  · simp only [List.mem_cons, List.not_mem_nil, or_false, exists_eq_or_imp, exists_eq_left, hullAt]
    rw [hull_split hx, hull_split hx', Set.mem_union, Set.mem_union]
    tauto
  · simp only [List.map_cons, List.map_nil, List.sum_cons, List.sum_nil]
    rw [← area_split hx, ← area_split hx']; ring
  · simp only [List.map_cons, List.map_nil, List.sum_cons, List.sum_nil]
    rw [← tetVol6_split o hx, ← tetVol6_split o hx']; ring

theorem flipState_sameSurface (g : m.Good) {h : Nat} (a : m.hAlive h = true) (n1 : m.hBd h = false) (n2 : m.hBd (m.hRev h) = false)
    (w' : (flipState m h).WF) {p : Nat → E3} {x : E3} (h1 : x ∈ segment ℝ (p (m.hSrc h)) (p (m.hSrc (m.hRev h))))
    (h2 : x ∈ segment ℝ (p (m.hSrc (m.hNext (m.hNext h)))) (p (m.hSrc (m.hNext (m.hNext (m.hRev h)))))) :
    SameSurface m p (flipState m h) p := by
  refine sameSurface_of g.wf w' (C := [(m.hSrc h, m.hSrc (m.hRev h), m.hSrc (m.hNext (m.hNext h))),
      (m.hSrc (m.hRev h), m.hSrc h, m.hSrc (m.hNext (m.hNext (m.hRev h))))])
    (C' := [(m.hSrc (m.hNext (m.hNext (m.hRev h))), m.hSrc (m.hNext (m.hNext h)), m.hSrc h),
      (m.hSrc (m.hNext (m.hNext h)), m.hSrc (m.hNext (m.hNext (m.hRev h))), m.hSrc (m.hRev h))])
    (fun φ cy => flipState_triVals g a n1 n2 w' cy) (fun y => ?_) ?_ (fun o => ?_)
  · simp only [List.mem_cons, List.not_mem_nil, or_false, exists_eq_or_imp, exists_eq_left, hullAt]
    have := Set.ext_iff.1 (hull_flip h1 h2) y
    simpa only [Set.mem_union] using this
  · simp only [List.map_cons, List.map_nil, List.sum_cons, List.sum_nil, add_zero]
    exact area_flip h1 h2
  · simp only [List.map_cons, List.map_nil, List.sum_cons, List.sum_nil]
    have := tetVol6_flip o (p (m.hSrc h)) (p (m.hSrc (m.hRev h))) (p (m.hSrc (m.hNext (m.hNext h)))) (p (m.hSrc (m.hNext (m.hNext (m.hRev h)))))
    rw [tetVol6_flat h1 h2] at this
    linarith

theorem flipState_volume (g : m.Good) {h : Nat} (a : m.hAlive h = true) (n1 : m.hBd h = false) (n2 : m.hBd (m.hRev h) = false)
    (w' : (flipState m h).WF) (o : E3) (p : Nat → E3) :
    (flipState m h).volume o p = m.volume o p + tetVol6 (p (m.hSrc h)) (p (m.hSrc (m.hRev h))) (p (m.hSrc (m.hNext (m.hNext h))))
      (p (m.hSrc (m.hNext (m.hNext (m.hRev h))))) / 6 := by
  obtain ⟨R, e, e'⟩ := flipState_triVals g a n1 n2 w' (vol_cyclic o p)
  unfold Mesh.volume
  rw [e, e', Multiset.sum_add, Multiset.sum_add]
  simp only [Multiset.insert_eq_cons, Multiset.sum_cons, Multiset.sum_singleton]
  rw [tetVol6_flip]
  ring

theorem SplitStep.at_mid {m m' : Mesh XR} (g : m.Good) {h he : Nat} (S : SplitStep m m' h he) {p : Nat → E3} (A : m.AtE p) :
    m'.AtE (Function.update p m.vFresh (midpoint ℝ (p (m.hSrc he)) (p (m.hSrc (m.hRev he))))) := by
  have w := g.wf
  have d := S.done g
  intro v av
  by_cases hn : v = m.vFresh
  · subst hn
    rw [Function.update_self, d.pos]
    have k := ((A _ (w.src_alive _ S.a)).add (A _ (w.src_alive _ (w.rev_alive _ S.a)))).smul (Scalar.lit 1 2 : ℝ)
    have hm : midpoint ℝ (p (m.hSrc he)) (p (m.hSrc (m.hRev he))) = (Scalar.lit 1 2 : ℝ) • (p (m.hSrc he) + p (m.hSrc (m.hRev he))) := by
      rw [midpoint_eq_smul_add, R_lit]
      have : (⅟2 : ℝ) = ((1 : Int) : ℝ) / ((2 : Nat) : ℝ) := by norm_num
      rw [this]
    rw [hm]
    exact k
  · rw [Function.update_of_ne hn]
    rcases d.only v av with h' | h'
    · rw [(d.keeps v h').2.1]; exact A v h'
    · exact absurd h' hn

theorem SplitStep.same {m m' : Mesh XR} (g : m.Good) {h he : Nat} (S : SplitStep m m' h he) {p : Nat → E3} (A : m.AtE p) :
    ∃ p', m'.AtE p' ∧ (∀ v, m.vAlive v = true → m'.vAlive v = true ∧ p' v = p v) ∧ SameSurface m p m' p' := by
  have w := g.wf
  have d := S.done g
  have ne : ∀ v, m.vAlive v = true → v ≠ m.vFresh := fun v av e => by rw [e, d.fresh] at av; cases av
  have keep : ∀ v, m.vAlive v = true → Function.update p m.vFresh (midpoint ℝ (p (m.hSrc he)) (p (m.hSrc (m.hRev he)))) v = p v :=
    fun v av => Function.update_of_ne (ne v av) _ _
  refine ⟨_, S.at_mid g A, fun v av => ⟨(d.keeps v av).1, keep v av⟩, ?_⟩
  refine (sameSurface_congr w fun v av => (keep v av).symm).trans (S.sameSurface g ?_)
  rw [Function.update_self, keep _ (w.src_alive _ S.a), keep _ (w.src_alive _ (w.rev_alive _ S.a))]
  exact midpoint_mem_segment _ _

theorem splits_same (lim : XR) (l : List Nat) {m m' : Mesh XR} (g : m.Good) {p : Nat → E3} (A : m.AtE p)
    (run : forAll (splitOne lim) l m = .ok () m') :
    ∃ p', m'.AtE p' ∧ (∀ v, m.vAlive v = true → m'.vAlive v = true ∧ p' v = p v) ∧ SameSurface m p m' p' := by
  induction l generalizing m p with
  | nil => cases run; exact ⟨p, A, fun v av => ⟨av, rfl⟩, SameSurface.refl _ _⟩
  | cons i l ih =>
    rw [forAll, bind_apply] at run
    rcases splitOne_cases g lim i with e | ⟨m1, h, he, e, S⟩
    · rw [e] at run; exact ih g A run
    · rw [e] at run
      obtain ⟨p1, A1, k1, s1⟩ := S.same g A
      obtain ⟨p2, A2, k2, s2⟩ := ih (S.done g).good A1 run
      exact ⟨p2, A2, fun v av => ⟨(k2 v (k1 v av).1).1, (k2 v (k1 v av).1).2.trans (k1 v av).2⟩, s1.trans s2⟩

theorem Collapsed.area [Scalar F] (g : m.Good) {h p q : Nat} (S : Collapsed m m' h p q) (a : m.hAlive h = true) (P : Nat → E3) :
    m'.surfArea P = m.surfArea (fun v => P (renamed p q v)) := by
  obtain ⟨r, s, -, -, e⟩ := S.triVals g a
  have := e (area_cyclic P)
  unfold Mesh.surfArea
  rw [this, Multiset.sum_add]
  simp [triNormal]

theorem Collapsed.vol [Scalar F] (g : m.Good) {h p q : Nat} (S : Collapsed m m' h p q) (a : m.hAlive h = true) (o : E3) (P : Nat → E3) :
    m'.volume o P = m.volume o (fun v => P (renamed p q v)) := by
  obtain ⟨r, s, -, -, e⟩ := S.triVals g a
  have z : ∀ x y : E3, tetVol6 o x x y = 0 := fun x y => by rw [tetVol6_coord]; ring
  have := e (vol_cyclic o P)
  unfold Mesh.volume
  rw [this, Multiset.sum_add]
  simp [z]

theorem Collapsed.points [Scalar F] (g : m.Good) {h p q : Nat} (S : Collapsed m m' h p q) (a : m.hAlive h = true) (P : Nat → E3) :
    ∃ r s, m.HasTri p q r ∧ m.HasTri q p s ∧
      m.points (fun v => P (renamed p q v)) = m'.points P ∪ segment ℝ (P p) (P r) ∪ segment ℝ (P p) (P s) := by
  obtain ⟨r, s, t1, t2, e⟩ := S.triVals g a
  refine ⟨r, s, t1, t2, ?_⟩
  have := e (hullAt_cyclic P)
  have hl : ∀ y, hullAt P p p y = segment ℝ (P p) (P y) := fun y => by
    unfold hullAt; rw [Set.insert_eq_of_mem (by simp), convexHull_pair]
  have h2 : (hullAt fun v => P (renamed p q v)) = fun a b c => hullAt P (renamed p q a) (renamed p q b) (renamed p q c) := rfl
  ext x
  rw [g.wf.mem_points, h2, this, Set.mem_union, Set.mem_union, S.done.good.wf.mem_points]
  simp only [Multiset.mem_add, Multiset.insert_eq_cons, Multiset.mem_cons, Multiset.mem_singleton, or_and_right, exists_or, exists_eq_left, hl]
  generalize (∃ T ∈ m'.triVals (hullAt P), x ∈ T) = Q
  tauto

end TinyMesh
