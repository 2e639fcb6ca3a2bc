import Verif.Spec.SampleX
import Mathlib.LinearAlgebra.CrossProduct
/-
C31 - C36, C47, C50: vectors, boxes, triangles, the bounding volume hierarchy and the Hausdorff distance.
Statements are about the functions of the model over `XR` (finite input `v.fin`), where a division by zero or a root of a
negative number does not give a finite result; point sets, distances and convex hulls are those of Mathlib.
-/
set_option maxRecDepth 100000
namespace TinyMesh

/-! ## C31, C32: closest point of a triangle -/

/-- C31: the result is finite (so no division by zero has been used) and a point of the triangle. -/
theorem c31_closest_in_triangle (t : Triangle ℝ) (q : Vec3 ℝ) :
    ∃ c : Vec3 ℝ, t.fin.closestPoint q.fin = c.fin ∧ c.E ∈ t.hull :=
  ⟨t.closestPoint q, t.closest_fin q, t.closest_mem q⟩

/-- C31, the distance that is reported is the distance of a point of the triangle -/
theorem c31_distance (t : Triangle ℝ) (q : Vec3 ℝ) :
    ∃ x ∈ t.hull, t.fin.distance q.fin = .fin (dist q.E x) := by
  refine ⟨_, t.closest_mem q, ?_⟩
  unfold Triangle.distance
  rw [t.closest_fin, Vec3.X_vsub, Vec3.X_vlength, Vec3.E_dist]

/-- a right triangle -/
def rightTri : Triangle ℝ := ⟨⟨0, 0, 0⟩, ⟨1, 0, 0⟩, ⟨0, 1, 0⟩⟩

/-- a query that gives a point in the interior of an edge -/
example : rightTri.closestPoint ⟨-1, 1 / 2, 0⟩ = ⟨0, 1 / 2, 0⟩ := by
  obtain ⟨-, -, -, -, c⟩ := rightTri.closest_eq ⟨-1, 1 / 2, 0⟩ (d1 := -1) (d2 := 1 / 2) (d3 := -1) (d4 := -1 / 2)
    (by norm_num [rightTri, Vec3.dot_def, Vec3.sub_def]) (by norm_num [rightTri, Vec3.dot_def, Vec3.sub_def])
    (by norm_num [rightTri, Vec3.dot_def, Vec3.sub_def]) (by norm_num [rightTri, Vec3.dot_def, Vec3.sub_def])
  rw [c (by norm_num) (by norm_num) (by norm_num) (by norm_num) (by norm_num)]
  norm_num [rightTri, Vec3.add_def, Vec3.smul_def, Vec3.sub_def]

/-- C32 is false: the triangle (0,0,0), (1,0,0), (0,1,0) and the query (0.2, 0.2, 1). The second corner is returned although
the triangle contains the foot (0.2, 0.2, 0) of the query. -/
theorem c32_counterexample : ∃ (t : Triangle ℝ) (q : Vec3 ℝ), ∃ x ∈ t.hull,
    t.fin.closestPoint q.fin = t.p1.fin ∧ dist q.E x < dist q.E t.p1.E := by
  refine ⟨rightTri, ⟨1 / 5, 1 / 5, 1⟩, (⟨1 / 5, 1 / 5, 0⟩ : Vec3 ℝ).E, ?_, ?_, ?_⟩
  · have m0 : rightTri.p0.E ∈ rightTri.hull := subset_convexHull ℝ _ (by simp)
    have m1 : rightTri.p1.E ∈ rightTri.hull := subset_convexHull ℝ _ (by simp)
    have m2 : rightTri.p2.E ∈ rightTri.hull := subset_convexHull ℝ _ (by simp)
    have cv : Convex ℝ rightTri.hull := convex_convexHull ℝ _
    have h1 := cv m1 m2 (a := 1 / 2) (b := 1 / 2) (by norm_num) (by norm_num) (by norm_num)
    have h2 := cv m0 h1 (a := 3 / 5) (b := 2 / 5) (by norm_num) (by norm_num) (by norm_num)
    convert h2 using 1
    apply Vec3.E_ext <;> simp [rightTri] <;> norm_num
  · rw [Triangle.closest_fin]
    congr 1
    obtain ⟨-, c, -⟩ := rightTri.closest_eq ⟨1 / 5, 1 / 5, 1⟩ (d1 := 1 / 5) (d2 := 1 / 5) (d3 := 1 / 5) (d4 := -4 / 5)
      (by norm_num [rightTri, Vec3.dot_def, Vec3.sub_def]) (by norm_num [rightTri, Vec3.dot_def, Vec3.sub_def])
      (by norm_num [rightTri, Vec3.dot_def, Vec3.sub_def]) (by norm_num [rightTri, Vec3.dot_def, Vec3.sub_def])
    exact c (by norm_num) (by norm_num)
  · rw [Vec3.E_dist, Vec3.E_dist, Vec3.length_def, Vec3.length_def]
    apply Real.sqrt_lt_sqrt (Vec3.dot_self_nonneg _)
    norm_num [rightTri, Vec3.dot_def, Vec3.sub_def]

/-- C32 is false for every triangle: asked for the third corner, the code answers with the second one. -/
theorem c32_counterexample_corner (t : Triangle ℝ) (h : t.p2 ≠ t.p0) : t.fin.closestPoint t.p2.fin = t.p1.fin := by
  rw [Triangle.closest_fin, t.closest_third h]

example : rightTri.fin.closestPoint (Vec3.fin ⟨0, 1, 0⟩) = Vec3.fin ⟨1, 0, 0⟩ :=
  c32_counterexample_corner rightTri (by simp [rightTri])

/-- C32, partial: the result is nearest if the query lies in the corner region of `p0`, in that of `p2` (away from `p1`), in
that of `p1` and the (wrong) test for `p1` succeeds, or in the region of the edge `p0 p2` and the (wrong) test for `p1`
fails. Missing: all other queries; the code tests the region of `p1` with the offset from `p2` (line 19), see
`c32_counterexample`. -/
theorem c32_nearest_partial (t : Triangle ℝ) (q : Vec3 ℝ)
    (h : (inner ℝ (t.p1.E - t.p0.E) (q.E - t.p0.E) ≤ 0 ∧ inner ℝ (t.p2.E - t.p0.E) (q.E - t.p0.E) ≤ 0) ∨
      (inner ℝ (t.p0.E - t.p2.E) (q.E - t.p2.E) ≤ 0 ∧ inner ℝ (t.p1.E - t.p2.E) (q.E - t.p2.E) < 0) ∨
      ((inner ℝ (t.p0.E - t.p1.E) (q.E - t.p1.E) ≤ 0 ∧ inner ℝ (t.p2.E - t.p1.E) (q.E - t.p1.E) ≤ 0) ∧
        0 ≤ inner ℝ (t.p1.E - t.p0.E) (q.E - t.p2.E) ∧ 0 ≤ inner ℝ (t.p1.E - t.p2.E) (q.E - t.p2.E)) ∨
      ((0 ≤ inner ℝ (t.p2.E - t.p0.E) (q.E - t.p0.E) ∧ inner ℝ (t.p2.E - t.p0.E) (q.E - t.p2.E) ≤ 0 ∧
        inner ℝ (t.p1.E - t.p0.E) (q.E - t.p2.E) * inner ℝ (t.p2.E - t.p0.E) (q.E - t.p0.E) <
          inner ℝ (t.p1.E - t.p0.E) (q.E - t.p0.E) * inner ℝ (t.p2.E - t.p0.E) (q.E - t.p2.E)) ∧
        inner ℝ (t.p1.E - t.p0.E) (q.E - t.p2.E) < 0)) :
    ∃ c : Vec3 ℝ, t.fin.closestPoint q.fin = c.fin ∧ c.E ∈ t.hull ∧ ∀ x ∈ t.hull, dist q.E c.E ≤ dist q.E x := by
  refine ⟨_, t.closest_fin q, t.closest_mem q, Triangle.closest_nearest rfl rfl rfl rfl ?_⟩
  simp only [← Vec3.E_sub, Vec3.E_inner] at h
  have k1 : (t.p0.sub t.p2).dot (q.sub t.p2) = -(t.p2.sub t.p0).dot (q.sub t.p2) := by
    simp only [Vec3.dot_def, Vec3.sub_def]; ring
  have k2 : (t.p1.sub t.p2).dot (q.sub t.p2) = (t.p1.sub t.p0).dot (q.sub t.p2) - (t.p2.sub t.p0).dot (q.sub t.p2) := by
    simp only [Vec3.dot_def, Vec3.sub_def]; ring
  rw [k1, k2] at h
  rcases h with h | ⟨h1, h2⟩ | ⟨h1, h2, h3⟩ | ⟨⟨h1, h2, h3⟩, h4⟩
  · exact Or.inl h
  · exact Or.inr (Or.inl ⟨by linarith, by linarith⟩)
  · exact Or.inr (Or.inr (Or.inl ⟨⟨h2, by linarith⟩, h1⟩))
  · exact Or.inr (Or.inr (Or.inr ⟨⟨h4, h2⟩, h1, by linarith⟩))

/-- the edge region of `p0 p2`: the query (-1, 0.5, 0) gives (0, 0.5, 0), and nothing is nearer -/
example : ∃ c : Vec3 ℝ, rightTri.fin.closestPoint (Vec3.fin ⟨-1, 1 / 2, 0⟩) = c.fin ∧ c.E ∈ rightTri.hull ∧
    ∀ x ∈ rightTri.hull, dist (Vec3.E ⟨-1, 1 / 2, 0⟩) c.E ≤ dist (Vec3.E ⟨-1, 1 / 2, 0⟩) x := by
  apply c32_nearest_partial
  right; right; right
  simp only [← Vec3.E_sub, Vec3.E_inner]
  norm_num [rightTri, Vec3.dot_def, Vec3.sub_def]

/-! ## C33, C34: bounding volume hierarchy -/

/-- C34: building terminates without undefined behaviour for every triangle list; every triangle is in exactly one leaf, no
half of a split is empty and every box contains the triangles below it (`Boxed`). The result holds for every behaviour of
`std::nth_element` and `std::partition` that the standard allows. -/
theorem c34_build {lib : Lib XR} (std : lib.Std) {V : List (Vec3 ℝ)} {I : List Nat} {ts : List (Triangle ℝ)}
    (h : Reads V I ts) :
    ∃ root, bvhConstruct lib (V.map Vec3.fin) I = .ok ⟨root, ts.map Triangle.fin⟩ ∧
      (ts = [] → root = .null) ∧ (ts ≠ [] → root.Boxed ts ∧ root.leaves.Perm (List.range ts.length)) :=
  bvh_build std h.inRange.1 h.inRange.2 h.readTris

/-- C34: every flat list of existing indices whose length is a multiple of three is a triangle list -/
theorem c34_reads {V : List (Vec3 ℝ)} {I : List Nat} (h : I.length % 3 = 0) (hi : ∀ i ∈ I, i < V.length) :
    ∃ ts, Reads V I ts ∧ ts.length = I.length / 3 := by
  obtain ⟨ts, h'⟩ := Reads.exists h hi
  exact ⟨ts, h', by have := h'.1; omega⟩

/-- C33: for every tree over the triangles, a query gives the closest point of a triangle at the smallest distance, provided
some triangle is nearer than 1e20. -/
theorem c33_query_any_tree {ts : List (Triangle ℝ)} {root : BNode XR} (hb : root.Boxed ts)
    (hall : ∀ i, i < ts.length → i ∈ root.leaves) (q : Vec3 ℝ) (hnear : ∃ t ∈ ts, t.distance q < 10 ^ 20) :
    ∃ t ∈ ts, bvhClosest ⟨root, ts.map Triangle.fin⟩ q.fin = .ok (t.closestPoint q).fin ∧
      bvhDistance ⟨root, ts.map Triangle.fin⟩ q.fin = .ok (.fin (t.distance q)) ∧
      ∀ t' ∈ ts, t.distance q ≤ t'.distance q :=
  bvh_query hb hall q hnear

/-- C33 for the tree that is built from a triangle list with coordinates of absolute value at most 1e19. -/
theorem c33_query_built {lib : Lib XR} (std : lib.Std) {V : List (Vec3 ℝ)} {I : List Nat} {ts : List (Triangle ℝ)}
    (h : Reads V I ts) (hne : ts ≠ []) (hV : ∀ p ∈ V, p.Near) (q : Vec3 ℝ) (hq : q.Near) :
    ∃ b, bvhConstruct lib (V.map Vec3.fin) I = .ok b ∧ ∃ t ∈ ts, bvhClosest b q.fin = .ok (t.closestPoint q).fin ∧
      bvhDistance b q.fin = .ok (.fin (t.distance q)) ∧ ∀ t' ∈ ts, t.distance q ≤ t'.distance q := by
  obtain ⟨root, e, -, h'⟩ := c34_build std h
  obtain ⟨hb, hl⟩ := h' hne
  obtain ⟨t0, h0⟩ := List.exists_mem_of_ne_nil _ hne
  obtain ⟨m0, m1, m2⟩ := h.mem h0
  exact ⟨_, e, bvh_query hb (fun i hi => hl.mem_iff.2 (List.mem_range.2 hi)) q
    ⟨t0, h0, near_dist (hV _ m0) (hV _ m1) (hV _ m2) hq⟩⟩

/-- a library that leaves ranges as they are -/
def idLib : Lib XR := ⟨fun _ _ l => l, fun p l => l.filter p ++ l.filter (fun x => !p x)⟩

theorem idLib_std : idLib.Std :=
  ⟨fun _ _ l => .refl l, fun p l => List.filter_append_perm p l⟩

/-- the corners of a square and its two triangles -/
def squareV : List (Vec3 ℝ) := [⟨0, 0, 0⟩, ⟨1, 0, 0⟩, ⟨1, 1, 0⟩, ⟨0, 1, 0⟩]

theorem square_reads : Reads squareV [0, 1, 2, 0, 2, 3] [⟨⟨0, 0, 0⟩, ⟨1, 0, 0⟩, ⟨1, 1, 0⟩⟩, ⟨⟨0, 0, 0⟩, ⟨1, 1, 0⟩, ⟨0, 1, 0⟩⟩] := by
  refine ⟨rfl, ?_⟩
  rintro (_ | _ | k) t h
  · simp at h; subst h; exact ⟨0, 1, 2, rfl, rfl, rfl, rfl, rfl, rfl⟩
  · simp at h; subst h; exact ⟨0, 2, 3, rfl, rfl, rfl, rfl, rfl, rfl⟩
  · simp at h

theorem square_near : ∀ p ∈ squareV, p.Near := by
  intro p hp i
  simp only [squareV, List.mem_cons, List.not_mem_nil, or_false] at hp
  rcases hp with rfl | rfl | rfl | rfl <;> fin_cases i <;> simp <;> norm_num

/-- the theorems apply to the square: it is built, and every query within the range is answered -/
example (q : Vec3 ℝ) (hq : q.Near) : ∃ b d, bvhConstruct idLib (squareV.map Vec3.fin) [0, 1, 2, 0, 2, 3] = .ok b ∧
    bvhDistance b q.fin = .ok (.fin d) := by
  obtain ⟨b, h1, t, -, -, h2, -⟩ := c33_query_built idLib_std square_reads (by simp) square_near q hq
  exact ⟨b, _, h1, h2⟩

/-! ## C35: boxes -/

theorem Bounds.proper_iff (b : Bounds ℝ) : b.Proper ↔ b.box.Nonempty := by
  constructor
  · intro p
    exact ⟨b.lo.E, (b.mem_box _).2 ⟨⟨le_rfl, p.1⟩, ⟨le_rfl, p.2.1⟩, le_rfl, p.2.2⟩⟩
  · rintro ⟨x, hx⟩
    obtain ⟨v, rfl⟩ := Vec3.E_surj x
    rw [mem_box] at hx
    exact ⟨hx.1.1.trans hx.1.2, hx.2.1.1.trans hx.2.1.2, hx.2.2.1.trans hx.2.2.2⟩

/-- C35: merging two boxes gives the smallest box that contains both (for boxes that contain a point). -/
theorem c35_merge (a b : Bounds ℝ) (ha : a.box.Nonempty) (hb : b.box.Nonempty) :
    ∃ c : Bounds ℝ, a.fin.merge b.fin = c.fin ∧ a.box ⊆ c.box ∧ b.box ⊆ c.box ∧
      ∀ d : Bounds ℝ, a.box ⊆ d.box → b.box ⊆ d.box → c.box ⊆ d.box :=
  ⟨a.merge b, Bounds.merge_fin a b, (Bounds.le_merge_left a b).box, (Bounds.le_merge_right a b).box,
    fun _ h1 h2 => (Bounds.merge_le (((a.proper_iff).2 ha).le_of_box h1) (((b.proper_iff).2 hb).le_of_box h2)).box⟩

/-- C35: merging a point gives the smallest box that contains the box and the point. -/
theorem c35_merge_point (a : Bounds ℝ) (p : Vec3 ℝ) (ha : a.box.Nonempty) :
    ∃ c : Bounds ℝ, a.fin.mergeP p.fin = c.fin ∧ a.box ⊆ c.box ∧ p.E ∈ c.box ∧
      ∀ d : Bounds ℝ, a.box ⊆ d.box → p.E ∈ d.box → c.box ⊆ d.box := by
  have hp : p.E ∈ (⟨p, p⟩ : Bounds ℝ).box := by
    rw [Bounds.mem_box]; exact ⟨⟨le_rfl, le_rfl⟩, ⟨le_rfl, le_rfl⟩, le_rfl, le_rfl⟩
  obtain ⟨c, h1, h2, h3, h4⟩ := c35_merge a ⟨p, p⟩ ha ⟨_, hp⟩
  refine ⟨c, h1, h2, h3 hp, fun d h5 h6 => h4 d h5 ?_⟩
  rw [Bounds.mem_box] at h6
  exact Bounds.Le.box h6

/-- C35: merging is commutative, associative and idempotent. -/
theorem c35_merge_laws (a b c : Bounds ℝ) : a.fin.merge b.fin = b.fin.merge a.fin ∧
    (a.fin.merge b.fin).merge c.fin = a.fin.merge (b.fin.merge c.fin) ∧ a.fin.merge a.fin = a.fin := by
  simp only [Bounds.merge_fin]
  exact ⟨by rw [Bounds.merge_comm], by rw [Bounds.merge_assoc], by rw [Bounds.merge_idem]⟩

/-- C35: merging the default box with a point gives the box of that point alone, if its coordinates are at most 1e20. -/
theorem c35_default (p : Vec3 ℝ) (h : ∀ i, |p.E i| ≤ 10 ^ 20) :
    ∃ c : Bounds ℝ, Bounds.empty.mergeP p.fin = c.fin ∧ c.box = {p.E} := by
  refine ⟨Bounds.empty.mergeP p, by rw [Bounds.empty_fin, Bounds.mergeP_fin], ?_⟩
  have h0 := abs_le.1 (h 0)
  have h1 := abs_le.1 (h 1)
  have h2 := abs_le.1 (h 2)
  simp only [Vec3.E_zero, Vec3.E_one, Vec3.E_two] at h0 h1 h2
  rw [Bounds.mergeP_eq, Bounds.empty_merge ⟨⟨h0.2, h1.2, h2.2⟩, h0.1, h1.1, h2.1⟩]
  ext x
  obtain ⟨v, rfl⟩ := Vec3.E_surj x
  rw [Bounds.mem_box, Set.mem_singleton_iff, Vec3.E_inj]
  constructor
  · rintro ⟨⟨a1, a2⟩, ⟨a3, a4⟩, a5, a6⟩
    exact Vec3.ext' (le_antisymm a2 a1) (le_antisymm a4 a3) (le_antisymm a6 a5)
  · rintro rfl; exact ⟨⟨le_rfl, le_rfl⟩, ⟨le_rfl, le_rfl⟩, le_rfl, le_rfl⟩

/-- C35: `inside` decides membership. -/
theorem c35_inside (b : Bounds ℝ) (p : Vec3 ℝ) : b.fin.inside p.fin = true ↔ p.E ∈ b.box := by
  rw [Bounds.inside_fin, Bounds.inside_iff]

/-- C35: `distance` is the distance to the box: attained, and not larger than the distance to any point of the box. -/
theorem c35_distance (b : Bounds ℝ) (hb : b.box.Nonempty) (p : Vec3 ℝ) :
    ∃ d, b.fin.distance p.fin = .fin d ∧ (d = 0 ↔ p.E ∈ b.box) ∧ (∃ x ∈ b.box, dist p.E x = d) ∧
      ∀ x ∈ b.box, d ≤ dist p.E x := by
  have pr := (b.proper_iff).2 hb
  exact ⟨b.distance p, b.distance_fin p, Bounds.distance_eq_zero pr p, Bounds.distance_attained pr p,
    fun x hx => b.distance_le p hx⟩

/-- C35: `maxExtent` is the first of the longest axes of the box. -/
theorem c35_max_extent (b : Bounds ℝ) : ∃ d : Fin 3, b.fin.maxExtent = .ok d ∧
    (∀ i, |b.hi.E i - b.lo.E i| ≤ |b.hi.E d - b.lo.E d|) ∧ ∀ i < d, |b.hi.E i - b.lo.E i| < |b.hi.E d - b.lo.E d| := by
  have e : ∀ x y : ℝ, (Scalar.lt (XR.fin x) (XR.fin y) = true) ↔ x < y := fun x y => by rw [X_lt, R_lt]
  have l : (Scalar.lit (-1) 1 : XR) = .fin (-1) := by rw [X_lit, R_lit]; norm_num
  have hv : (b.fin.hi.sub b.fin.lo).vabs = Vec3.fin ⟨|b.hi.E 0 - b.lo.E 0|, |b.hi.E 1 - b.lo.E 1|, |b.hi.E 2 - b.lo.E 2|⟩ := rfl
  have h0 := abs_nonneg (b.hi.E 0 - b.lo.E 0)
  unfold Bounds.maxExtent
  simp only [hv, l]
  generalize hx : |b.hi.E 0 - b.lo.E 0| = x at *
  generalize hy : |b.hi.E 1 - b.lo.E 1| = y at *
  generalize hz : |b.hi.E 2 - b.lo.E 2| = z at *
  simp only [Vec3.E_zero, Vec3.E_one, Vec3.E_two] at hx hy hz
  have k0 : Scalar.lt (XR.fin (-1)) (XR.fin x) = true := (e _ _).2 (by linarith)
  simp only [Vec3.fin, k0, if_true]
  by_cases k1 : x < y
  · simp only [(e x y).2 k1, if_true]
    by_cases k2 : y < z
    · simp only [(e y z).2 k2, if_true]
      refine ⟨2, rfl, fun i => ?_, fun i hi => ?_⟩
      · fin_cases i <;> simp [hx, hy, hz] <;> linarith
      · fin_cases i <;> simp [hx, hy, hz] at hi ⊢ <;> linarith
    · have : ¬ Scalar.lt (XR.fin y) (XR.fin z) = true := fun h => k2 ((e _ _).1 h)
      simp only [if_neg this]
      refine ⟨1, rfl, fun i => ?_, fun i hi => ?_⟩
      · fin_cases i <;> simp [hx, hy, hz] <;> linarith
      · fin_cases i <;> simp [hx, hy, hz] at hi ⊢ <;> linarith
  · have : ¬ Scalar.lt (XR.fin x) (XR.fin y) = true := fun h => k1 ((e _ _).1 h)
    simp only [if_neg this]
    by_cases k2 : x < z
    · simp only [(e x z).2 k2, if_true]
      refine ⟨2, rfl, fun i => ?_, fun i hi => ?_⟩
      · fin_cases i <;> simp [hx, hy, hz] <;> linarith
      · fin_cases i <;> simp [hx, hy, hz] at hi ⊢ <;> linarith
    · have : ¬ Scalar.lt (XR.fin x) (XR.fin z) = true := fun h => k2 ((e _ _).1 h)
      simp only [if_neg this]
      refine ⟨0, rfl, fun i => ?_, fun i hi => ?_⟩
      · fin_cases i <;> simp [hx, hy, hz] <;> linarith
      · exact absurd hi (by simp)

/-- C35: `area` is the sum of the areas of the six sides of the box. -/
theorem c35_area (b : Bounds ℝ) : b.fin.area = .fin (∑ i : Fin 3, 2 * (|b.hi.E i - b.lo.E i| * |b.hi.E (i + 1) - b.lo.E (i + 1)|)) := by
  rw [Bounds.area_fin, Bounds.area_def, Fin.sum_univ_three]
  simp [show (2 + 1 : Fin 3) = 0 from rfl, show (1 + 1 : Fin 3) = 2 from rfl]
  ring

/-- two boxes with a point, and a point outside -/
example : ∃ a b : Bounds ℝ, a.box.Nonempty ∧ b.box.Nonempty ∧ ¬ (Vec3.E ⟨3, 0, 0⟩ ∈ a.box) := by
  refine ⟨⟨⟨0, 0, 0⟩, ⟨1, 1, 1⟩⟩, ⟨⟨2, 0, 0⟩, ⟨3, 0, 0⟩⟩, (Bounds.proper_iff _).1 ?_, (Bounds.proper_iff _).1 ?_, ?_⟩
  · norm_num [Bounds.Proper]
  · norm_num [Bounds.Proper]
  · rw [Bounds.mem_box]; norm_num

/-! ## C36: Hausdorff distance -/

/-- C36, partial: for consistent meshes with finite positions (of absolute value at most 1e19) and at least one face that is
not a hole, the result is finite, non-negative, the same in both directions and independent of the standard library, and
every vertex of either mesh has a point of the other surface within that distance. Missing: that it vanishes on identical
meshes, which is false (`c36_counterexample`). -/
theorem c36_symmetric_partial {a b : Mesh XR} (ga : a.Good) (gb : b.Good) {p q : Nat → Vec3 ℝ} (pa : a.At p) (pb : b.At q)
    (na : ∀ v, a.vAlive v = true → (p v).Near) (nb : ∀ v, b.vAlive v = true → (q v).Near)
    (fa : ∃ f, a.fAlive f = true ∧ ¬ a.HoleFace f) (fb : ∃ f, b.fAlive f = true ∧ ¬ b.HoleFace f) :
    ∃ d : ℝ, 0 ≤ d ∧ (∀ lib : Lib XR, lib.Std → meshHausdorff lib a b = .ok (.fin d) ∧ meshHausdorff lib b a = .ok (.fin d)) ∧
      (∀ v, a.vAlive v = true → ∃ x ∈ b.surface q, dist (p v).E x ≤ d) ∧
      (∀ v, b.vAlive v = true → ∃ x ∈ a.surface p, dist (q v).E x ≤ d) := by
  obtain ⟨d, -, hd⟩ := ga.hausdorff_ok gb pa pb na nb fa fb idLib_std
  have near : ∀ {a b : Mesh XR} {p q : Nat → Vec3 ℝ}, a.Good → b.Good → a.At p → b.At q →
      (∀ v, a.vAlive v = true → (p v).Near) → (∀ v, b.vAlive v = true → (q v).Near) →
      (∃ f, b.fAlive f = true ∧ ¬ b.HoleFace f) → ∀ v, a.vAlive v = true →
      ∃ x ∈ b.surface q, dist (p v).E x = minD (b.trisR q) (p v) := by
    intro a b p q ga gb pa pb na nb ⟨f, f1, f2⟩ v hv
    have vb : (b.soupR q).Valid (b.trisR q) := ⟨(gb.soup_ok pb).2,
      List.ne_nil_of_mem (gb.mem_trisR.2 ⟨f, f1, f2, rfl⟩)⟩
    have na' : ∀ x ∈ (a.soupR p).pos, x.Near := by
      intro x hx
      obtain ⟨v, hv, rfl⟩ := List.mem_map.1 hx
      exact na v ((ga.wf.vDense.mem v).1 hv)
    have nb' : ∀ x ∈ (b.soupR q).pos, x.Near := by
      intro x hx
      obtain ⟨v, hv, rfl⟩ := List.mem_map.1 hx
      exact nb v ((gb.wf.vDense.mem v).1 hv)
    obtain ⟨t, ht, h1, -⟩ := (perVertex_ok idLib_std vb na' nb').2 (p v)
      (List.mem_map_of_mem ((ga.wf.vDense.mem v).2 hv))
    obtain ⟨f, g1, g2, rfl⟩ := gb.mem_trisR.1 ht
    refine ⟨_, ⟨f, g1, g2, Triangle.closest_mem _ (p v)⟩, ?_⟩
    rw [h1, Vec3.E_dist]; rfl
  have n1 := near ga gb pa pb na nb fb
  have n2 := near gb ga pb pa nb na fa
  refine ⟨d, ?_, ?_, ?_, ?_⟩
  · rcases hd.1 with ⟨v, hv, e⟩ | ⟨v, hv, e⟩
    · obtain ⟨x, -, hx⟩ := n1 v hv
      rw [e, ← hx]; exact dist_nonneg
    · obtain ⟨x, -, hx⟩ := n2 v hv
      rw [e, ← hx]; exact dist_nonneg
  · intro lib std
    obtain ⟨d1, e1, h1⟩ := ga.hausdorff_ok gb pa pb na nb fa fb std
    obtain ⟨d2, e2, h2⟩ := gb.hausdorff_ok ga pb pa nb na fb fa std
    rw [Set.union_comm] at h2
    rw [e1, e2, h1.unique hd, h2.unique hd]
    exact ⟨rfl, rfl⟩
  · intro v hv
    obtain ⟨x, hx, e⟩ := n1 v hv
    exact ⟨x, hx, e.le.trans (hd.2 (Or.inl ⟨v, hv, rfl⟩))⟩
  · intro v hv
    obtain ⟨x, hx, e⟩ := n2 v hv
    exact ⟨x, hx, e.le.trans (hd.2 (Or.inr ⟨v, hv, rfl⟩))⟩

/-- C36 is false: the Hausdorff distance of a tetrahedron to itself is not zero. The vertex (0,0,1) is the third corner of
every reported triangle that has it, so its distance to its own mesh is found to be positive. -/
theorem c36_counterexample : ∃ (m : Mesh XR) (d : ℝ), construct (cornerV.map Vec3.toX) (ofTris cornerT)
    (Mesh.empty (fun n => 2 * n)) = .ok () m ∧ m.Good ∧ 0 < d ∧ ∀ lib : Lib XR, lib.Std → meshHausdorff lib m m = .ok (.fin d) := by
  obtain ⟨m, h, G, hp, hi⟩ := closedX corner_valid corner_merged corner_manifold corner_closed (fun n => 2 * n)
  obtain ⟨p, pa, hR⟩ := exists_at G.wf hp
  have tr := trisX h hi pa hR
  have ek : ((keepTris [] cornerT).filter (fun t => !t.isolated (keepTris [] cornerT))) = cornerT := by decide +kernel
  rw [ek] at tr
  have tr' : m.trisR p = [⟨⟨1, 0, 0⟩, ⟨0, 0, 0⟩, ⟨0, 1, 0⟩⟩, ⟨⟨0, 0, 0⟩, ⟨1, 0, 0⟩, ⟨0, 0, 1⟩⟩,
      ⟨⟨1, 0, 0⟩, ⟨0, 1, 0⟩, ⟨0, 0, 1⟩⟩, ⟨⟨0, 1, 0⟩, ⟨0, 0, 0⟩, ⟨0, 0, 1⟩⟩] := by
    have := (Except.ok.inj tr).symm
    rw [this]
    simp [Vec3.toR, Sample.pt]
  have near : ∀ v, m.vAlive v = true → (p v).Near := by
    intro v hv i
    have : p v ∈ m.vs.map p := List.mem_map_of_mem ((G.wf.vDense.mem v).2 hv)
    rw [hR] at this
    simp only [cornerV, List.map_cons, List.map_nil, List.mem_cons, List.not_mem_nil, or_false] at this
    rcases this with h | h | h | h <;> rw [h] <;> fin_cases i <;> simp [Vec3.toR, Sample.pt] <;> norm_num
  have hf : ∃ f, m.fAlive f = true ∧ ¬ m.HoleFace f := by
    have : (⟨⟨1, 0, 0⟩, ⟨0, 0, 0⟩, ⟨0, 1, 0⟩⟩ : Triangle ℝ) ∈ m.trisR p := by rw [tr']; simp
    obtain ⟨f, h1, h2, -⟩ := G.mem_trisR.1 this
    exact ⟨f, h1, h2⟩
  obtain ⟨v, hv, ev⟩ : ∃ v, m.vAlive v = true ∧ p v = ⟨0, 0, 1⟩ := by
    have : (⟨0, 0, 1⟩ : Vec3 ℝ) ∈ m.vs.map p := by
      rw [hR]; simp [cornerV, Vec3.toR, Sample.pt]
    obtain ⟨v, hv, e⟩ := List.mem_map.1 this
    exact ⟨v, (G.wf.vDense.mem v).1 hv, e⟩
  obtain ⟨d, -, hd, -, -⟩ := c36_symmetric_partial G G pa pa near near hf hf
  obtain ⟨d', e', g'⟩ := G.hausdorff_ok G pa pa near near hf hf idLib_std
  have edd : d' = d := by
    have := (hd idLib idLib_std).1
    rw [e'] at this
    injection this with this
    exact XR.fin_inj.1 this
  subst edd
  refine ⟨m, d', h, G, ?_, fun lib std => (hd lib std).1⟩
  refine lt_of_lt_of_le ?_ (g'.2 (Or.inl ⟨v, hv, rfl⟩))
  have pos : ∀ t ∈ m.trisR p, 0 < t.distance ⟨0, 0, 1⟩ := by
    have far : ∀ t : Triangle ℝ, t.p2 = ⟨0, 0, 1⟩ → t.p0 ≠ ⟨0, 0, 1⟩ → t.p1 ≠ ⟨0, 0, 1⟩ → 0 < t.distance ⟨0, 0, 1⟩ := by
      intro t h2 h0 h1
      have := t.closest_third (by rw [h2]; exact h0.symm)
      unfold Triangle.distance
      rw [h2] at this
      rw [this, Vec3.length_pos]
      intro e
      rw [Vec3.sub_def] at e
      simp only [Vec3.mk.injEq, sub_eq_zero] at e
      exact h1 (Vec3.ext' e.1.symm e.2.1.symm e.2.2.symm)
    intro t ht
    rw [tr'] at ht
    simp only [List.mem_cons, List.not_mem_nil, or_false] at ht
    rcases ht with rfl | rfl | rfl | rfl
    · obtain ⟨-, c, -⟩ := (⟨⟨1, 0, 0⟩, ⟨0, 0, 0⟩, ⟨0, 1, 0⟩⟩ : Triangle ℝ).closest_eq ⟨0, 0, 1⟩
        (d1 := 1) (d2 := 1) (d3 := 0) (d4 := -1)
        (by norm_num [Vec3.dot_def, Vec3.sub_def]) (by norm_num [Vec3.dot_def, Vec3.sub_def])
        (by norm_num [Vec3.dot_def, Vec3.sub_def]) (by norm_num [Vec3.dot_def, Vec3.sub_def])
      unfold Triangle.distance
      rw [c (by norm_num) (by norm_num), Vec3.length_pos]
      simp [Vec3.sub_def]
    · exact far _ rfl (by simp) (by simp)
    · exact far _ rfl (by simp) (by simp)
    · exact far _ rfl (by simp) (by simp)
  obtain ⟨t, ht, e, -⟩ := (perVertex_ok idLib_std (a := m.soupR p) (b := m.soupR p) ⟨(G.soup_ok pa).2, by rw [tr']; simp⟩
    (by intro x hx; obtain ⟨v, hv, rfl⟩ := List.mem_map.1 hx; exact near v ((G.wf.vDense.mem v).1 hv))
    (by intro x hx; obtain ⟨v, hv, rfl⟩ := List.mem_map.1 hx; exact near v ((G.wf.vDense.mem v).1 hv))).2 (p v)
      (List.mem_map_of_mem ((G.wf.vDense.mem v).2 hv))
  rw [e, ev]
  exact pos t ht

/-! ## C47, C50: vectors -/

/-- C47, partial: the operators and functions on vectors are those of Euclidean 3-space, and a division reports zero.
Missing: subtraction of a scalar, which multiplies (`c47_counterexample`). -/
theorem c47_vector_laws_partial (a b : Vec3 ℝ) (s : ℝ) :
    (a.fin.add b.fin).Is (a.E + b.E) ∧ (a.fin.sub b.fin).Is (a.E - b.E) ∧ a.fin.neg.Is (-a.E) ∧
    (a.fin.smul (.fin s)).Is (s • a.E) ∧ a.fin.dot b.fin = .fin (inner ℝ a.E b.E) ∧
    (∃ w : Vec3 ℝ, a.fin.cross b.fin = w.fin ∧ w.E.ofLp = crossProduct a.E.ofLp b.E.ofLp) ∧
    a.fin.length = .fin ‖a.E‖ ∧ (∃ w : Vec3 ℝ, a.fin.mulV b.fin = w.fin ∧ ∀ i, w.E i = a.E i * b.E i) := by
  refine ⟨⟨_, rfl, Vec3.E_add a b⟩, ⟨_, rfl, Vec3.E_sub a b⟩, ⟨_, rfl, Vec3.E_neg a⟩, ⟨_, rfl, Vec3.E_smul s a⟩, ?_, ?_, ?_,
    ⟨a.x * b.x, a.y * b.y, a.z * b.z⟩, rfl, fun i => by fin_cases i <;> rfl⟩
  · rw [Vec3.E_inner]; rfl
  · refine ⟨_, Vec3.X_vcross a b, ?_⟩
    rw [cross_apply]
    ext i
    fin_cases i <;> simp [Vec3.cross_def, Vec3.E]
  · rw [Vec3.E_norm]; exact Vec3.X_vlength a

/-- C47: division by a number throws exactly for zero and divides otherwise. -/
theorem c47_division_reported (a : Vec3 ℝ) (s : ℝ) :
    (a.fin.div? (.fin s) = none ↔ s = 0) ∧ (s ≠ 0 → ∃ v, a.fin.div? (.fin s) = some v ∧ v.Is (s⁻¹ • a.E)) := by
  classical
  constructor
  · rw [Vec3.X_vdiv, Option.map_eq_none_iff, Vec3.div?_def]
    split <;> simp_all
  · intro hs
    refine ⟨Vec3.fin ⟨a.x / s, a.y / s, a.z / s⟩, ?_, _, rfl, ?_⟩
    · rw [Vec3.X_vdiv, Vec3.div?_def, if_neg hs]; rfl
    · apply Vec3.E_ext <;> simp [div_eq_mul_inv, mul_comm]

/-- C47: `normalize` throws exactly for the zero vector and gives the unit vector of the same direction otherwise. -/
theorem c47_normalize (a : Vec3 ℝ) : (a.fin.normalize? = none ↔ a.E = 0) ∧
    (a.E ≠ 0 → ∃ v p, a.fin.normalize? = some v ∧ v.Is p ∧ ‖p‖ = 1 ∧ a.E = ‖a.E‖ • p) := by
  have z : a.E = 0 ↔ a.length = 0 := by rw [← Vec3.E_norm, norm_eq_zero]
  have e : a.fin.normalize? = a.fin.div? (.fin a.length) := by
    unfold Vec3.normalize?; rw [Vec3.X_vlength]
  obtain ⟨h1, h2⟩ := c47_division_reported a a.length
  rw [e, z]
  refine ⟨h1, fun hn => ?_⟩
  obtain ⟨v, h3, h4⟩ := h2 (fun h => hn (z.2 h))
  rw [← Vec3.E_norm] at h4
  rw [← norm_ne_zero_iff] at hn
  refine ⟨v, _, h3, h4, ?_, ?_⟩
  · rw [norm_smul, norm_inv, norm_norm, inv_mul_cancel₀ hn]
  · rw [smul_smul, mul_inv_cancel₀ hn, one_smul]

example : ∃ v p, (Vec3.fin ⟨3, 4, 0⟩).normalize? = some v ∧ v.Is p ∧ ‖p‖ = 1 ∧
    (Vec3.E ⟨3, 4, 0⟩) = ‖Vec3.E ⟨3, 4, 0⟩‖ • p := by
  apply (c47_normalize _).2
  intro h
  have := congrArg (fun p : E3 => p 0) h
  simp at this

/-- C47: division by a vector throws exactly if a component is zero. The left operand of `/=` is then changed only up to
the first zero component. -/
theorem c47_division_vector (a b : Vec3 ℝ) :
    ((a.fin.divVAssign b.fin).2 = true ↔ ∃ i, b.E i = 0) ∧
    ((∀ i, b.E i ≠ 0) → ∃ w : Vec3 ℝ, a.fin.divV? b.fin = some w.fin ∧ ∀ i, w.E i * b.E i = a.E i) := by
  have hx : ∀ r : ℝ, (Scalar.eq (XR.fin r) (Scalar.lit 0 1 : XR) = true) ↔ r = 0 := by
    intro r; rw [X_lit, X_eq, R_eq, R_lit0]
  constructor
  · unfold Vec3.divVAssign
    simp only [Vec3.fin, hx, Fin.exists_fin_succ]
    by_cases h0 : b.x = 0 <;> by_cases h1 : b.y = 0 <;> by_cases h2 : b.z = 0 <;> simp [h0, h1, h2]
  · intro h
    have h0 : b.x ≠ 0 := h 0
    have h1 : b.y ≠ 0 := h 1
    have h2 : b.z ≠ 0 := h 2
    refine ⟨⟨a.x / b.x, a.y / b.y, a.z / b.z⟩, ?_, ?_⟩
    · unfold Vec3.divV? Vec3.divVAssign
      simp only [Vec3.fin, hx, h0, h1, h2, if_false, X_div _ h0, X_div _ h1, X_div _ h2]
    · intro i
      fin_cases i <;> simp [h0, h1, h2]

/-- C47 is false for scalars: `(1,1,1) - 1` is `(1,1,1)` because the code multiplies; the same for `1 - (1,1,1)`. -/
theorem c47_counterexample : ∃ (a : Vec3 ℝ) (s : ℝ), (a.fin.subS (.fin s)).Is a.E ∧ ((Vec3.sSub (.fin s) a.fin)).Is a.E ∧
    s ≠ 0 := by
  refine ⟨⟨1, 1, 1⟩, 1, ⟨_, Vec3.X_vsmul _ _, ?_⟩, ⟨_, Vec3.X_vsmul _ _, ?_⟩, one_ne_zero⟩ <;>
    rw [Vec3.E_smul, one_smul]

/-- C50: the constructor `Vec(x, y, z, w)` stays inside its array exactly for three or more dimensions; `Vec2(x, y)` writes
`elems[2]`. -/
theorem c50_constructor {F : Type} (dims : Nat) (x y z w : F) :
    (vecCtor dims x y z w).isSome = true ↔ 3 ≤ dims := by
  unfold vecCtor
  rcases dims with _ | _ | _ | n <;> simp

/-- C50, partial: with three or more dimensions the components are the arguments, and `w` for the rest. Missing: two dimensions, where the
statement is false (`c50_counterexample`). -/
theorem c50_components_partial {F : Type} {dims : Nat} (h : 3 ≤ dims) (x y z w : F) :
    vecCtor dims x y z w = some (x :: y :: z :: List.replicate (dims - 3) w) := by
  obtain ⟨n, rfl⟩ := Nat.exists_eq_add_of_le h
  simp [vecCtor, Nat.add_comm 3 n, List.replicate_succ]

/-- the vectors of vec.h with three and four dimensions -/
example (x y z w : Int) : vecCtor 3 x y z w = some [x, y, z] ∧ vecCtor 4 x y z w = some [x, y, z, w] :=
  ⟨c50_components_partial (by decide) x y z w, c50_components_partial (by decide) x y z w⟩

/-- C50 is false of the code: `Vec2` exists (vec.h) and its two-argument constructor is undefined behaviour. -/
theorem c50_counterexample : vecCtor 2 (1 : Int) 2 0 0 = none := rfl

/-! ## C07 for meshes that have been edited -/

open Classical in
/-- C07: on every consistent mesh, the reported triangles are the faces that are not flagged as holes, each once, in the
order of the face array, with the corners in the order of the face's half-edges. -/
theorem c07_report_any {F : Type} [Scalar F] {m : Mesh F} (g : m.Good) :
    getVertexIndices m = .ok ((m.fs.filter (fun f => decide (¬ m.HoleFace f))).map m.triple) m :=
  g.indices_ok

end TinyMesh
