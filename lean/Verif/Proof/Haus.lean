import Verif.Proof.TriB
/-
The Hausdorff distance of two triangle soups.
-/
namespace TinyMesh

theorem Reads.readTris {F : Type} {V : List (Vec3 F)} : ∀ {I : List Nat} {ts : List (Triangle F)}, Reads V I ts →
    TinyMesh.readTris V I = .ok ts
  | I, [], h => by
    obtain ⟨h1, -⟩ := h
    have : I = [] := List.length_eq_zero_iff.1 (by simpa using h1)
    subst this; rfl
  | I, t :: ts, h => by
    obtain ⟨h1, h2⟩ := h
    match I, h1, h2 with
    | [], h1, _ => simp at h1
    | [_], h1, _ => simp at h1; omega
    | [_, _], h1, _ => simp at h1; omega
    | i0 :: i1 :: i2 :: I, h1, h2 =>
      obtain ⟨a, b, c, e1, e2, e3, e4, e5, e6⟩ := h2 0 t rfl
      simp at e1 e2 e3
      subst e1 e2 e3
      have ih : TinyMesh.readTris V I = .ok ts := by
        apply Reads.readTris
        refine ⟨by simp at h1; omega, ?_⟩
        intro k t' hk
        obtain ⟨a, b, c, g⟩ := h2 (k + 1) t' (by simpa using hk)
        refine ⟨a, b, c, ?_⟩
        have e : 3 * (k + 1) = 3 * k + 3 := by ring
        have e' : 3 * (k + 1) + 1 = 3 * k + 1 + 3 := by ring
        have e'' : 3 * (k + 1) + 2 = 3 * k + 2 + 3 := by ring
        rw [e', e'', e] at g
        simpa only [List.getElem?_cons_succ] using g
      show (match V[i0]?, V[i1]?, V[i2]? with
        | some a, some b, some c => do
          let ts ← TinyMesh.readTris V I
          return ⟨a, b, c⟩ :: ts
        | _, _, _ => .error .ub : Except Err (List (Triangle F))) = _
      rw [e4, e5, e6, ih]
      rfl

theorem Reads.inRange {F : Type} {V : List (Vec3 F)} {I : List Nat} {ts : List (Triangle F)} (h : Reads V I ts) :
    I.length % 3 = 0 ∧ ∀ i ∈ I, i < V.length := by
  obtain ⟨h1, h2⟩ := h
  refine ⟨by omega, ?_⟩
  intro i hi
  obtain ⟨j, hj⟩ := List.mem_iff_getElem?.1 hi
  have hl : j < I.length := (List.getElem?_eq_some_iff.1 hj).1
  have hk : j / 3 < ts.length := by omega
  obtain ⟨a, b, c, e1, e2, e3, e4, e5, e6⟩ := h2 (j / 3) ts[j / 3] (List.getElem?_eq_getElem hk)
  have hm : j = 3 * (j / 3) ∨ j = 3 * (j / 3) + 1 ∨ j = 3 * (j / 3) + 2 := by omega
  rcases hm with hm | hm | hm
  · rw [← hm, hj] at e1; cases e1; exact (List.getElem?_eq_some_iff.1 e4).1
  · rw [← hm, hj] at e2; cases e2; exact (List.getElem?_eq_some_iff.1 e5).1
  · rw [← hm, hj] at e3; cases e3; exact (List.getElem?_eq_some_iff.1 e6).1

theorem Reads.exists {F : Type} {V : List (Vec3 F)} : ∀ {I : List Nat}, I.length % 3 = 0 → (∀ i ∈ I, i < V.length) →
    ∃ ts, Reads V I ts
  | [], _, _ => ⟨[], rfl, by simp⟩
  | [_], h, _ => by simp at h
  | [_, _], h, _ => by simp at h
  | i0 :: i1 :: i2 :: I, h, hi => by
    obtain ⟨ts, g1, g2⟩ := Reads.exists (V := V) (I := I) (by simp at h; omega) (fun i hi' => hi i (by simp [hi']))
    have l0 := hi i0 (by simp)
    have l1 := hi i1 (by simp)
    have l2 := hi i2 (by simp)
    refine ⟨⟨V[i0], V[i1], V[i2]⟩ :: ts, by simp; omega, ?_⟩
    rintro (_ | k) t hk
    · simp only [List.getElem?_cons_zero, Option.some.injEq] at hk
      subst hk
      exact ⟨i0, i1, i2, rfl, rfl, rfl, List.getElem?_eq_getElem l0, List.getElem?_eq_getElem l1, List.getElem?_eq_getElem l2⟩
    · obtain ⟨a, b, c, g⟩ := g2 k t (by simpa using hk)
      refine ⟨a, b, c, ?_⟩
      have e : 3 * (k + 1) = 3 * k + 3 := by ring
      have e' : 3 * (k + 1) + 1 = 3 * k + 1 + 3 := by ring
      have e'' : 3 * (k + 1) + 2 = 3 * k + 2 + 3 := by ring
      rw [e', e'', e]
      simpa only [List.getElem?_cons_succ] using g

/-- corners of the triangles are positions of the list -/
theorem Reads.mem {F : Type} {V : List (Vec3 F)} {I : List Nat} {ts : List (Triangle F)} (h : Reads V I ts) {t : Triangle F}
    (ht : t ∈ ts) : t.p0 ∈ V ∧ t.p1 ∈ V ∧ t.p2 ∈ V := by
  obtain ⟨k, hk⟩ := List.mem_iff_getElem?.1 ht
  obtain ⟨a, b, c, -, -, -, e4, e5, e6⟩ := h.2 k t hk
  exact ⟨List.mem_of_getElem? e4, List.mem_of_getElem? e5, List.mem_of_getElem? e6⟩

theorem near_dist {t : Triangle ℝ} {q : Vec3 ℝ} (h0 : t.p0.Near) (h1 : t.p1.Near) (h2 : t.p2.Near) (hq : q.Near) :
    t.distance q < 10 ^ 20 := by
  have hb : t.hull ⊆ (⟨⟨-10 ^ 19, -10 ^ 19, -10 ^ 19⟩, ⟨10 ^ 19, 10 ^ 19, 10 ^ 19⟩⟩ : Bounds ℝ).box := by
    apply convexHull_min _ (Bounds.convex_box _)
    have key : ∀ p : Vec3 ℝ, p.Near → p.E ∈ (⟨⟨-10 ^ 19, -10 ^ 19, -10 ^ 19⟩, ⟨10 ^ 19, 10 ^ 19, 10 ^ 19⟩⟩ : Bounds ℝ).box := by
      intro p hp
      rw [Bounds.mem_box]
      exact ⟨abs_le.1 (hp 0), abs_le.1 (hp 1), abs_le.1 (hp 2)⟩
    rintro x (rfl | rfl | rfl)
    · exact key _ h0
    · exact key _ h1
    · exact key _ h2
  have hc := hb (t.closest_mem q)
  rw [Bounds.mem_box] at hc
  obtain ⟨⟨a1, a2⟩, ⟨a3, a4⟩, a5, a6⟩ := hc
  have q0 := abs_le.1 (hq 0)
  have q1 := abs_le.1 (hq 1)
  have q2 := abs_le.1 (hq 2)
  simp only [Vec3.E_zero, Vec3.E_one, Vec3.E_two] at q0 q1 q2
  simp only at a1 a2 a3 a4 a5 a6
  unfold Triangle.distance
  rw [Vec3.length_def, Real.sqrt_lt' (by norm_num), Vec3.sub_def, Vec3.dot_def]
  have sq : ∀ x y : ℝ, -10 ^ 19 ≤ x → x ≤ 10 ^ 19 → -10 ^ 19 ≤ y → y ≤ 10 ^ 19 → (x - y) * (x - y) ≤ 4 * 10 ^ 38 := by
    intro x y b1 b2 b3 b4
    have := abs_le_abs (a := x - y) (b := 2 * 10 ^ 19) (by linarith) (by linarith)
    have h2 := mul_self_le_mul_self (abs_nonneg _) this
    rw [abs_mul_abs_self, abs_mul_abs_self] at h2
    linarith
  have s1 := sq _ _ q0.1 q0.2 a1 a2
  have s2 := sq _ _ q1.1 q1.2 a3 a4
  have s3 := sq _ _ q2.1 q2.2 a5 a6
  simp only
  linarith

/-- smallest value of `Triangle::distance` over a list -/
noncomputable def minD (ts : List (Triangle ℝ)) (q : Vec3 ℝ) : ℝ := (ts.map (fun t => t.distance q)).foldr min (10 ^ 20)

theorem minD_eq {ts : List (Triangle ℝ)} {q : Vec3 ℝ} {t : Triangle ℝ} (ht : t ∈ ts) (h : t.distance q ≤ 10 ^ 20)
    (hm : ∀ t' ∈ ts, t.distance q ≤ t'.distance q) : minD ts q = t.distance q := by
  have lo : ∀ l : List (Triangle ℝ), (∀ t' ∈ l, t.distance q ≤ t'.distance q) → t.distance q ≤ minD l q := by
    intro l
    induction l with
    | nil => intro _; exact h
    | cons a l ih =>
      intro hl
      exact le_min (hl a (by simp)) (ih (fun t' h' => hl t' (by simp [h'])))
  have up : ∀ l : List (Triangle ℝ), t ∈ l → minD l q ≤ t.distance q := by
    intro l
    induction l with
    | nil => intro h; simp at h
    | cons a l ih =>
      intro hl
      rcases List.mem_cons.1 hl with rfl | h'
      · exact min_le_left _ _
      · exact (min_le_right _ _).trans (ih h')
  exact le_antisymm (up ts ht) (lo ts hm)

theorem mapM_ok {α β ε : Type} {f : α → Except ε β} {g : α → β} : ∀ {l : List α}, (∀ x ∈ l, f x = .ok (g x)) →
    l.mapM f = .ok (l.map g)
  | [], _ => rfl
  | a :: l, h => by
    rw [List.mapM_cons, h a (by simp), mapM_ok (fun x hx => h x (by simp [hx]))]
    rfl

theorem perVertex_ok {lib : Lib XR} (std : lib.Std) {a b : Soup ℝ} {tb : List (Triangle ℝ)} (hb : b.Valid tb)
    (na : ∀ p ∈ a.pos, p.Near) (nb : ∀ p ∈ b.pos, p.Near) :
    perVertexDist lib a.fin b.fin = .ok ((a.pos.map (minD tb)).map XR.fin) ∧
    ∀ p ∈ a.pos, ∃ t ∈ tb, minD tb p = t.distance p ∧ ∀ t' ∈ tb, t.distance p ≤ t'.distance p := by
  obtain ⟨root, e, -, h⟩ := bvh_build std hb.reads.inRange.1 hb.reads.inRange.2 hb.reads.readTris
  obtain ⟨bx, lv⟩ := h hb.some
  have hall : ∀ i, i < tb.length → i ∈ root.leaves := fun i hi => lv.mem_iff.2 (List.mem_range.2 hi)
  have q : ∀ p ∈ a.pos, ∃ t ∈ tb, bvhDistance ⟨root, tb.map Triangle.fin⟩ p.fin = .ok (.fin (minD tb p)) ∧
      minD tb p = t.distance p ∧ ∀ t' ∈ tb, t.distance p ≤ t'.distance p := by
    intro p hp
    obtain ⟨t0, h0⟩ := List.exists_mem_of_ne_nil _ hb.some
    obtain ⟨m0, m1, m2⟩ := hb.reads.mem h0
    obtain ⟨t, ht, -, h2, h3⟩ := bvh_query bx hall p ⟨t0, h0, near_dist (nb _ m0) (nb _ m1) (nb _ m2) (na p hp)⟩
    obtain ⟨m0, m1, m2⟩ := hb.reads.mem ht
    have hm := minD_eq ht (near_dist (nb _ m0) (nb _ m1) (nb _ m2) (na p hp)).le h3
    exact ⟨t, ht, by rw [h2, hm], hm, h3⟩
  refine ⟨?_, fun p hp => ?_⟩
  · unfold perVertexDist
    show (bvhConstruct lib (b.pos.map Vec3.fin) b.idx).bind _ = _
    rw [e]
    show (a.pos.map Vec3.fin).mapM _ = _
    rw [List.mapM_map, List.map_map]
    apply mapM_ok
    intro p hp
    obtain ⟨t, ht, h1, -⟩ := q p hp
    exact h1
  · obtain ⟨t, ht, -, h2, h3⟩ := q p hp
    exact ⟨t, ht, h2, h3⟩

/-- largest entry of a non-empty list -/
theorem maxCoeff_ok {l : List ℝ} (h : l ≠ []) : ∃ d, maxCoeff (l.map XR.fin) = .ok (.fin d) ∧ d ∈ l ∧ ∀ x ∈ l, x ≤ d := by
  match l, h with
  | a :: l, _ =>
    have key : ∀ (l : List ℝ) (a : ℝ), (l.map XR.fin).foldl (fun m x => if Scalar.lt m x then x else m) (XR.fin a) =
        XR.fin (l.foldl max a) := by
      intro l
      induction l with
      | nil => intro a; rfl
      | cons b l ih =>
        intro a
        simp only [List.map_cons, List.foldl_cons]
        rw [← ih]
        congr 1
        by_cases h : a < b
        · rw [if_pos (by rw [X_lt, R_lt]; exact h), max_eq_right h.le]
        · rw [if_neg (by rw [X_lt, R_lt]; exact h), max_eq_left (not_lt.1 h)]
    have ge : ∀ (l : List ℝ) (a : ℝ), a ≤ l.foldl max a := by
      intro l
      induction l with
      | nil => intro a; exact le_rfl
      | cons b l ih => intro a; exact (le_max_left a b).trans (ih _)
    have mem : ∀ (l : List ℝ) (a : ℝ), l.foldl max a ∈ a :: l := by
      intro l
      induction l with
      | nil => intro a; simp
      | cons b l ih =>
        intro a
        rw [List.foldl_cons]
        rcases List.mem_cons.1 (ih (max a b)) with h | h
        · rw [h]
          rcases max_choice a b with h | h <;> rw [h] <;> simp
        · simp [h]
    have up : ∀ (l : List ℝ) (a : ℝ), ∀ x ∈ a :: l, x ≤ l.foldl max a := by
      intro l
      induction l with
      | nil => intro a x hx; simp at hx; exact hx.le
      | cons b l ih =>
        intro a x hx
        rw [List.foldl_cons]
        rcases List.mem_cons.1 hx with rfl | hx
        · exact (le_max_left _ b).trans (ge _ _)
        · rcases List.mem_cons.1 hx with rfl | hx
          · exact (le_max_right a _).trans (ge _ _)
          · exact ih _ x (by simp [hx])
    refine ⟨l.foldl max a, ?_, mem l a, up l a⟩
    show Except.ok _ = _
    rw [key]

theorem hausdorff_ok {lib : Lib XR} (std : lib.Std) {a b : Soup ℝ} {ta tb : List (Triangle ℝ)} (ha : a.Valid ta)
    (hb : b.Valid tb) (na : ∀ p ∈ a.pos, p.Near) (nb : ∀ p ∈ b.pos, p.Near) :
    ∃ d, hausdorff lib a.fin b.fin = .ok (.fin d) ∧ (d ∈ a.pos.map (minD tb) ++ b.pos.map (minD ta)) ∧
      ∀ x ∈ a.pos.map (minD tb) ++ b.pos.map (minD ta), x ≤ d := by
  have ne : ∀ {s : Soup ℝ} {ts}, s.Valid ts → s.pos ≠ [] := by
    intro s ts h
    obtain ⟨t0, h0⟩ := List.exists_mem_of_ne_nil _ h.some
    exact List.ne_nil_of_mem (h.reads.mem h0).1
  obtain ⟨x, e1, m1, u1⟩ := maxCoeff_ok (l := a.pos.map (minD tb)) (by simpa using ne ha)
  obtain ⟨y, e2, m2, u2⟩ := maxCoeff_ok (l := b.pos.map (minD ta)) (by simpa using ne hb)
  refine ⟨max x y, ?_, ?_, ?_⟩
  · unfold hausdorff
    rw [(perVertex_ok std hb na nb).1, (perVertex_ok std ha nb na).1]
    show (maxCoeff ((a.pos.map (minD tb)).map XR.fin)).bind (fun a => (maxCoeff ((b.pos.map (minD ta)).map XR.fin)).bind
      (fun b => .ok (fmax a b))) = _
    rw [e1, e2]
    show Except.ok (fmax (XR.fin x) (XR.fin y)) = _
    rw [X_fmax, R_fmax]
  · rcases max_choice x y with h | h <;> rw [h]
    · exact List.mem_append_left _ m1
    · exact List.mem_append_right _ m2
  · intro z hz
    rcases List.mem_append.1 hz with h | h
    · exact (u1 z h).trans (le_max_left _ _)
    · exact (u2 z h).trans (le_max_right _ _)

end TinyMesh
