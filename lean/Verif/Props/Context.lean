import Verif.Proof.CtxE
import Verif.Props.Settle
/-
The iterations of context-coherent completion. C83: patches. C84: dissimilarity and trees of matched patches. C85: new positions.
-/
namespace TinyMesh
open Sample Orbit

/-! ## C83 -/

section
variable {F : Type} [ScalarX F] {m : Mesh F}

/-- C83: the patch of a vertex consists of every face of its star and of every face that a chain of at most `r` faces with common edges joins
to the star; each face is found once, and the mesh is not changed. -/
theorem c83_faces (w : m.WF) (r : Int) {v : Nat} (a : m.vAlive v = true) :
    ∃ l, patchFaces r v m = .ok l m ∧ l.Nodup ∧ ∀ f, f ∈ l ↔ m.InPatch r v f := w.patchFaces_ok r a

/-- C83: the vertices of the patch are the corners of its faces, each once; their indices are in the order of the vertices. Both hold for
every order in which the sets are visited. -/
theorem c83_verts (w : m.WF) {ordF ordV : List Nat → List Nat} (hF : ∀ l, (ordF l).Perm l) (hV : ∀ l, (ordV l).Perm l) (r : Int) {i v : Nat}
    (hi : m.vs[i]? = some v) :
    ∃ P, patchOf ordF ordV r i m = .ok P m ∧ P.faces.Nodup ∧ (∀ f, f ∈ P.faces ↔ m.InPatch r v f) ∧
      P.verts.Nodup ∧ (∀ u, u ∈ P.verts ↔ m.OnPatch r v u) ∧ P.ids.Nodup ∧ (∀ k, k ∈ P.ids ↔ ∃ u, m.vs[k]? = some u ∧ m.OnPatch r v u) ∧
      P.ids.length = P.verts.length ∧ ∀ j k : Nat, P.ids[j]? = some k → P.verts[j]? = m.vs[k]? := w.patchOf_ok hF hV r hi

/-- C83: sources are the locked vertices and targets are the others, both in ascending order. -/
theorem c83_sides (w : m.WF) : ∃ src tgt, srcTgt (List.range m.vs.length) m = .ok (src, tgt) m ∧ src.Pairwise (· < ·) ∧ tgt.Pairwise (· < ·) ∧
    (∀ i, i ∈ src ↔ ∃ v, m.vs[i]? = some v ∧ m.vLock v = true) ∧ ∀ i, i ∈ tgt ↔ ∃ v, m.vs[i]? = some v ∧ m.vLock v = false := by
  refine ⟨_, _, srcTgt_ok w _ (fun i hi => List.mem_range.1 hi), List.Pairwise.filter _ List.pairwise_lt_range,
    List.Pairwise.filter _ List.pairwise_lt_range, fun i => ?_, fun i => ?_⟩
  all_goals
    rw [List.mem_filter, List.mem_range]
    constructor
    · rintro ⟨h1, h2⟩
      rw [List.getElem?_eq_getElem h1] at h2 ⊢
      exact ⟨_, rfl, by simpa using h2⟩
    · rintro ⟨v, h1, h2⟩
      exact ⟨(List.getElem?_eq_some_iff.1 h1).1, by rw [h1]; simpa using h2⟩

omit [ScalarX F] in
/-- C83: a radius of one or less gives the star of the vertex, a larger radius a larger patch; the vertex and its neighbours are always on
its patch. -/
theorem c83_star (w : m.WF) {v : Nat} (a : m.vAlive v = true) :
    (∀ r : Int, r ≤ 1 → ∀ f, m.InPatch r v f ↔ ∃ h, m.hAlive h = true ∧ m.hSrc h = v ∧ m.hFace h = f) ∧
    (∀ r r' : Int, r ≤ r' → ∀ f, m.InPatch r v f → m.InPatch r' v f) ∧
    ∀ r : Int, m.OnPatch r v v ∧ ∀ h, m.hAlive h = true → m.hSrc h = v → m.OnPatch r v (m.hSrc (m.hNext h)) := by
  have one : ∀ f, m.FaceChain v 1 f → ∃ h, m.hAlive h = true ∧ m.hSrc h = v ∧ m.hFace h = f := by
    intro f c
    generalize hk : (1 : Nat) = k at c
    cases c with
    | first ah e => exact ⟨_, ah, e, rfl⟩
    | more c ah =>
      have := c.pos
      omega
  refine ⟨fun r hr f => ⟨?_, ?_⟩, fun r r' hr f => ?_, fun r => ⟨?_, fun h ah e => ?_⟩⟩
  · rintro ⟨k, c, hk⟩
    have k1 : k = 1 := by
      have := c.pos
      omega
    exact one f (k1 ▸ c)
  · rintro ⟨h, ah, e, rfl⟩
    exact ⟨1, .first ah e, .inl rfl⟩
  · rintro ⟨k, c, hk⟩
    exact ⟨k, c, by omega⟩
  · obtain ⟨a0, e0⟩ := w.vHe_ok v a
    exact ⟨m.vHe v, a0, e0, 1, .first a0 e0, .inl rfl⟩
  · exact ⟨m.hNext h, w.next_alive _ ah, rfl, 1, by rw [w.face_next _ ah]; exact .first ah e, .inl rfl⟩

end

/-! ## C84 -/

section
variable {m : Mesh XR} {p : Nat → E3} {r : RigidFit XR} {R : Matrix (Fin 3) (Fin 3) ℝ} {t : E3}

/-- C84: the dissimilarity of a target patch and a moved source patch is a weighted mean of the squared distances between the field at a
target vertex and the turned field at the source vertex whose image is closest. It is not negative. -/
theorem c84_dissim (w : m.WF) (A : m.AtE p) (hR : r.R.Is R) (ht : r.t.Is t) {field : List (Vec3 XR × XR)} {a : Nat → E3} {fl : Nat → ℝ}
    (hf : FieldIs m field a fl) {src : List Nat} (aS : ∀ u ∈ src, m.vAlive u = true) {vs : List Nat} (ne : vs ≠ [])
    (al : ∀ v ∈ vs, m.vAlive v = true) (near : ∀ v ∈ vs, ∃ u ∈ src, ‖p v - (turnBy R (p u) + t)‖ < 10 ^ 20) :
    ∃ near : Nat → Nat, (∀ v ∈ vs, ClosestImage p R t src v (near v)) ∧ dissim field r vs src m = .ok (.fin (fieldDist a fl R vs near)) m ∧
      0 ≤ fieldDist a fl R vs near := by
  obtain ⟨g, h1, h2⟩ := dissim_ok w A hR ht hf aS ne al near
  exact ⟨g, h1, h2, fieldDist_nonneg a fl vs g⟩

/-- C84: if the images of all source vertices are `1e20` or more away from the first target vertex, a null pointer is dereferenced. -/
theorem c84_none (A : m.AtE p) (hR : r.R.Is R) (ht : r.t.Is t) {field : List (Vec3 XR × XR)} {src : List Nat} (aS : ∀ u ∈ src, m.vAlive u = true)
    {v : Nat} {vs : List Nat} (av : m.vAlive v = true) (far : ∀ u ∈ src, 10 ^ 20 ≤ ‖p v - (turnBy R (p u) + t)‖) :
    dissim field r (v :: vs) src m = .err .ub := dissim_none A hR ht aS av far

/-- C84: the tree of a source patch is built over the images of its faces, one triangle for every face, and a query returns the closest point
on a triangle of smallest distance. -/
theorem c84_tree (w : m.WF) (A : m.AtE p) (hR : r.R.Is R) (ht : r.t.Is t) {fs : List Nat} (al : ∀ f ∈ fs, m.fAlive f = true ∧ m.sides f = 3) (ne : fs ≠ [])
    {lib : Lib XR} (std : lib.Std) (near : ∀ v, m.vAlive v = true → ∀ i, |(turnBy R (p v) + t) i| ≤ 10 ^ 19) :
    ∃ b ts, patchBvh lib r fs m = .ok b m ∧ List.Forall₂ (m.ImageOf p R t) fs ts ∧
      ∀ q : Vec3 ℝ, q.Near → ∃ T ∈ ts, bvhClosest b q.fin = .ok (T.closestPoint q).fin ∧ ∀ T' ∈ ts, T.distance q ≤ T'.distance q := by
  obtain ⟨root, V, I, ts, e, hr, hb, im⟩ := patchBvh_ok w A hR ht al std
  refine ⟨_, ts, e, im, fun q hq => ?_⟩
  obtain ⟨f, fs', rfl⟩ := List.exists_cons_of_ne_nil ne
  cases im with
  | cons i im =>
    rename_i T0 ts'
    obtain ⟨h, ah, -, e0, e1, e2⟩ := i
    have a1 := w.next_alive _ ah
    have n : ∀ x : Vec3 ℝ, ∀ v, m.vAlive v = true → x.E = turnBy R (p v) + t → x.Near := fun x v a e i => by rw [e]; exact near v a i
    obtain ⟨root', hb', -, h'⟩ := c34_build std hr
    rw [hb] at hb'
    obtain rfl : root = root' := by simpa using hb'
    obtain ⟨bx, lv⟩ := h' (by simp)
    obtain ⟨T, hT, q1, -, q2⟩ := c33_query_any_tree bx (fun i hi => lv.mem_iff.2 (List.mem_range.2 hi)) q
      ⟨T0, by simp, near_dist (n _ _ (w.src_alive _ ah) e0) (n _ _ (w.src_alive _ a1) e1) (n _ _ (w.src_alive _ (w.next_alive _ a1)) e2) hq⟩
    exact ⟨T, hT, q1, q2⟩

end

/-! ## C85 -/

section
variable {m : Mesh XR} {p : Nat → E3}

/-- a target with the faces, the motion and the dissimilarity of its source patch -/
structure Matched (m : Mesh XR) (p : Nat → E3) (lib : Lib XR) (t : Target XR) (fs : List Nat) (R : Matrix (Fin 3) (Fin 3) ℝ) (w : E3) (d : ℝ) : Prop where
  some : fs ≠ []
  tri : ∀ f ∈ fs, m.fAlive f = true ∧ m.sides f = 3
  tree : ∃ r : RigidFit XR, r.R.Is R ∧ r.t.Is w ∧ patchBvh lib r fs m = .ok t.bvh m
  near : ∀ v, m.vAlive v = true → ∀ i, |(turnBy R (p v) + w) i| ≤ 10 ^ 19
  nonneg : 0 ≤ d
  dis : t.dis = .fin d
  ids : ∀ k ∈ t.patch.ids, k < m.vs.length

/-- `y` is the point of a triangle of the moved patch that the query returns for `x`: no triangle is nearer to `x` -/
def NearestOn (m : Mesh XR) (p : Nat → E3) (fs : List Nat) (R : Matrix (Fin 3) (Fin 3) ℝ) (w x y : E3) : Prop :=
  ∃ (ts : List (Triangle ℝ)) (q : Vec3 ℝ), q.E = x ∧ List.Forall₂ (m.ImageOf p R w) fs ts ∧
    ∃ T ∈ ts, y = (T.closestPoint q).E ∧ ∀ T' ∈ ts, T.distance q ≤ T'.distance q

/-- C85: Let `N v` be the weighted mean of the points that the matched patches around `v` propose for `v`. A locked vertex does not move. Every
other vertex goes one tenth of the way to `N v + T v`, where the offset `T` is the harmonic extension of the offsets `p u - N u` of the locked
vertices next to the hole. -/
theorem c85_positions (w : m.WF) (A : m.AtE p) (hp : ∀ v, m.vAlive v = true → ∀ i, |p v i| ≤ 10 ^ 19) {lib : Lib XR} (std : lib.Std) {ts : List (Target XR)}
    {fsO : Target XR → List Nat} {RO : Target XR → Matrix (Fin 3) (Fin 3) ℝ} {wO : Target XR → E3} {dO : Target XR → ℝ}
    (H : ∀ t ∈ ts, Matched m p lib t (fsO t) (RO t) (wO t) (dO t)) {tgt : List Nat} (nd : tgt.Nodup)
    (mt : ∀ i, i ∈ tgt ↔ ∃ v, m.vs[i]? = some v ∧ m.vLock v = false)
    (own : ∀ v, m.vAlive v = true → m.vLock v = false → ∃ t ∈ ts, ∀ u, u = v ∨ m.Joined v u → (m.vIdx u).toNat ∈ t.patch.ids)
    (P : m.Anchored p fun v => m.vLock v = false) {solve : LinSolve XR} (hE : solve.ExactSym) :
    ∃ (g : Target XR → Nat → Vote) (m' : Mesh XR) (N T : Nat → E3),
      (∀ t ∈ ts, ∀ u, m.vAlive u = true → (m.vIdx u).toNat ∈ t.patch.ids →
        (g t u).dis = dO t ∧ NearestOn m p (fsO t) (RO t) (wO t) (p u) (g t u).point) ∧
      (∀ v, N v = voteMean ((ts.filter fun t => t.patch.ids.contains (m.vIdx v).toNat).map fun t => g t v)) ∧
      moveTargets solve ts tgt m = .ok () m' ∧ m' = { m with vPos := m'.vPos } ∧
      (∀ v, m.vAlive v = true → m.vLock v = true → m'.vPos v = m.vPos v) ∧
      (∀ v, m.vAlive v = true → m.vLock v = false → (m'.vPos v).Is (p v + (1 / 10 : ℝ) • (N v + T v - p v))) ∧
      (∀ v u, m.vAlive v = true → m.vLock v = false → m.Joined v u → m.vLock u = true → T u = p u - N u) ∧
      ∀ v, m.vAlive v = true → m.vLock v = false → m.lap p T v = 0 := by
  have ex : ∀ (t : Target XR) (u : Nat), ∃ y : E3, t ∈ ts → m.vAlive u = true →
      NearestOn m p (fsO t) (RO t) (wO t) (p u) y ∧ ∃ c, bvhClosest t.bvh (m.vPos u) = .ok c ∧ c.Is y := by
    intro t u
    by_cases ht : t ∈ ts
    · by_cases a : m.vAlive u = true
      · obtain ⟨h1, h2, ⟨r, r1, r2, r3⟩, h4, -⟩ := H t ht
        obtain ⟨b, Ts, e1, e2, e3⟩ := c84_tree w A r1 r2 h2 h1 std h4
        rw [r3] at e1
        obtain ⟨q, q1, q2⟩ := A u a
        obtain ⟨T, hT, e4, e5⟩ := e3 q (fun i => by rw [q2]; exact hp u a i)
        cases e1
        exact ⟨_, fun _ _ => ⟨⟨Ts, q, q2, e2, T, hT, rfl, e5⟩, _, by rw [q1]; exact e4, _, rfl, rfl⟩⟩
      · exact ⟨0, fun _ c => absurd c a⟩
    · exact ⟨0, fun c => absurd c ht⟩
  choose y hy using ex
  obtain ⟨m', T, h1, h2, h3, h4, h5, h6⟩ := moveTargets_ok w A (ts := ts) (g := fun t u => ⟨y t u, dO t⟩) nd mt (by
      intro t ht k hk
      have h := H t ht
      have hk' := h.ids k hk
      have e := List.getElem?_eq_getElem hk'
      exact ⟨_, e, h.nonneg, h.dis, (hy t _ ht (w.vDense.alive_at e)).2⟩) (by
      intro i hi
      obtain ⟨v, hv, l⟩ := (mt i).1 hi
      obtain ⟨t, ht, h⟩ := own v (w.vDense.alive_at hv) l
      refine ⟨t, ht, ?_⟩
      have := h v (.inl rfl)
      rwa [w.vDense.idx_of hv] at this) P hE
  refine ⟨fun t u => ⟨y t u, dO t⟩, m', _, T, fun t ht u a _ => ⟨rfl, (hy t u ht a).1⟩, fun v => rfl, h1, h2, h3, h4, fun v u av lv j lu => ?_, h6⟩
  obtain ⟨t, ht, h⟩ := own v av lv
  obtain ⟨x, ax, -, rfl⟩ := id j
  exact h5 _ (w.src_alive _ (w.next_alive _ ax)) lu ⟨t, ht, h _ (.inr j)⟩

end

/-! ### Sample: the square with a vertex above its centre -/

section
variable {z : ℝ} {m : Mesh XR}

theorem Tent.faces (T : Tent z m) : [m.hFace 11, m.hFace 12, m.hFace 13, m.hFace 14, m.hFace 15, m.hFace 16] = [4, 4, 5, 5, 5, 5] ∧ m.vs = [1, 2, 3, 4, 5] := by
  obtain ⟨a, b, c, d, e, f, g, h⟩ := T.tab
  rw [c] at h
  simp only [List.map_cons, List.map_nil, List.cons.injEq, and_true] at h
  exact ⟨by simp only [h], a⟩

/-- the patch of radius two of a corner of the square has a face that is not in its star -/
example (T : Tent z m) : ∃ l l', patchFaces 2 3 m = .ok l m ∧ patchFaces 1 3 m = .ok l' m ∧ 4 ∈ l ∧ 4 ∉ l' := by
  obtain ⟨e, f, g, h, d, o, o', ha, va, fa⟩ := T.tables
  obtain ⟨i, -⟩ := T.faces
  simp only [List.cons.injEq, and_true] at i
  have a3 := (va 3).2 (by omega)
  obtain ⟨l, h1, -, h2⟩ := c83_faces T.wf 2 a3
  obtain ⟨l', h3, -, h4⟩ := c83_faces T.wf 1 a3
  refine ⟨l, l', h1, h3, (h2 4).2 ⟨2, ?_, by omega⟩, fun c => ?_⟩
  · have c1 : m.FaceChain 3 1 (m.hFace 3) := .first ((ha 3).2 (by omega)) e.2.2.1
    have : m.hFace 3 = m.hFace 1 := by simp [h]
    rw [this] at c1
    have := Mesh.FaceChain.more c1 ((ha 1).2 (by omega))
    rwa [g.1, i.2.1] at this
  · obtain ⟨x, ax, s, fx⟩ := ((c83_star T.wf a3).1 1 le_rfl 4).1 ((h4 4).1 c)
    obtain ⟨x1, x2⟩ := (ha x).1 ax
    have f5 : m.hFace 5 = 2 := by
      have := T.wf.face_next 4 ((ha 4).2 (by omega))
      rw [f.2.2.2.1] at this
      rw [this]; exact h.2.2.2.1
    interval_cases x <;> simp_all

/-- the motion that moves nothing -/
noncomputable def stay : RigidFit XR := ⟨fun i j => .fin ((1 : Matrix (Fin 3) (Fin 3) ℝ) i j), ⟨.fin 0, .fin 0, .fin 0⟩, .fin 0⟩

theorem stay_is : stay.R.Is 1 ∧ stay.t.Is (⟨0, 0, 0⟩ : Vec3 ℝ).E := ⟨fun _ _ => rfl, _, rfl, rfl⟩

theorem stay_at (x : E3) : turnBy 1 x + (⟨0, 0, 0⟩ : Vec3 ℝ).E = x := by
  have : (⟨0, 0, 0⟩ : Vec3 ℝ).E = 0 := by ext i; fin_cases i <;> rfl
  rw [this, add_zero]
  simp [turnBy]

theorem tent_near (hz : |z| ≤ 1) (v : Nat) (i : Fin 3) : |(tentAt z v).E i| ≤ 10 ^ 19 := by
  unfold tentAt patchAt
  split_ifs <;> fin_cases i <;> simp [Vec3.E] <;> linarith

/-- the field `(v², 0, 0)` at two vertices, compared with that at a third one -/
example (T : Tent z m) (hz : |z| ≤ 1) : dissim ([1, 2, 3, 4, 5].map fun v : Nat => ((⟨(v : ℝ) ^ 2, 0, 0⟩ : Vec3 ℝ).fin, XR.fin 1)) stay [1, 3] [2] m = .ok (.fin 17) m := by
  obtain ⟨e, f, g, h, d, o, o', ha, va, fa⟩ := T.tables
  obtain ⟨-, vs⟩ := T.faces
  have al : ∀ v ∈ [1, 3], m.vAlive v = true := fun v hv => (va v).2 (by fin_cases hv <;> simp)
  have al2 : ∀ v ∈ [2], m.vAlive v = true := fun v hv => (va v).2 (by fin_cases hv; simp)
  obtain ⟨near, h1, h2, -⟩ := c84_dissim T.wf T.pos stay_is.1 stay_is.2
    (field := [1, 2, 3, 4, 5].map fun v : Nat => ((⟨(v : ℝ) ^ 2, 0, 0⟩ : Vec3 ℝ).fin, XR.fin 1)) (a := fun v => (⟨(v : ℝ) ^ 2, 0, 0⟩ : Vec3 ℝ).E) (fl := fun _ => 1)
    (fun k v hk => by
      rw [vs] at hk
      exact ⟨_, by rw [List.getElem?_map, hk]; rfl, _, rfl, rfl⟩) al2 (by simp) al (fun v hv => ⟨2, by simp, by
      have hz' : z ^ 2 ≤ 1 := by rw [← sq_abs]; nlinarith [abs_nonneg z]
      rw [stay_at, ← Vec3.E_sub, Vec3.E_norm, Vec3.length_def, Real.sqrt_lt' (by norm_num)]
      fin_cases hv <;> norm_num [tentAt, patchAt, Vec3.sub_def, Vec3.dot_def] <;> nlinarith⟩)
  have n1 : near 1 = 2 := by simpa using (h1 1 (by simp)).1
  have n3 : near 3 = 2 := by simpa using (h1 3 (by simp)).1
  rw [h2]
  congr 2
  have tb : ∀ x : E3, turnBy 1 x = x := fun x => by simp [turnBy]
  unfold fieldDist
  simp only [List.map_cons, List.map_nil, List.sum_cons, List.sum_nil, n1, n3, tb, ← Vec3.E_sub, Vec3.E_norm, List.length_cons, List.length_nil]
  have sq : ∀ a : Vec3 ℝ, a.length ^ 2 = a.dot a := fun a => by rw [pow_two, Vec3.length_sq]
  simp only [sq]
  norm_num [Vec3.sub_def, Vec3.dot_def]

/-- an empty source patch -/
example (T : Tent z m) (field : List (Vec3 XR × XR)) : dissim field stay [1, 3] [] m = .err .ub := by
  obtain ⟨e, f, g, h, d, o, o', ha, va, fa⟩ := T.tables
  exact c84_none T.pos stay_is.1 stay_is.2 (by simp) ((va 1).2 (by omega)) (by simp)

/-- the triangles of two faces -/
theorem tent_tree (T : Tent z m) (hz : |z| ≤ 1) : ∃ b ts, patchBvh idLib stay [1, 2] m = .ok b m ∧
    List.Forall₂ (m.ImageOf (fun v => (tentAt z v).E) 1 (⟨0, 0, 0⟩ : Vec3 ℝ).E) [1, 2] ts ∧
    ∀ q : Vec3 ℝ, q.Near → ∃ T ∈ ts, bvhClosest b q.fin = .ok (T.closestPoint q).fin ∧ ∀ T' ∈ ts, T.distance q ≤ T'.distance q := by
  obtain ⟨e, f, g, h, d, o, o', ha, va, fa⟩ := T.tables
  exact c84_tree T.wf T.pos stay_is.1 stay_is.2 (fun f hf => ⟨(fa f).2 (by fin_cases hf <;> simp), T.tri f (by fin_cases hf <;> simp)⟩) (by simp) idLib_std
    (fun v _ i => by rw [stay_at]; exact tent_near hz v i)

example (T : Tent z m) (hz : |z| ≤ 1) : ∃ b c, patchBvh idLib stay [1, 2] m = .ok b m ∧ bvhClosest b (Vec3.fin ⟨0, 0, 2⟩) = .ok c := by
  obtain ⟨b, ts, h1, -, h2⟩ := tent_tree T hz
  obtain ⟨U, -, h3, -⟩ := h2 ⟨0, 0, 2⟩ (fun i => by fin_cases i <;> norm_num [Vec3.E])
  exact ⟨b, _, h1, h3⟩

/-- the vertex above the centre is moved, the corners of the square are not -/
example (hz : |z| ≤ 1) : ∃ (m : Mesh XR) (ts : List (Target XR)) (m' : Mesh XR) (x : E3), Tent z m ∧ ts.length = 1 ∧ moveTargets exactSolve ts [0] m = .ok () m' ∧
    (∀ v, v = 2 ∨ v = 3 ∨ v = 4 ∨ v = 5 → m'.vPos v = (tentAt z v).fin) ∧ (m'.vPos 1).Is x := by
  obtain ⟨m, T⟩ := tent_exists z
  obtain ⟨e, f, g, h, d, o, o', ha, va, fa⟩ := T.tables
  obtain ⟨-, vs⟩ := T.faces
  obtain ⟨b, -, hb, -⟩ := tent_tree T hz
  have lk : ∀ v, v = 2 ∨ v = 3 ∨ v = 4 ∨ v = 5 → m.vLock v = true := by
    intro v hv
    have a : m.vAlive v = true := (va v).2 (by omega)
    cases c : m.vLock v with
    | true => rfl
    | false => have := (T.lock v a).1 c; omega
  have l1 : m.vLock 1 = false := (T.lock 1 ((va 1).2 (by omega))).2 rfl
  have r1 : (1 : ℝ) / 2 ≤ √(1 + z ^ 2) := by
    rw [Real.le_sqrt (by norm_num) (by positivity)]
    nlinarith [sq_nonneg z]
  have r2 : √(1 + z ^ 2) ^ 2 = 1 + z ^ 2 := Real.sq_sqrt (by positivity)
  have P : m.Anchored (fun v => (tentAt z v).E) (fun v => m.vLock v = false) := by
    have iff : ∀ v, m.vAlive v = true → (m.vLock v = false ↔ m.Inside 1 v) := fun v a => (T.lock v a).trans (T.inside v).symm
    have C := T.anchored r1 r2
    refine ⟨fun h a hs => C.nonneg h a ((iff _ (T.wf.src_alive _ a)).1 hs), fun v a hs => ?_⟩
    obtain rfl := (T.lock v a).1 hs
    have a1 := (ha 1).2 (by omega)
    have : m.Linked (fun v => (tentAt z v).E) (fun u => ¬ m.vLock u = false) (m.hSrc 1) := by
      refine .step a1 (by rw [T.cots r1 r2 a1 e.1]; positivity) (.here ?_)
      rw [f.1, e.2.1, lk 2 (by omega)]
      simp
    rwa [e.1] at this
  obtain ⟨G, m', N, S, -, -, h1, -, h2, h3, -⟩ := c85_positions T.wf T.pos (fun v _ i => tent_near hz v i) idLib_std
    (ts := [⟨0, ⟨[], [0, 1, 2, 3, 4], []⟩, b, .fin 0⟩]) (fsO := fun _ => [1, 2]) (RO := fun _ => 1) (wO := fun _ => (⟨0, 0, 0⟩ : Vec3 ℝ).E) (dO := fun _ => 0)
    (fun t ht => by
      obtain rfl := List.mem_singleton.1 ht
      exact ⟨by simp, fun f hf => ⟨(fa f).2 (by fin_cases hf <;> simp), T.tri f (by fin_cases hf <;> simp)⟩, ⟨stay, stay_is.1, stay_is.2, hb⟩,
        fun v _ i => by rw [stay_at]; exact tent_near hz v i, le_rfl, rfl, fun k hk => by rw [vs]; fin_cases hk <;> simp⟩)
    (tgt := [0]) (by simp) (fun i => by
      rw [vs]
      constructor
      · intro hi
        obtain rfl := List.mem_singleton.1 hi
        exact ⟨1, rfl, l1⟩
      · rintro ⟨v, hv, l⟩
        have a : m.vAlive v = true := (va v).2 (by
          have := List.mem_iff_getElem?.2 ⟨i, hv⟩
          simp only [List.mem_cons, List.not_mem_nil, or_false] at this
          omega)
        obtain rfl := (T.lock v a).1 l
        match i, hv with
        | 0, _ => simp
        | 1, hv => simp at hv
        | 2, hv => simp at hv
        | 3, hv => simp at hv
        | 4, hv => simp at hv
        | n + 5, hv => simp at hv)
    (fun v av l => ⟨_, List.mem_singleton.2 rfl, fun u hu => by
      have au : m.vAlive u = true := by
        rcases hu with rfl | ⟨x, ax, -, rfl⟩
        · exact av
        · exact T.wf.src_alive _ (T.wf.next_alive _ ax)
      have := (T.wf.idx_toNat au).1
      rw [vs] at this
      have := (List.getElem?_eq_some_iff.1 this).1
      simp only [List.length_cons, List.length_nil] at this
      dsimp only
      simp only [List.mem_cons, List.not_mem_nil, or_false]
      omega⟩) P exactSolve_exactSym
  refine ⟨m, _, m', _, T, rfl, h1, fun v hv => ?_, h3 1 ((va 1).2 (by omega)) l1⟩
  rw [h2 v ((va v).2 (by omega)) (lk v hv), T.at' v]

end
end TinyMesh
