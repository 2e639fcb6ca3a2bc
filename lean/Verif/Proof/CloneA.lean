import Verif.Spec.Clone
import Verif.Proof.ConP
import Verif.Proof.Indices
/-
A consistent mesh with at most one hole at each vertex describes a manifold triangle list.
-/
set_option linter.unusedSimpArgs false
namespace TinyMesh
variable {F : Type} {m m' : Mesh F}

/-- the number of a vertex -/
def Mesh.vn (m : Mesh F) (v : Nat) : Nat := (m.vIdx v).toNat

theorem Mesh.WF.vn_spec (w : m.WF) {v : Nat} (a : m.vAlive v = true) : m.vs[m.vn v]? = some v ∧ m.vIdx v = (m.vn v : Int) := by
  obtain ⟨i, hi, e⟩ := List.getElem_of_mem ((w.vDense.mem v).2 a)
  have := w.vDense.idx i hi
  rw [e] at this
  unfold Mesh.vn
  rw [this, Int.toNat_natCast]
  exact ⟨by rw [List.getElem?_eq_getElem hi, e], rfl⟩

theorem Mesh.WF.vn_inj (w : m.WF) {u v : Nat} (a : m.vAlive u = true) (b : m.vAlive v = true) (e : m.vn u = m.vn v) : u = v := by
  have h1 := (w.vn_spec a).1
  have h2 := (w.vn_spec b).1
  rw [e, h2] at h1
  exact (Option.some.inj h1).symm

theorem Mesh.WF.vn_lt (w : m.WF) {v : Nat} (a : m.vAlive v = true) : m.vn v < m.vs.length :=
  (List.getElem?_eq_some_iff.1 (w.vn_spec a).1).1

/-- the directed edge of a half-edge -/
def Mesh.dir (m : Mesh F) (h : Nat) : Nat × Nat := (m.vn (m.hSrc h), m.vn (m.hSrc (m.hNext h)))

theorem Mesh.Good.dir_inj (g : m.Good) {h h' : Nat} (a : m.HA h) (a' : m.HA h') (e : m.dir h = m.dir h') : h = h' := by
  have w := g.wf
  simp only [Mesh.dir, Prod.mk.injEq] at e
  exact g.simple.no_dup h h' a a' (w.vn_inj (w.src_alive _ a) (w.src_alive _ a') e.1)
    (w.vn_inj (w.src_alive _ (w.next_alive _ a)) (w.src_alive _ (w.next_alive _ a')) e.2)

/-- a face that is not a hole is a triangle -/
theorem Mesh.Good.tri_of_not_hole (g : m.Good) {f : Nat} (af : m.fAlive f = true) (hf : ¬ m.HoleFace f) {h : Nat} (a : m.HA h)
    (e : m.hFace h = f) : m.OnTri h := by
  rcases g.tri.holds h a with t | t
  · exact t
  · exact absurd (fun x ax ex => (t x ax (by rw [ex, e])).1) hf

section
variable {f : Nat} (g : m.Good) (af : m.fAlive f = true) (hf : ¬ m.HoleFace f)
include g af hf

theorem corners_edges : (m.corners f).edges = [m.dir (m.hNext (m.fHe f)), m.dir (m.hNext (m.hNext (m.fHe f))), m.dir (m.fHe f)] := by
  have t := g.tri_of_not_hole af hf (g.wf.fHe_ok f af).1 (g.wf.fHe_ok f af).2
  unfold Mesh.OnTri at t
  simp only [Tri.edges, Mesh.corners, Mesh.triple, Mesh.dir, Mesh.vn, t]

theorem mem_corners {e : Nat × Nat} : e ∈ (m.corners f).edges ↔ ∃ x, m.HA x ∧ m.hFace x = f ∧ m.dir x = e := by
  have w := g.wf
  obtain ⟨a0, e0⟩ := w.fHe_ok f af
  have t := g.tri_of_not_hole af hf a0 e0
  rw [corners_edges g af hf]
  simp only [List.mem_cons, List.not_mem_nil, or_false]
  constructor
  · rintro (h | h | h)
    · exact ⟨_, w.next_alive _ a0, by rw [w.face_next _ a0, e0], h.symm⟩
    · exact ⟨_, w.next_alive _ (w.next_alive _ a0), by rw [w.face_next _ (w.next_alive _ a0), w.face_next _ a0, e0], h.symm⟩
    · exact ⟨_, a0, e0, h.symm⟩
  · rintro ⟨x, ax, ex, rfl⟩
    rcases w.tri_face a0 t ax (by rw [ex, e0]) with h | h | h
    · right; right; rw [h]
    · left; rw [h]
    · right; left; rw [h]

theorem has_corners {v : Nat} : (m.corners f).has v ↔ ∃ x, m.HA x ∧ m.hFace x = f ∧ m.vn (m.hSrc x) = v := by
  rw [Tri.has_iff]
  constructor
  · rintro ⟨u, h⟩
    obtain ⟨x, ax, ex, d⟩ := (mem_corners g af hf).1 h
    simp only [Mesh.dir, Prod.mk.injEq] at d
    exact ⟨x, ax, ex, d.1⟩
  · rintro ⟨x, ax, ex, rfl⟩
    exact ⟨_, (mem_corners g af hf).2 ⟨x, ax, ex, rfl⟩⟩

end

theorem mem_shown (w : m.WF) {t : Tri} : t ∈ m.shown ↔ ∃ f, m.fAlive f = true ∧ ¬ m.HoleFace f ∧ m.corners f = t := by
  unfold Mesh.shown
  simp only [List.mem_map, List.mem_filter, decide_eq_true_eq, w.fDense.mem, and_assoc]

/-- no half-edge is its own successor in the ring -/
theorem Mesh.Good.sig_ne (g : m.Good) {h : Nat} (a : m.HA h) : m.sig h ≠ h := by
  have w := g.wf
  intro e
  have ar := w.rev_alive _ a
  have h1 : m.hSrc (m.hNext (m.hRev h)) = m.hSrc h := congrArg m.hSrc e
  -- `next (rev h) = h`: the loop of `h` has a predecessor on the other side of the edge
  have e : m.hNext (m.hRev h) = h := e
  have hfc : m.hFace (m.hRev h) = m.hFace h := by rw [← w.face_next _ ar, e]
  have nr := w.rev_ne _ a
  by_cases t : m.OnTri h
  · rcases w.tri_face a t ar hfc with h2 | h2 | h2
    · exact nr h2
    · -- next (next h) = h
      have : m.hNext (m.hNext h) = h := by rw [← h2]; exact e
      unfold Mesh.OnTri at t
      rw [this] at t
      exact g.simple.no_loop h a (by rw [t])
    · have h3 := w.src_rev _ a
      rw [h2] at h3
      exact g.simple.no_loop _ (w.next_alive _ a) h3.symm
  · rcases g.tri.holds h a with t' | t'
    · exact t t'
    · have t2 := (t' h a rfl).2.2
      have := Mesh.WF.onTri_next t2
      rw [e] at this
      exact t this

theorem Mesh.Good.edges_shown (g : m.Good) : (m.shown.flatMap Tri.edges).Nodup := by
  classical
  have w := g.wf
  have key : ∀ l : List Nat, l.Nodup → (∀ f ∈ l, m.fAlive f = true ∧ ¬ m.HoleFace f) →
      ((l.map m.corners).flatMap Tri.edges).Nodup := by
    intro l
    induction l with
    | nil => intro _ _; simp
    | cons f l ih =>
      intro hn hl
      obtain ⟨af, hf⟩ := hl f (by simp)
      have hl' : ∀ f ∈ l, m.fAlive f = true ∧ ¬ m.HoleFace f := fun x hx => hl x (by simp [hx])
      rw [List.map_cons, List.flatMap_cons, List.nodup_append]
      refine ⟨?_, ih (List.nodup_cons.1 hn).2 hl', ?_⟩
      · apply Tri.edges_nodup
        rw [Rename.proper_iff_edges]
        intro e he
        obtain ⟨x, ax, _, rfl⟩ := (mem_corners g af hf).1 he
        intro e
        exact g.simple.no_loop x ax (w.vn_inj (w.src_alive _ ax) (w.src_alive _ (w.next_alive _ ax)) e)
      · rintro e he e' he' rfl
        obtain ⟨x, ax, ex, hd⟩ := (mem_corners g af hf).1 he
        obtain ⟨t, ht, hte⟩ := List.mem_flatMap.1 he'
        obtain ⟨f', hf', rfl⟩ := List.mem_map.1 ht
        obtain ⟨af2, hf2⟩ := hl' f' hf'
        obtain ⟨y, ay, ey, hd'⟩ := (mem_corners g af2 hf2).1 hte
        have := g.dir_inj ax ay (hd.trans hd'.symm)
        subst this
        rw [ex] at ey
        subst ey
        exact (List.nodup_cons.1 hn).1 hf'
  refine key _ (w.fDense.nodup.filter _) ?_
  intro f hf
  simp only [List.mem_filter, decide_eq_true_eq, w.fDense.mem] at hf
  exact hf

theorem Mesh.Good.manifold_shown (g : m.Good) (oh : m.OneHole) : Manifold m.shown := by
  classical
  have w := g.wf
  refine ⟨?_, ?_, ?_⟩
  · intro t ht
    obtain ⟨f, af, hf, rfl⟩ := (mem_shown w).1 ht
    rw [Rename.proper_iff_edges]
    intro e he
    obtain ⟨x, ax, _, rfl⟩ := (mem_corners g af hf).1 he
    intro e
    exact g.simple.no_loop x ax (w.vn_inj (w.src_alive _ ax) (w.src_alive _ (w.next_alive _ ax)) e)
  · exact g.edges_shown
  · intro a t s ht hs hta hsa
    obtain ⟨f, af, hf, rfl⟩ := (mem_shown w).1 ht
    obtain ⟨k, ak, hk, rfl⟩ := (mem_shown w).1 hs
    obtain ⟨x, ax, ex, hx⟩ := (has_corners g af hf).1 hta
    obtain ⟨z, az, ez, hz⟩ := (has_corners g ak hk).1 hsa
    have hsrc : m.hSrc x = m.hSrc z := w.vn_inj (w.src_alive _ ax) (w.src_alive _ az) (hx.trans hz.symm)
    -- a base from which the ring is walked
    obtain ⟨b, ab, sb, hb⟩ : ∃ b, m.HA b ∧ m.hSrc b = m.hSrc x ∧ ∀ h, m.HA h → m.hSrc h = m.hSrc x → m.AtHole h → m.sig h = b := by
      by_cases c : ∃ h0, m.HA h0 ∧ m.hSrc h0 = m.hSrc x ∧ m.AtHole h0
      · obtain ⟨h0, a0, s0, c0⟩ := c
        exact ⟨m.sig h0, w.sig_alive a0, by rw [w.sig_src a0, s0], fun h ah sh ch => by
          rw [oh h h0 ah a0 (by rw [sh, s0]) ch c0]⟩
      · exact ⟨x, ax, rfl, fun h ah sh ch => absurd ⟨h, ah, sh, ch⟩ c⟩
    have walk : ∀ n, ¬ m.AtHole (m.sig^[n] b) →
        Relation.EqvGen (FanStep m.shown a) (m.corners (m.hFace b)) (m.corners (m.hFace (m.sig^[n] b))) := by
      intro n
      induction n with
      | zero => intro _; exact .refl _
      | succ n ih =>
        intro hn
        have aw := w.permSig.iter ab n
        have sw := w.sig_iter_src ab n
        rw [Function.iterate_succ_apply'] at hn ⊢
        generalize m.sig^[n] b = y at *
        by_cases c : m.AtHole y
        · rw [hb y aw (by rw [sw, sb]) c]; exact .refl _
        · refine .trans _ _ _ (ih c) (.rel _ _ ?_)
          have ar := w.rev_alive _ aw
          have efc : m.hFace (m.sig y) = m.hFace (m.hRev y) := w.face_next _ ar
          unfold Mesh.AtHole at hn c
          rw [efc] at hn ⊢
          refine ⟨(mem_shown w).2 ⟨_, w.face_alive _ aw, c, rfl⟩, (mem_shown w).2 ⟨_, w.face_alive _ ar, hn, rfl⟩,
            m.vn (m.hSrc (m.hNext y)), ?_, ?_⟩
          · rw [← hx, ← sb, ← sw]
            exact (mem_corners g (w.face_alive _ aw) c).2 ⟨y, aw, rfl, rfl⟩
          · refine (mem_corners g (w.face_alive _ ar) hn).2 ⟨m.hRev y, ar, rfl, ?_⟩
            have e1 := w.src_rev _ aw
            have e2 := w.src_rev _ ar
            rw [w.rev_rev _ aw] at e2
            simp only [Mesh.dir, e1, ← e2, sw, sb, hx]
    obtain ⟨n1, q1⟩ := w.ring_conn b x ab ax sb
    obtain ⟨n2, q2⟩ := w.ring_conn b z ab az (by rw [sb, hsrc])
    have q1 : m.sig^[n1] b = x := q1
    have q2 : m.sig^[n2] b = z := q2
    have w1 := walk n1 (by rw [q1]; unfold Mesh.AtHole; rw [ex]; exact hf)
    have w2 := walk n2 (by rw [q2]; unfold Mesh.AtHole; rw [ez]; exact hk)
    rw [q1, ex] at w1
    rw [q2, ez] at w2
    exact .trans _ _ _ (.symm _ _ w1) w2

theorem Mesh.Good.range_shown (g : m.Good) {t : Tri} (ht : t ∈ m.shown) : t.inRange m.vs.length := by
  have w := g.wf
  obtain ⟨f, af, hf, rfl⟩ := (mem_shown w).1 ht
  have key : ∀ x, (m.corners f).has x → x < m.vs.length := by
    intro v hv
    obtain ⟨x, ax, _, rfl⟩ := (has_corners g af hf).1 hv
    exact w.vn_lt (w.src_alive _ ax)
  exact ⟨key _ (Or.inl rfl), key _ (Or.inr (Or.inl rfl)), key _ (Or.inr (Or.inr rfl))⟩

theorem Mesh.Good.used_shown (g : m.Good) (oh : m.OneHole) {a : Nat} (ha : a < m.vs.length) : ∃ t ∈ m.shown, t.has a := by
  have w := g.wf
  have av : m.vAlive m.vs[a] = true := (w.vDense.mem _).1 (List.getElem_mem ha)
  obtain ⟨ah, sh⟩ := w.vHe_ok _ av
  have hvn : m.vn m.vs[a] = a := by unfold Mesh.vn; rw [w.vDense.idx a ha, Int.toNat_natCast]
  obtain ⟨x, ax, sx, hx⟩ : ∃ x, m.HA x ∧ m.hSrc x = m.vs[a] ∧ ¬ m.AtHole x := by
    by_cases c : m.AtHole (m.vHe m.vs[a])
    · refine ⟨m.sig (m.vHe m.vs[a]), w.sig_alive ah, by rw [w.sig_src ah, sh], ?_⟩
      intro c'
      exact g.sig_ne ah (oh _ _ (w.sig_alive ah) ah (w.sig_src ah) c' c)
    · exact ⟨_, ah, sh, c⟩
  exact ⟨_, (mem_shown w).2 ⟨_, w.face_alive _ ax, hx, rfl⟩, (has_corners g (w.face_alive _ ax) hx).2 ⟨x, ax, rfl, by rw [sx, hvn]⟩⟩

/-- no triangle of a mesh with symmetric flags is isolated -/
theorem Mesh.Good.noIso_shown (g : m.Good) (bs : m.BdSym) {t : Tri} (ht : t ∈ m.shown) : t.isolated m.shown = false := by
  have w := g.wf
  obtain ⟨f, af, hf, rfl⟩ := (mem_shown w).1 ht
  have hf' := hf
  unfold Mesh.HoleFace at hf'
  push Not at hf'
  obtain ⟨x, ax, ex, bx⟩ := hf'
  rw [ne_eq, Bool.not_eq_true] at bx
  have ar := w.rev_alive _ ax
  have hr : ¬ m.HoleFace (m.hFace (m.hRev x)) := by
    intro h
    have := h _ ar rfl
    rw [bs x ax, bx] at this
    cases this
  rw [← Bool.not_eq_true]
  unfold Tri.isolated
  simp only [List.all_eq_true, Bool.not_eq_true', List.any_eq_false, List.contains_iff_mem, not_forall]
  refine ⟨m.dir x, (mem_corners g af hf).2 ⟨x, ax, ex, rfl⟩, m.corners (m.hFace (m.hRev x)),
    (mem_shown w).2 ⟨_, w.face_alive _ ar, hr, rfl⟩, not_not.2 ((mem_corners g (w.face_alive _ ar) hr).2 ⟨_, ar, rfl, ?_⟩)⟩
  have e1 := w.src_rev _ ax
  have e2 := w.src_rev _ ar
  rw [w.rev_rev _ ax] at e2
  simp only [Mesh.dir, e1, ← e2]

theorem report_shown [Scalar F] (w : m.WF) (g : m.Good) : getVertexIndices m = .ok (m.shown.map (fun t => ((t.c : Int), (t.a : Int), (t.b : Int)))) m := by
  classical
  rw [g.indices_ok]
  unfold Mesh.shown
  rw [List.map_map]
  congr 1
  rw [List.map_inj_left]
  intro f hf
  simp only [List.mem_filter, decide_eq_true_eq, w.fDense.mem] at hf
  obtain ⟨a0, e0⟩ := w.fHe_ok f hf.1
  have a1 := w.next_alive _ a0
  have a2 := w.next_alive _ a1
  have key : ∀ v, m.vAlive v = true → ((m.vIdx v).toNat : Int) = m.vIdx v := by
    intro v av
    rw [(w.vn_spec av).2]; simp
  simp only [Function.comp, Mesh.corners, Mesh.triple, key _ (w.src_alive _ a0), key _ (w.src_alive _ a1), key _ (w.src_alive _ a2)]

theorem Mesh.Good.sound [Scalar F] (g : m.Good) (oh : m.OneHole) (bs : m.BdSym) : Sound (m.vs.map m.vPos) m.shown where
  manifold := g.manifold_shown oh
  range := fun t ht => by rw [List.length_map]; exact g.range_shown ht
  used := fun a ha => g.used_shown oh (by rwa [List.length_map] at ha)
  noIso := fun t ht => g.noIso_shown bs ht

end TinyMesh
