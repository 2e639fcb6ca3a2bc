import Verif.Proof.CloneE
import Verif.Props.Edit
/-
C46: which edited meshes can be built again from what they report.
-/
set_option maxRecDepth 100000
namespace TinyMesh
open Sample
attribute [local instance] Sample.ratScalar
variable {F : Type} [Scalar F] {m m' : Mesh F}

/-- C46, exactly which meshes can be cloned. For a consistent mesh with different positions in which no triangle has three
boundary edges: if the half-edge vector would have to grow while the holes are closed, the behaviour is undefined; otherwise
`clone` succeeds, with the same positions and the same faces, if no vertex has two holes, and stops with the non-manifold
error if some vertex has. -/
theorem c46_clone_exact (L : EqLaw F) (g : m.Good) (bs : m.BdSym) (na : m.NoAlone) (D : Distinct (m.vs.map m.vPos))
    (grow : Nat → Nat) :
    (¬ Fits grow 0 m.shown ∧ clone grow m = .err .ub) ∨
    (Fits grow 0 m.shown ∧ ¬ m.OneHole ∧ clone grow m = .err .abort) ∨
    (Fits grow 0 m.shown ∧ m.OneHole ∧ ∃ m2 r r2, clone grow m = .ok () m2 ∧ m2.Good ∧
      (m2.vs.map m2.vPos).Perm (m.vs.map m.vPos) ∧ getVertexIndices m = .ok r m ∧ getVertexIndices m2 = .ok r2 m2 ∧
      SameFaces (m.vs.map m.vPos) r (m2.vs.map m2.vPos) r2) := by
  obtain ⟨h1, h2⟩ := g.clone_bad L na D grow
  by_cases hf : Fits grow 0 m.shown
  · by_cases oh : m.OneHole
    · exact Or.inr (Or.inr ⟨hf, oh, g.clone_ok L oh bs D hf⟩)
    · exact Or.inr (Or.inl ⟨hf, oh, h2 hf oh⟩)
  · exact Or.inl ⟨hf, h1 hf⟩

/-- the last two cases occur: the patch before and after the contraction of an edge between two boundary vertices -/
example : ∃ m m' : Mesh Rat, construct patV patI fresh = .ok () m ∧ collapseHE 1 m = .ok true m' ∧
    m.OneHole ∧ (∃ m2, clone dbl m = .ok () m2) ∧ ¬ m'.OneHole := by
  obtain ⟨_, m, b, m', h1, h2, h3⟩ := thenSt_iff (o := construct patV patI fresh) (f := collapseHE 1)
    (p := fun m b m' => m.hAlive 1 && b && isOk (clone dbl m) && isErr .abort (clone dbl m') && m.noAloneB && m'.noAloneB &&
      distinctB (m'.vs.map m'.vPos) && m'.hes.all (fun h => m'.hBd (m'.hRev h) == m'.hBd h)) (by decide +kernel)
  simp only [Bool.and_eq_true, List.all_eq_true, beq_iff_eq] at h3
  obtain ⟨⟨⟨⟨⟨⟨⟨ha, rfl⟩, h4⟩, h5⟩, n1⟩, n2⟩, d⟩, bs⟩ := h3
  obtain ⟨_, m2, h6⟩ := isOk_iff h4
  have g := c01_construct_consistent (Owned.empty dbl) h1
  have g' : m'.Good := by
    rcases c15_collapse g (fun v _ => rat_eq _) 1 ha with e | ⟨m3, p, q, e, _, d⟩
    · rw [h2] at e; cases e
    · rw [h2] at e; cases e; exact d.good
  refine ⟨m, m', h1, h2, (construct_oneHole (Owned.empty dbl) h1 (g.wf.noAlone n1)).1, ⟨m2, h6⟩, ?_⟩
  rcases c46_clone_exact law g' (fun h a => bs h ((g'.wf.hDense.mem h).2 a)) (g'.wf.noAlone n2) (distinctB_iff d) dbl with
    ⟨_, e⟩ | ⟨_, e, _⟩ | ⟨_, _, m3, _, _, e, _⟩
  · rw [isErr_iff h5] at e; cases e
  · exact e
  · rw [isErr_iff h5] at e; cases e

/-- C46, partial: after any sequence of edits of a constructed mesh that contract no edge between two vertices of holes and
flip interior edges only, no vertex has two holes, so the mesh can be cloned, and saved and loaded again, provided the
(rounded) positions are different and the half-edge vector does not have to grow while the holes are closed. Missing:
contractions of edges between two vertices of holes, for which the claim is false (`c46_counterexample`), and meshes with a
triangle that has three boundary edges (C08). -/
theorem c46_boundary_partial (L : EqLaw F) {m0 : Mesh F} (O : Owned m0) {V : List (Vec3 F)} {I : List Nat}
    (hc : construct V I m0 = .ok () m) (na : m.NoAlone) {N : Vec3 F → Prop} (P : PosRange N) (r : m.InRange N) {es : List Edit}
    (ok : Inside m es) :
    ∃ bs m', runEdits es m = .ok bs m' ∧ bs.length = es.length ∧ m'.Good ∧ m'.OneHole ∧
      ∀ grow, Fits grow 0 m'.shown →
        (Distinct (m'.vs.map m'.vPos) → ∃ m2 q q2, clone grow m' = .ok () m2 ∧ m2.Good ∧
          (m2.vs.map m2.vPos).Perm (m'.vs.map m'.vPos) ∧ getVertexIndices m' = .ok q m' ∧ getVertexIndices m2 = .ok q2 m2 ∧
          SameFaces (m'.vs.map m'.vPos) q (m2.vs.map m2.vPos) q2) ∧
        (∀ round : Vec3 F → Vec3 F, Distinct ((m'.vs.map m'.vPos).map round) → ∃ f m2 q q2, savePLY round m' = .ok f m' ∧
          saveOBJ round m' = .ok f m' ∧ loadPLY f (Mesh.empty grow) = .ok () m2 ∧ loadOBJ f (Mesh.empty grow) = .ok () m2 ∧
          m2.Good ∧ (m2.vs.map m2.vPos).Perm ((m'.vs.map m'.vPos).map round) ∧ getVertexIndices m' = .ok q m' ∧
          getVertexIndices m2 = .ok q2 m2 ∧ SameFaces ((m'.vs.map m'.vPos).map round) q (m2.vs.map m2.vPos) q2) := by
  have g := c01_construct_consistent O hc
  obtain ⟨oh, bs⟩ := construct_oneHole O hc na
  obtain ⟨b, m', e, l, g', oh', bs'⟩ := inside_run P es m g oh bs r ok
  exact ⟨b, m', e, l, g', oh', fun grow hf => ⟨fun D => g'.clone_ok L oh' bs' D hf,
    fun round D => g'.save_load_ok L oh' bs' round D hf⟩⟩

/-- the patch: its edge between two boundary vertices is split first, then one half of it is contracted and another edge flipped -/
example : ∃ m bs m' m2 : _, construct patV patI fresh = .ok () m ∧ Inside m [.split 1, .collapse 4, .flip 7] ∧
    runEdits [.split 1, .collapse 4, .flip 7] m = .ok bs m' ∧ bs = [true, true, true] ∧ clone dbl m' = .ok () m2 := by
  obtain ⟨_, m, bs, m', h1, h2, h3⟩ := thenSt_iff (o := construct patV patI fresh) (f := runEdits [.split 1, .collapse 4, .flip 7])
    (p := fun m b m' => insideB [.split 1, .collapse 4, .flip 7] m && m.noAloneB && decide (b = [true, true, true]) &&
      distinctB (m'.vs.map m'.vPos) && decide (3 * m'.shownB.length + boundaryCount m'.shownB ≤ capAfter dbl 0 0 (3 * m'.shownB.length)))
    (by decide +kernel)
  simp only [Bool.and_eq_true, decide_eq_true_eq] at h3
  obtain ⟨⟨⟨⟨i1, n1⟩, hb⟩, d⟩, hf⟩ := h3
  have g := c01_construct_consistent (Owned.empty dbl) h1
  obtain ⟨oh, bsym⟩ := construct_oneHole (Owned.empty dbl) h1 (g.wf.noAlone n1)
  have hin := inside_of rat_range _ m g bsym oh (fun _ _ => trivial) i1
  obtain ⟨b', m3, e, _, g', _, k⟩ := c46_boundary_partial law (Owned.empty dbl) h1 (g.wf.noAlone n1) rat_range (fun _ _ => trivial) hin
  rw [h2] at e
  cases e
  obtain ⟨m2, _, _, e2, _⟩ := (k dbl (by rw [g'.wf.shown_eq]; exact hf)).1 (distinctB_iff d)
  exact ⟨m, bs, m', m2, h1, hin, h2, hb, e2⟩

/-- C46 for closed meshes: after any admissible sequence of edits of a constructed mesh without boundary, the mesh can be
cloned, and saved and loaded again, if the (rounded) positions are different. -/
theorem c46_closed_partial (L : EqLaw F) {m0 : Mesh F} (O : Owned m0) {V : List (Vec3 F)} {I : List Nat}
    (hc : construct V I m0 = .ok () m) (nb : ∀ h, m.hAlive h = true → m.hBd h = false) {N : Vec3 F → Prop} (P : PosRange N)
    (r : m.InRange N) {es : List Edit} (ok : Allowed m es) (grow : Nat → Nat) :
    ∃ bs m', runEdits es m = .ok bs m' ∧ bs.length = es.length ∧ m'.Good ∧
        (Distinct (m'.vs.map m'.vPos) → ∃ m2 q q2, clone grow m' = .ok () m2 ∧ m2.Good ∧
          (m2.vs.map m2.vPos).Perm (m'.vs.map m'.vPos) ∧ getVertexIndices m' = .ok q m' ∧ getVertexIndices m2 = .ok q2 m2 ∧
          SameFaces (m'.vs.map m'.vPos) q (m2.vs.map m2.vPos) q2) ∧
        (∀ round : Vec3 F → Vec3 F, Distinct ((m'.vs.map m'.vPos).map round) → ∃ f m2 q q2, savePLY round m' = .ok f m' ∧
          saveOBJ round m' = .ok f m' ∧ loadPLY f (Mesh.empty grow) = .ok () m2 ∧ loadOBJ f (Mesh.empty grow) = .ok () m2 ∧
          m2.Good ∧ (m2.vs.map m2.vPos).Perm ((m'.vs.map m'.vPos).map round) ∧ getVertexIndices m' = .ok q m' ∧
          getVertexIndices m2 = .ok q2 m2 ∧ SameFaces ((m'.vs.map m'.vPos).map round) q (m2.vs.map m2.vPos) q2) := by
  have g := c01_construct_consistent O hc
  obtain ⟨b, m', e, l, g', nb'⟩ := edits_closed P es m g r nb ok
  have hf := g'.fits_shown nb' grow 0
  have oh' := oneHole_closed g'.wf nb'
  have bs' := bdSym_closed g'.wf nb'
  exact ⟨b, m', e, l, g', fun D => g'.clone_ok L oh' bs' D hf, fun round D => g'.save_load_ok L oh' bs' round D hf⟩

/-- the icosahedron -/
example : ∃ m bs m' m2 : _, construct icoV icoI fresh = .ok () m ∧ Allowed m [.split 1] ∧ runEdits [.split 1] m = .ok bs m' ∧
    bs = [true] ∧ clone dbl m' = .ok () m2 := by
  obtain ⟨_, m, bs, m', h1, h2, h3⟩ := thenSt_iff (o := construct icoV icoI fresh) (f := runEdits [.split 1])
    (p := fun m b m' => m.hAlive 1 && m.hes.all (fun h => !m.hBd h) && decide (b = [true]) && distinctB (m'.vs.map m'.vPos))
    (by decide +kernel)
  simp only [Bool.and_eq_true, decide_eq_true_eq, List.all_eq_true, Bool.not_eq_true'] at h3
  obtain ⟨⟨⟨a, nb⟩, hb⟩, d⟩ := h3
  have g := c01_construct_consistent (Owned.empty dbl) h1
  have ok : Allowed m [.split 1] := ⟨a, fun _ _ _ => trivial⟩
  obtain ⟨_, m3, e, _, _, k, _⟩ := c46_closed_partial law (Owned.empty dbl) h1 (fun h ah => nb h ((g.wf.hDense.mem h).2 ah)) rat_range
    (fun _ _ => trivial) ok dbl
  rw [h2] at e
  cases e
  obtain ⟨m2, _, _, e2, _⟩ := k (distinctB_iff d)
  exact ⟨m, bs, m', m2, h1, ok, h2, hb, e2⟩

end TinyMesh
