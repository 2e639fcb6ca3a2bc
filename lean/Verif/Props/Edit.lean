import Verif.Proof.EditC
import Verif.Props.Construct
import Verif.Spec.Sample2
/-
C12 - C20, C46: the local edits and sequences of them.
-/
set_option maxRecDepth 100000
namespace TinyMesh
open Sample
attribute [local instance] Sample.ratScalar
variable {F : Type} [Scalar F] {m m' : Mesh F}

/-- C12: splitting returns false and changes nothing, or inserts one unlocked vertex of degree four in the middle of the
edge (`SplitDone`). -/
theorem c12_split (g : m.Good) (h : Nat) (a : m.hAlive h = true) :
    splitHE h m = .ok false m ∨ ∃ m' p q r s n, splitHE h m = .ok true m' ∧
      SamePair p q (m.hSrc h) (m.hSrc (m.hNext h)) ∧ m.HasTri p q r ∧ m.HasTri q p s ∧
      SplitDone (fun x y => Vec3.smul (Scalar.lit 1 2) (Vec3.add x y)) m m' p q r s n := by
  have w := g.wf
  rcases splitHE_cases g a with e | ⟨m', he, S⟩
  · exact Or.inl e
  · refine Or.inr ⟨m', _, _, _, _, _, S.run, ?_, ?_, ?_, S.done g⟩
    · rw [← w.src_rev _ a]
      rcases S.side with rfl | rfl
      · exact Or.inl ⟨rfl, rfl⟩
      · refine Or.inr ⟨rfl, ?_⟩
        rw [w.rev_rev _ a]
    · exact ⟨he, S.a, S.D.n1, rfl, by rw [w.src_rev _ S.a], rfl⟩
    · refine ⟨m.hRev he, S.D.ar, S.D.n3, rfl, ?_, rfl⟩
      rw [← w.src_rev _ S.D.ar, w.rev_rev _ S.a]

/-- C12: when a split is made. -/
theorem c12_split_iff (g : m.Good) (h : Nat) (a : m.hAlive h = true) :
    (∃ m', splitHE h m = .ok true m') ↔ 3 ≤ m.outDeg (m.hSrc h) ∧ 3 ≤ m.outDeg (m.hSrc (m.hNext h)) ∧
      m.hBd h = false ∧ m.hBd (m.hRev h) = false := by
  have w := g.wf
  have ar := w.rev_alive _ a
  rw [← w.src_rev _ a]
  constructor
  · rintro ⟨m', e⟩
    rcases splitHE_cases g a with e' | ⟨m', he, S⟩
    · rw [e'] at e; cases e
    · obtain ⟨s, _, _, _, _, d0, d1, b0, b1⟩ := S
      rcases s with rfl | rfl
      · exact ⟨d0, d1, b0, b1⟩
      · rw [w.rev_rev _ a] at d1 b1
        exact ⟨d1, d0, b1, b0⟩
  · rintro ⟨d0, d1, b0, b1⟩
    have e := splitHE_tail w a
    by_cases c : m.outDeg (m.hSrc h) < m.outDeg (m.hSrc (m.hRev h))
    · rw [if_pos c] at e
      have D := Diamond.mk' w g.simple ar (g.tri.onTri ar b1) (g.tri.onTri (w.rev_alive _ ar) (by rw [w.rev_rev _ a]; exact b0))
      rw [w.rev_rev _ a] at D
      obtain ⟨m', e', _⟩ := splitTail_ok w D g.simple (by omega) (by omega) b1 b0
      exact ⟨m', e.trans e'⟩
    · rw [if_neg c] at e
      have D := Diamond.mk' w g.simple a (g.tri.onTri a b0) (g.tri.onTri ar b1)
      obtain ⟨m', e', _⟩ := splitTail_ok w D g.simple (by omega) (by omega) b0 b1
      exact ⟨m', e.trans e'⟩

/-- the first edge of an icosahedron is split: 13 vertices, 22 faces -/
example : ∃ m m', construct icoV icoI fresh = .ok () m ∧ m.Good ∧ m.hAlive 1 = true ∧ splitHE 1 m = .ok true m' ∧
    m'.vs.length = 13 ∧ m'.fs.length = 22 := by
  obtain ⟨_, m, b, m', h1, h2, h3⟩ := thenSt_iff (o := construct icoV icoI fresh) (f := splitHE 1)
    (p := fun m b m' => m.hAlive 1 && b && decide (m'.vs.length = 13) && decide (m'.fs.length = 22)) (by decide +kernel)
  simp only [Bool.and_eq_true, decide_eq_true_eq] at h3
  obtain ⟨⟨⟨ha, rfl⟩, h4⟩, h5⟩ := h3
  exact ⟨m, m', h1, c01_construct_consistent (Owned.empty dbl) h1, ha, h2, h4, h5⟩

/-- C13: flipping an edge between two triangles returns false and changes nothing, or replaces the edge by the other
diagonal (`FlipDone`). -/
theorem c13_flip (g : m.Good) (h : Nat) (a : m.hAlive h = true) (t : m.OnTri h) (t' : m.OnTri (m.hRev h)) :
    flipHE h m = .ok false m ∨ ∃ m' p q r s, flipHE h m = .ok true m' ∧ p = m.hSrc h ∧ q = m.hSrc (m.hNext h) ∧
      m.HasTri p q r ∧ m.HasTri q p s ∧ FlipDone m m' p q r s := by
  have w := g.wf
  rcases flipHE_cases g a t t' with e | ⟨m', e, -, d⟩
  · exact Or.inl e
  · refine Or.inr ⟨m', _, _, _, _, e, rfl, w.src_rev _ a, ⟨h, a, t, rfl, (w.src_rev _ a).symm, rfl⟩,
      ⟨_, w.rev_alive _ a, t', rfl, ?_, rfl⟩, d⟩
    rw [← w.src_rev _ (w.rev_alive _ a), w.rev_rev _ a]

omit [Scalar F] in
/-- C13: when a flip is made: both ends have degree five or more and the opposite corners are not joined. -/
theorem c13_flip_iff (g : m.Good) (h : Nat) (a : m.hAlive h = true) (t : m.OnTri h) (t' : m.OnTri (m.hRev h)) :
    (∃ m', flipHE h m = .ok true m') ↔ 5 ≤ m.outDeg (m.hSrc h) ∧ 5 ≤ m.outDeg (m.hSrc (m.hNext h)) ∧
      ∀ r s, m.HasTri (m.hSrc h) (m.hSrc (m.hNext h)) r → m.HasTri (m.hSrc (m.hNext h)) (m.hSrc h) s → ¬ m.Joined r s := by
  have w := g.wf
  have ar := w.rev_alive _ a
  have key : (∀ r s, m.HasTri (m.hSrc h) (m.hSrc (m.hNext h)) r → m.HasTri (m.hSrc (m.hNext h)) (m.hSrc h) s →
      ¬ m.Joined r s) ↔ ¬ m.Joined (m.hSrc (m.hNext (m.hNext h))) (m.hSrc (m.hNext (m.hNext (m.hRev h)))) := by
    constructor
    · intro H
      refine H _ _ ⟨h, a, t, rfl, rfl, rfl⟩ ⟨_, ar, t', w.src_rev _ a, ?_, rfl⟩
      rw [← w.src_rev _ ar, w.rev_rev _ a]
    · rintro H r s ⟨x, ax, tx, x1, x2, rfl⟩ ⟨y, ay, ty, y1, y2, rfl⟩
      obtain rfl := g.simple.no_dup _ _ ax a x1 x2
      obtain rfl := g.simple.no_dup _ _ ay ar (by rw [y1, w.src_rev _ a]) (by
        rw [y2, ← w.src_rev _ ar, w.rev_rev _ a])
      exact H
  rw [key, flipHE_eq w a t t', ← adjB_iff w (w.src_alive _ (w.next_alive _ (w.next_alive _ a))), ← w.src_rev _ a]
  split
  · next c =>
    constructor
    · rintro ⟨m', e⟩; cases e
    · rintro ⟨c1, c2, c3⟩
      rcases c with c | c | c
      · omega
      · omega
      · exact absurd c c3
  · next c =>
    rw [not_or, not_or] at c
    exact ⟨fun _ => ⟨by omega, by omega, c.2.2⟩, fun _ => ⟨_, rfl⟩⟩

/-- C14 as stated is false: the first edge of `wing` lies on the boundary; flipping it succeeds and the mesh is not
consistent any more. -/
theorem c14_counterexample : ∃ m m' : Mesh Rat, construct wingV wingI fresh = .ok () m ∧ m.Good ∧ m.hAlive 1 = true ∧
    flipHE 1 m = .ok true m' ∧ ¬ m'.WF := by
  obtain ⟨_, m, b, m', h1, h2, h3⟩ := thenSt_iff (o := construct wingV wingI fresh) (f := flipHE 1)
    (p := fun m b m' => m.hAlive 1 && b && decide (m.hNext (m.hNext (m.hNext (m.hRev 1))) ≠ m.hRev 1)) (by decide +kernel)
  simp only [Bool.and_eq_true, decide_eq_true_eq] at h3
  obtain ⟨⟨ha, rfl⟩, h4⟩ := h3
  have g := c01_construct_consistent (Owned.empty dbl) h1
  refine ⟨m, m', h1, g, ha, h2, ?_⟩
  rcases flipHE_exact g ha with e | ⟨m2, e, c, _⟩
  · rw [h2] at e; cases e
  · rw [h2] at e
    cases e
    exact fun w => h4 (c.1 w).2

/-- C14, what does hold: a flip of any half-edge never aborts or touches invalid memory; the result is consistent exactly
if the faces on both sides are triangles. Missing: edges of holes with more than three sides, for which the claim is
false. -/
theorem c14_flip_any_partial (g : m.Good) (h : Nat) (a : m.hAlive h = true) :
    flipHE h m = .ok false m ∨ ∃ m', flipHE h m = .ok true m' ∧ (m'.WF ↔ m.OnTri h ∧ m.OnTri (m.hRev h)) ∧
      (m.OnTri h ∧ m.OnTri (m.hRev h) → m'.Good) := flipHE_exact g a

/-- an interior edge of the icosahedron -/
example : ∃ m m', construct icoV icoI fresh = .ok () m ∧ m.Good ∧ m.hAlive 1 = true ∧ m.OnTri 1 ∧ m.OnTri (m.hRev 1) ∧
    flipHE 1 m = .ok true m' ∧ m'.Good := by
  obtain ⟨_, m, b, m', h1, h2, h3⟩ := thenSt_iff (o := construct icoV icoI fresh) (f := flipHE 1)
    (p := fun m b m' => m.hAlive 1 && b && decide (m.hNext (m.hNext (m.hNext 1)) = 1) &&
      decide (m.hNext (m.hNext (m.hNext (m.hRev 1))) = m.hRev 1)) (by decide +kernel)
  simp only [Bool.and_eq_true, decide_eq_true_eq] at h3
  obtain ⟨⟨⟨ha, rfl⟩, t⟩, t'⟩ := h3
  have g := c01_construct_consistent (Owned.empty dbl) h1
  refine ⟨m, m', h1, g, ha, t, t', h2, ?_⟩
  rcases c13_flip g 1 ha t t' with e | ⟨m2, p, q, r, s, e, _, _, _, _, d⟩
  · rw [h2] at e; cases e
  · rw [h2] at e
    cases e
    exact d.good

/-- C15: collapsing returns false and changes nothing, or removes one end of the edge (`CollapseDone`), unless a vertex has
a NaN coordinate. -/
theorem c15_collapse (g : m.Good) (hn : ∀ v, m.vAlive v = true → (m.vPos v).eq (m.vPos v) = true) (h : Nat)
    (a : m.hAlive h = true) :
    collapseHE h m = .ok false m ∨ ∃ m' p q, collapseHE h m = .ok true m' ∧
      SamePair p q (m.hSrc h) (m.hSrc (m.hNext h)) ∧ CollapseDone m m' p q := by
  rcases collapseHE_outcome g a with e | ⟨m', p, q, e, sp, d, _⟩ | ⟨_, v, av, hv⟩
  · exact Or.inl e
  · rw [g.wf.src_rev _ a] at sp
    exact Or.inr ⟨m', p, q, e, sp, d⟩
  · exact absurd (hn v av) hv

/-- C15: the end that stays has not the larger degree. -/
theorem c15_collapse_keeps (g : m.Good) (h : Nat) (a : m.hAlive h = true) (e : collapseHE h m = .ok true m') :
    ∃ p q, SamePair p q (m.hSrc h) (m.hSrc (m.hNext h)) ∧ m'.vAlive p = true ∧ m'.vAlive q = false ∧
      m.outDeg p ≤ m.outDeg q := by
  rcases collapseHE_outcome g a with e' | ⟨m', p, q, e', sp, d, hd, _⟩ | ⟨e', _⟩
  · rw [e] at e'; cases e'
  · rw [e] at e'
    cases e'
    rw [g.wf.src_rev _ a] at sp
    obtain ⟨x, ax, x1, x2⟩ := d.joined
    have h1 := g.wf.src_alive _ ax
    have h2 := g.simple.no_loop _ ax
    rw [x1, x2] at h2
    rw [x1] at h1
    refine ⟨p, q, sp, (d.alive p).2 ⟨h1, h2⟩, ?_, hd⟩
    cases hq : m'.vAlive q
    · rfl
    · exact absurd rfl ((d.alive q).1 hq).2
  · rw [e] at e'; cases e'

/-- an edge of the icosahedron is collapsed: 11 vertices, 18 faces -/
example : ∃ m m', construct icoV icoI fresh = .ok () m ∧ m.Good ∧
    (∀ v, m.vAlive v = true → (m.vPos v).eq (m.vPos v) = true) ∧ m.hAlive 1 = true ∧ collapseHE 1 m = .ok true m' ∧
    m'.vs.length = 11 ∧ m'.fs.length = 18 := by
  obtain ⟨_, m, b, m', h1, h2, h3⟩ := thenSt_iff (o := construct icoV icoI fresh) (f := collapseHE 1)
    (p := fun m b m' => m.hAlive 1 && b && decide (m'.vs.length = 11) && decide (m'.fs.length = 18)) (by decide +kernel)
  simp only [Bool.and_eq_true, decide_eq_true_eq] at h3
  obtain ⟨⟨⟨ha, rfl⟩, h4⟩, h5⟩ := h3
  exact ⟨m, m', h1, c01_construct_consistent (Owned.empty dbl) h1, fun v _ => rat_eq _, ha, h2, h4, h5⟩

/-- C16 for `splitHE`, `flipHE` (of any half-edge) and `collapseHE`: a rejected edit leaves the mesh untouched. Missing:
`collapseFace`, for which the claim is false. -/
theorem c16_rejected_partial (g : m.Good) (h : Nat) (a : m.hAlive h = true) :
    (splitHE h m = .ok false m' → m' = m) ∧ (flipHE h m = .ok false m' → m' = m) ∧
    (collapseHE h m = .ok false m' → m' = m) := by
  refine ⟨fun e => ?_, fun e => ?_, fun e => ?_⟩
  · rcases splitHE_cases g a with e' | ⟨m', he, S⟩
    · rw [e] at e'; cases e'; rfl
    · have := S.run; rw [e] at this; cases this
  · rcases flipHE_gen g.wf a with e' | e' <;> rw [e] at e' <;> cases e'
    rfl
  · rcases collapseHE_outcome g a with e' | ⟨_, _, _, e', _⟩ | ⟨e', _⟩ <;> rw [e] at e' <;> cases e'
    rfl

/-- edges of a tetrahedron are too short of neighbours for all three -/
example : ∃ m, construct tetV tetI fresh = .ok () m ∧ m.Good ∧ m.hAlive 1 = true ∧ collapseHE 1 m = .ok false m := by
  obtain ⟨_, m, b, m', h1, h2, h3⟩ := thenSt_iff (o := construct tetV tetI fresh) (f := collapseHE 1)
    (p := fun m b _ => m.hAlive 1 && !b) (by decide +kernel)
  simp only [Bool.and_eq_true, Bool.not_eq_true'] at h3
  obtain ⟨ha, rfl⟩ := h3
  have g := c01_construct_consistent (Owned.empty dbl) h1
  have := (c16_rejected_partial g 1 ha).2.2 h2
  exact ⟨m, h1, g, ha, this ▸ h2⟩

/-- C16 is false for `collapseFace`: it returns false although the first of its two collapses was made. -/
theorem c16_counterexample : ∃ m m' : Mesh Rat, m.Good ∧ m.fAlive 1 = true ∧ collapseFace 1 m = .ok false m' ∧
    m'.hes.length < m.hes.length := by
  obtain ⟨_, m0, b0, m, k1, k2, k3⟩ := thenSt_iff (o := construct icoV icoI fresh) (f := flipHE 1)
    (p := fun m b m' => (m.hAlive 1 && b && decide (m.hNext (m.hNext (m.hNext 1)) = 1) &&
      decide (m.hNext (m.hNext (m.hNext (m.hRev 1))) = m.hRev 1)) && (m'.fAlive 1 &&
      thenSt (α := Unit) (collapseFace 1) (fun m b m' => !b && decide (m'.hes.length < m.hes.length)) (.ok () m')))
    (by decide +kernel)
  simp only [Bool.and_eq_true, decide_eq_true_eq] at k3
  obtain ⟨⟨⟨⟨ka, rfl⟩, t⟩, t'⟩, fa, k4⟩ := k3
  have g0 := c01_construct_consistent (Owned.empty dbl) k1
  have g : m.Good := by
    rcases c13_flip g0 1 ka t t' with e | ⟨m2, p, q, r, s, e, _, _, _, _, d⟩
    · rw [k2] at e; cases e
    · rw [k2] at e
      cases e
      exact d.good
  obtain ⟨_, m1, b, m', h1, h2, h3⟩ := thenSt_iff k4
  cases h1
  simp only [Bool.and_eq_true, Bool.not_eq_true', decide_eq_true_eq] at h3
  obtain ⟨rfl, h4⟩ := h3
  exact ⟨m, m', g, fa, h2, h4⟩

/-- C17: after any allowed sequence of edits the element returned for each index reports that index, and elements keep
their identity, position and lock. -/
theorem c17_indices (g : m.Good) {N : Vec3 F → Prop} (P : PosRange N) (r : m.InRange N) {es : List Edit} (ok : Allowed m es)
    {bs : List Bool} (e : runEdits es m = .ok bs m') :
    (∀ i : Nat, i < m'.vs.length → ∃ v, vertexAt i m' = .ok v m' ∧ getVIdx v m' = .ok i m') ∧
    (∀ i : Nat, i < m'.hes.length → ∃ h, halfedgeAt i m' = .ok h m' ∧ getHIdx h m' = .ok i m') ∧
    (∀ i : Nat, i < m'.fs.length → ∃ f, faceAt i m' = .ok f m' ∧ getFIdx f m' = .ok i m') ∧
    SameElements m m' := by
  obtain ⟨bs', m2, e', _, d⟩ := edits_run P es m g r ok
  rw [e] at e'
  cases e'
  have w := d.good.wf
  have key : ∀ {al : Nat → Bool} {ix : Nat → Int} {l : List Nat} (D : Dense al ix l) (i : Nat), i < l.length →
      ∃ x, arrayAt l i = some x ∧ al x = true ∧ ix x = i := by
    intro al ix l D i hi
    refine ⟨l[i], ?_, (D.mem _).1 (List.getElem_mem hi), D.idx i hi⟩
    unfold arrayAt
    rw [if_neg (by omega)]
    simp [hi]
  refine ⟨fun i hi => ?_, fun i hi => ?_, fun i hi => ?_, d.same⟩
  · obtain ⟨x, h1, h2, h3⟩ := key w.vDense i hi
    exact ⟨x, by simp [vertexAt, h1], by rw [getVIdx_ok h2, h3]⟩
  · obtain ⟨x, h1, h2, h3⟩ := key w.hDense i hi
    exact ⟨x, by simp [halfedgeAt, h1], by rw [getHIdx_ok h2, h3]⟩
  · obtain ⟨x, h1, h2, h3⟩ := key w.fDense i hi
    exact ⟨x, by simp [faceAt, h1], by rw [getFIdx_ok h2, h3]⟩

/-- C18: an allowed sequence of edits runs to its end: no undefined behaviour, no failed assertion, no exception, no endless
loop; the mesh stays good. -/
theorem c18_no_failure (g : m.Good) {N : Vec3 F → Prop} (P : PosRange N) (r : m.InRange N) {es : List Edit}
    (ok : Allowed m es) : ∃ bs m', runEdits es m = .ok bs m' ∧ bs.length = es.length ∧ m'.Good ∧ m'.InRange N := by
  obtain ⟨bs, m', e, l, d⟩ := edits_run P es m g r ok
  exact ⟨bs, m', e, l, d.good, d.range⟩

/-- C18 needs the absence of NaN: if a vertex to be removed has a NaN coordinate, `collapseHE` fails an assertion. -/
theorem c18_nan_abort (g : m.Good) (h : Nat) (a : m.hAlive h = true) :
    (∃ b m', collapseHE h m = .ok b m') ∨
      (collapseHE h m = .err .abort ∧ ∃ v, m.vAlive v = true ∧ (m.vPos v).eq (m.vPos v) = false) := by
  rcases collapseHE_outcome g a with e | ⟨m', _, _, e, _⟩ | ⟨e, v, av, hv⟩
  · exact Or.inl ⟨_, _, e⟩
  · exact Or.inl ⟨_, _, e⟩
  · exact Or.inr ⟨e, v, av, by simpa using hv⟩

/-- C19: the Euler characteristic is the same before and after an allowed sequence of edits. -/
theorem c19_euler (g : m.Good) {N : Vec3 F → Prop} (P : PosRange N) (r : m.InRange N) {es : List Edit} (ok : Allowed m es)
    {bs : List Bool} (e : runEdits es m = .ok bs m') :
    ∃ n n', numEdges m = .ok n m ∧ numEdges m' = .ok n' m' ∧
      (m'.vs.length : Int) - n' + m'.fs.length = (m.vs.length : Int) - n + m.fs.length := by
  obtain ⟨bs', m2, e', _, d⟩ := edits_run P es m g r ok
  rw [e] at e'
  cases e'
  obtain ⟨n, h1, h2⟩ := g.wf.numEdges_ok
  obtain ⟨n', h3, h4⟩ := d.good.wf.numEdges_ok
  refine ⟨n, n', h1, h3, ?_⟩
  have := d.euler
  omega

/-- C20: after a successful construction and an allowed sequence of edits, `verify` returns true. The range of positions has
to consist of finite ones. -/
theorem c20_verify {m0 : Mesh F} (O : Owned m0) {V : List (Vec3 F)} {I : List Nat} (hc : construct V I m0 = .ok () m)
    {N : Vec3 F → Prop} (P : PosRange N) (fin : ∀ p, N p → p.finite = true) (r : m.InRange N) {es : List Edit}
    (ok : Allowed m es) {bs : List Bool} (e : runEdits es m = .ok bs m') : verify m' = .ok true m' := by
  have g := c01_construct_consistent O hc
  obtain ⟨bs', m2, e', _, d⟩ := edits_run P es m g r ok
  rw [e] at e'
  cases e'
  rw [d.good.wf.verify_ok, List.all_eq_true.2 (fun v hv => fin _ (d.range v ((d.good.wf.vDense.mem v).1 hv)))]

/-- C20, more generally: on a consistent mesh `verify` tells whether all positions are finite. -/
theorem c20_verify_exact (w : m.WF) : ∃ b, verify m = .ok b m ∧ (b = true ↔ ∀ v ∈ m.vs, (m.vPos v).finite = true) :=
  ⟨_, w.verify_ok, by rw [List.all_eq_true]⟩

/-- all rational vectors form such a range -/
theorem rat_range : PosRange (F := Rat) (fun _ => True) := ⟨fun p _ => rat_eq _, fun _ _ _ _ => trivial⟩

/-- a sequence on the icosahedron: a split, a collapse of another edge, a flip, and a call that is rejected -/
example : ∃ m bs m', construct icoV icoI fresh = .ok () m ∧
    Allowed m [.split 1, .collapse 31] ∧ runEdits [.split 1, .collapse 31] m = .ok bs m' ∧ bs = [true, true] ∧
    verify m' = .ok true m' := by
  obtain ⟨_, m, bs, m', h1, h2, h3⟩ := thenSt_iff (o := construct icoV icoI fresh) (f := runEdits [.split 1, .collapse 31])
    (p := fun m b _ => m.hAlive 1 && m.hAlive 31 && decide (b = [true, true])) (by decide +kernel)
  simp only [Bool.and_eq_true, decide_eq_true_eq] at h3
  have g := c01_construct_consistent (Owned.empty dbl) h1
  have ok : Allowed m [.split 1, .collapse 31] := by
    refine ⟨h3.1.1, fun b m1 e => ⟨?_, fun _ _ _ => trivial⟩⟩
    rcases c12_split g 1 h3.1.1 with e' | ⟨m2, _, _, _, _, _, e', _⟩
    · have : m1 = m := by
        have := e'.symm.trans e; cases this; rfl
      rw [this]; exact h3.1.2
    · rcases splitHE_cases g h3.1.1 with e'' | ⟨m3, he, S⟩
      · rw [e'] at e''; cases e''
      · have := S.run.symm.trans e
        cases this
        exact (S.R.hal 31).2 (Or.inl h3.1.2)
  exact ⟨m, bs, m', h1, ok, h2, h3.2, c20_verify (Owned.empty dbl) h1 rat_range (fun _ _ => rfl) (fun _ _ => trivial) ok h2⟩

/-- C46 is false: collapsing an interior edge that joins two vertices of the boundary is accepted, and afterwards the mesh
cannot be cloned (and, by the same construction, not be loaded from its saved file). -/
theorem c46_counterexample : ∃ m m' : Mesh Rat, construct patV patI fresh = .ok () m ∧ collapseHE 1 m = .ok true m' ∧
    m'.Good ∧ (∃ m2, clone dbl m = .ok () m2) ∧ clone dbl m' = .err .abort := by
  obtain ⟨_, m, b, m', h1, h2, h3⟩ := thenSt_iff (o := construct patV patI fresh) (f := collapseHE 1)
    (p := fun m b m' => m.hAlive 1 && b && isOk (clone dbl m) && isErr .abort (clone dbl m')) (by decide +kernel)
  simp only [Bool.and_eq_true] at h3
  obtain ⟨⟨⟨ha, rfl⟩, h4⟩, h5⟩ := h3
  obtain ⟨_, m2, h6⟩ := isOk_iff h4
  refine ⟨m, m', h1, h2, ?_, ⟨m2, h6⟩, isErr_iff h5⟩
  rcases c15_collapse (c01_construct_consistent (Owned.empty dbl) h1) (fun v _ => rat_eq _) 1 ha with
    e | ⟨m3, p, q, e, _, d⟩
  · rw [h2] at e; cases e
  · rw [h2] at e
    cases e
    exact d.good

end TinyMesh
