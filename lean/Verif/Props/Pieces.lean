import Verif.Props.Edit
import Verif.Props.Fill
import Verif.Props.Remesh
import Verif.Props.Simplify
/-
Connected pieces and holes under edits, remeshing, simplification and hole filling (C97, C98).
-/
set_option maxRecDepth 100000
namespace TinyMesh
open Sample
attribute [local instance] Sample.ratScalar

section
variable {F : Type}

/-- equal numbers of pieces -/
theorem SamePieces.card {m m' : Mesh F} (h : SamePieces m m') : Nat.card m'.Piece = Nat.card m.Piece := by
  obtain ⟨f, -⟩ := h
  exact Nat.card_congr f.symm

/-- vertices in both meshes -/
theorem SamePieces.linked {m m' : Mesh F} (h : SamePieces m m') {u v : Nat} (au : m.vAlive u = true) (av : m.vAlive v = true)
    (au' : m'.vAlive u = true) (av' : m'.vAlive v = true) : m'.Together u v ↔ m.Together u v := by
  obtain ⟨f, k⟩ := h
  have e := k u au au'
  have e' := k v av av'
  constructor
  · intro l
    have : m'.pieceOf u au' = m'.pieceOf v av' := Quotient.sound l
    rw [← e, ← e', f.apply_eq_iff_eq] at this
    exact Quotient.exact this
  · intro l
    have : m.pieceOf u au = m.pieceOf v av := Quotient.sound l
    rw [← f.apply_eq_iff_eq, e, e'] at this
    exact Quotient.exact this

variable [Scalar F] {m m' : Mesh F}

theorem edit_corresp (g : m.Good) {e : Edit} (ok : e.okAt m) {b : Bool} (h : e.run m = .ok b m') :
    m'.Good ∧ Corresp m m' ∧ NoReuse m m' ∧ (e.insideAt m → KeepsHoles m m') := by
  have stay : ∀ {m : Mesh F}, m.Good → m.Good ∧ Corresp m m ∧ NoReuse m m ∧ (e.insideAt m → KeepsHoles m m) := fun g =>
    ⟨g, .refl _, .refl _, fun _ => .refl _⟩
  cases e with
  | split x =>
    rcases splitHE_cases g ok with k | ⟨m2, he, S⟩
    · rw [show (Edit.split x).run m = splitHE x m from rfl, k] at h; cases h; exact stay g
    · rw [show (Edit.split x).run m = splitHE x m from rfl, S.run] at h; cases h
      exact ⟨(S.done g).good, S.corresp g, S.noReuse, fun _ => S.keepsHoles g⟩
  | collapse x =>
    rcases collapse_step g ok with k | ⟨m2, p, q, k, S⟩ | ⟨k, -⟩ <;>
      rw [show (Edit.collapse x).run m = collapseHE x m from rfl, k] at h <;> cases h
    · exact stay g
    · exact ⟨S.done.good, S.done.corresp g, S.noReuse, fun _ => S.done.keepsHoles g.wf S.bd S.flag⟩
  | flip x =>
    rcases c13_flip g x ok.1 ok.2.1 ok.2.2 with k | ⟨m2, p, q, r, s, k, -, -, t1, t2, d⟩
    · rw [show (Edit.flip x).run m = flipHE x m from rfl, k] at h; cases h; exact stay g
    · rcases flipHE_cases g ok.1 ok.2.1 ok.2.2 with k' | ⟨m3, k', hm, -⟩
      · rw [k] at k'; cases k'
      · rw [show (Edit.flip x).run m = flipHE x m from rfl, k] at h
        rw [k] at k'
        cases h; cases k'
        refine ⟨d.good, d.corresp g.wf t1 t2, ?_, fun i => ?_⟩
        · rw [hm]; exact ⟨fun x h _ => h, fun x h _ => h, fun x h _ => h, Nat.le_refl _, Nat.le_refl _, Nat.le_refl _⟩
        · rw [hm]; exact flipState_keepsHoles g ok.1 ok.2.1 ok.2.2 (i.2 x rfl).1 (i.2 x rfl).2

theorem edits_corresp : ∀ (es : List Edit) (m : Mesh F), m.Good → Allowed m es → ∀ {bs m'}, runEdits es m = .ok bs m' →
    m'.Good ∧ Corresp m m' ∧ NoReuse m m' ∧ (AllowedInside m es → KeepsHoles m m')
  | [], m, g, _, bs, m', h => by
    cases h; exact ⟨g, .refl _, .refl _, fun _ => .refl _⟩
  | e :: es, m, g, ok, bs, m', h => by
    simp only [runEdits, bind_apply] at h
    cases e1 : e.run m with
    | err x => rw [e1] at h; cases h
    | ok b m1 =>
      rw [e1] at h
      dsimp only at h
      cases e2 : runEdits es m1 with
      | err x => rw [e2] at h; cases h
      | ok bs' m2 =>
        rw [e2] at h
        cases h
        obtain ⟨g1, c1, n1, k1⟩ := edit_corresp g ok.1 e1
        obtain ⟨g2, c2, n2, k2⟩ := edits_corresp es m1 g1 (ok.2 b m1 e1) e2
        exact ⟨g2, c1.trans n1.vF n2.v c2, n1.trans n2, fun i => (k1 i.1).trans (k2 (i.2 b m1 e1))⟩

/-- C97: a sequence of splits, flips and collapses changes the connected pieces of the mesh only one by one: it joins no two pieces,
tears none, and makes none appear or vanish. -/
theorem c97_edits (g : m.Good) {es : List Edit} (ok : Allowed m es) {bs : List Bool} (e : runEdits es m = .ok bs m') : SamePieces m m' :=
  (edits_corresp es m g ok e).2.1.pieces g.wf

/-- C97: the same for `remeshTriangular`, with any orders and thresholds. -/
theorem c97_remesh (g : m.Good) (sh : Nat → Bool → Nat → List Nat) (short long keep : F) (n : Nat)
    (h : remesh sh short long keep n m = .ok () m') : SamePieces m m' := by
  rcases remesh_outcome caps_any g trivial sh short long keep n with ⟨e, -⟩ | ⟨m1, -, ⟨m2, e, i, r, -⟩ | ⟨x, -, e⟩⟩
  · rw [h] at e; cases e
  · rw [h] at e; cases e; exact r.pieces.pieces g.wf
  · rw [h] at e; cases e

omit [Scalar F] in
theorem simplify_done [Scalar F] (g : m.Good) (S : Solver F) {ord : Nat → List (Nat × Vec3 F) → List (Nat × Vec3 F)}
    (ho : ∀ n l, ∀ c ∈ ord n l, c ∈ l) (target maxTrials : Int) (h : simplifyQEM S ord target maxTrials m = .ok () m') :
    ∃ k, SimDone k m m' := by
  by_cases h0 : target = 0
  · unfold simplifyQEM at h
    simp only [bind_apply, read_apply, h0] at h
    split at h
    · cases h
    · rw [if_pos trivial] at h; cases h
  · by_cases h1 : 2147483647 < (m.fs.length : Int) - target
    · rw [c26_overflow S ord maxTrials h1] at h; cases h
    · rcases simplifyQEM_outcome (simCaps_any S) ho g trivial h0 maxTrials (by omega) with ⟨k, m2, e, -, d, -⟩ | ⟨e, -, h2⟩
      · rw [h] at e; cases e; exact ⟨k, d⟩
      · rw [h] at h2; cases h2

/-- C97: the same for `simplifyQEM`, for any target, number of trials and order of the queue: no piece is ever simplified away. -/
theorem c97_simplify (g : m.Good) (S : Solver F) {ord : Nat → List (Nat × Vec3 F) → List (Nat × Vec3 F)}
    (ho : ∀ n l, ∀ c ∈ ord n l, c ∈ l) (target maxTrials : Int) (h : simplifyQEM S ord target maxTrials m = .ok () m') :
    SamePieces m m' := by
  obtain ⟨k, d⟩ := simplify_done g S ho target maxTrials h
  exact d.pieces.pieces g.wf

/-- C98: `remeshTriangular` leaves the boundary marks and the loop of half-edges around every hole as they are: it closes no hole, makes none and
refines none. (Its vertices may be replaced, see C15 and C24.) -/
theorem c98_remesh (g : m.Good) (sh : Nat → Bool → Nat → List Nat) (short long keep : F) (n : Nat)
    (h : remesh sh short long keep n m = .ok () m') : KeepsHoles m m' := by
  rcases remesh_outcome caps_any g trivial sh short long keep n with ⟨e, -⟩ | ⟨m1, -, ⟨m2, e, i, r, -⟩ | ⟨x, -, e⟩⟩
  · rw [h] at e; cases e
  · rw [h] at e; cases e; exact r.holes
  · rw [h] at e; cases e

/-- C98: so does `simplifyQEM`. -/
theorem c98_simplify (g : m.Good) (S : Solver F) {ord : Nat → List (Nat × Vec3 F) → List (Nat × Vec3 F)}
    (ho : ∀ n l, ∀ c ∈ ord n l, c ∈ l) (target maxTrials : Int) (h : simplifyQEM S ord target maxTrials m = .ok () m') :
    KeepsHoles m m' := by
  obtain ⟨k, d⟩ := simplify_done g S ho target maxTrials h
  exact d.holes

/-- C98: so does a sequence of edits in which no flipped edge carries a boundary mark. -/
theorem c98_edits (g : m.Good) {es : List Edit} (ok : Allowed m es) (ins : AllowedInside m es) {bs : List Bool}
    (e : runEdits es m = .ok bs m') : KeepsHoles m m' :=
  (edits_corresp es m g ok e).2.2.2 ins

end

/-- C97: filling the holes joins no two pieces. -/
theorem c97_fill {F : Type} [ScalarX F] {m m' : Mesh F} (g : m.Good) (h : fillHoles m = .ok () m') : SamePieces m m' := by
  rcases fillHoles_ok g.wf (fun f a => g.three_sides a)
    (fun h a => (g.tri.holds h a).imp_right fun t h' a' e => (t h' a' e).1) (AngleCap.any m) with ⟨-, k⟩ | ⟨m2, k, I⟩
  · rw [h] at k; cases k
  · rw [h] at k; cases k
    refine (Corresp.grow (fun v a => by rw [I.vAlive]; exact a) (fun v a => ⟨v, by rw [← I.vAlive]; exact a, .refl v⟩)
      fun u v _ _ => ⟨?_, ?_⟩).pieces g.wf
    · refine Mesh.Together.map id ?_
      rintro a b ⟨x, ax, rfl, rfl⟩
      have k := I.kept x ax
      exact Mesh.Joined.linked ⟨x, k.1, k.2.1, dst_kept g.wf I.wf (fun h a => ⟨(I.kept h a).1, (I.kept h a).2.1, (I.kept h a).2.2.1⟩) ax⟩
    · refine Mesh.Together.map id ?_
      rintro a b ⟨x, ax, rfl, rfl⟩
      exact I.linked x ax

/-- C98: the condition on flips is needed: an edge at a triangular hole may be flipped; then the hole is gone though nothing has been filled, and boundary marks are left at edges
between triangles. -/
theorem c98_edits_needed : ∃ m m' : Mesh Rat, construct icoV (icoI.drop 3) fresh = .ok () m ∧ m.Good ∧ (Edit.flip 3).okAt m ∧
    runEdits [.flip 3] m = .ok [true] m' ∧ (m.fAlive 20 = true ∧ m.HoleFace 20) ∧ ∀ f, m'.fAlive f = true → ¬ m'.HoleFace f := by
  obtain ⟨_, m, b, m', h1, h2, h3⟩ := thenSt_iff (o := construct icoV (icoI.drop 3) fresh) (f := runEdits [.flip 3])
    (p := fun m b m' => decide (b = [true] ∧ m.hAlive 3 = true ∧ m.hNext (m.hNext (m.hNext 3)) = 3 ∧
      m.hNext (m.hNext (m.hNext (m.hRev 3))) = m.hRev 3 ∧ m.holeFaces = [20] ∧ m'.holeFaces = [])) (by decide +kernel)
  obtain ⟨rfl, a, t, t', k, k'⟩ := of_decide_eq_true h3
  have g := c01_construct_consistent (Owned.empty dbl) h1
  have ok : (Edit.flip 3).okAt m := ⟨a, t, t'⟩
  have g' := (edits_corresp [.flip 3] m g ⟨ok, fun _ _ _ => trivial⟩ h2).1
  refine ⟨m, m', h1, g, ok, h2, (mem_holeFaces g.wf).1 (by rw [k]; simp), fun f a hf => ?_⟩
  have := (mem_holeFaces g'.wf).2 ⟨a, hf⟩
  rw [k'] at this; cases this

/-! ### Examples -/

/-- two tetrahedra -/
def twoV : List (Vec3 Rat) := tetV ++ tetV.map fun p => ⟨p.x + 10, p.y, p.z⟩
def twoI : List Nat := tetI ++ tetI.map (· + 4)

/-- nothing joins the two sides of a division of the vertices -/
theorem not_linked {F : Type} {m : Mesh F} (w : m.WF) (c : Nat → Bool)
    (k : m.hes.all (fun h => c (m.hSrc h) == c (m.hSrc (m.hNext h))) = true) {u v : Nat} (h : m.Together u v) : c u = c v := by
  induction h with
  | rel a b h =>
    obtain ⟨x, ax, rfl, rfl⟩ := h
    simpa using List.all_eq_true.1 k x ((w.hDense.mem x).2 ax)
  | refl a => rfl
  | symm a b _ ih => exact ih.symm
  | trans a b d _ _ ih ih' => exact ih.trans ih'

/-- a split in the first of two tetrahedra: there are two pieces before, and vertices 1 and 5 are not joined afterwards either -/
example : ∃ m m' : Mesh Rat, construct twoV twoI fresh = .ok () m ∧ m.Good ∧ Allowed m [.split 1] ∧
    runEdits [.split 1] m = .ok [true] m' ∧ ¬ m'.Together 1 5 ∧ m'.Together 1 2 := by
  obtain ⟨_, m, b, m', h1, h2, h3⟩ := thenSt_iff (o := construct twoV twoI fresh) (f := runEdits [.split 1])
    (p := fun m b m' => decide (b = [true] ∧ m.hAlive 1 = true ∧ m.vAlive 1 = true ∧ m.vAlive 2 = true ∧ m.vAlive 5 = true ∧
      m'.vAlive 1 = true ∧ m'.vAlive 2 = true ∧ m'.vAlive 5 = true ∧
      m.hes.all (fun h => (fun v : Nat => decide (v ≤ 4)) (m.hSrc h) == (fun v : Nat => decide (v ≤ 4)) (m.hSrc (m.hNext h))) = true ∧
      (m.hes.any fun h => m.hSrc h == 1 && m.hSrc (m.hNext h) == 2) = true)) (by decide +kernel)
  obtain ⟨rfl, a, a1, a2, a5, b1, b2, b5, k, j⟩ := of_decide_eq_true h3
  have g := c01_construct_consistent (Owned.empty dbl) h1
  have ok : Allowed m [.split 1] := ⟨a, fun _ _ _ => trivial⟩
  have s := c97_edits g ok h2
  refine ⟨m, m', h1, g, ok, h2, fun l => ?_, ?_⟩
  · have := not_linked g.wf (fun v : Nat => decide (v ≤ 4)) k ((s.linked a1 a5 b1 b5).1 l)
    simp at this
  · obtain ⟨x, hx, e⟩ := List.any_eq_true.1 j
    simp only [Bool.and_eq_true, beq_iff_eq] at e
    exact (s.linked a1 a2 b1 b2).2 (Mesh.Joined.linked ⟨x, (g.wf.hDense.mem x).1 hx, e.1, e.2⟩)

/-- a split in a patch with a hole around it -/
example : ∃ m m' : Mesh Rat, construct patV patI fresh = .ok () m ∧ m.Good ∧ AllowedInside m [.split 2] ∧
    runEdits [.split 2] m = .ok [true] m' ∧ KeepsHoles m m' ∧ m.holeFaces ≠ [] ∧ m'.hes.length ≠ m.hes.length := by
  obtain ⟨_, m, b, m', h1, h2, h3⟩ := thenSt_iff (o := construct patV patI fresh) (f := runEdits [.split 2])
    (p := fun m b m' => decide (b = [true] ∧ m.hAlive 2 = true ∧ m.holeFaces ≠ [] ∧ m'.hes.length ≠ m.hes.length)) (by decide +kernel)
  obtain ⟨rfl, a, k, l⟩ := of_decide_eq_true h3
  have g := c01_construct_consistent (Owned.empty dbl) h1
  have ok : Allowed m [.split 2] := ⟨a, fun _ _ _ => trivial⟩
  have ins : AllowedInside m [.split 2] := ⟨⟨a, fun h e => by cases e⟩, fun _ _ _ => trivial⟩
  exact ⟨m, m', h1, g, ins, h2, c98_edits g ok ins h2, k, l⟩

/-- a whole run of the remeshing on a patch with a hole around it, any orders and thresholds -/
example (sh : Nat → Bool → Nat → List Nat) (short long keep : XR) (n : Nat) : ∃ (m : Mesh Rat) (m' : Mesh XR),
    squareMesh = .ok () m ∧ remesh sh short long keep n (m.overR squareAt) = .ok () m' ∧ SamePieces (m.overR squareAt) m' ∧
    KeepsHoles (m.overR squareAt) m' ∧ m'.fAlive 3 = true ∧ m'.HoleFace 3 := by
  obtain ⟨m, h, S⟩ := squareMesh_ok
  have G := S.good.over (fun v => (squareAt v).fin)
  obtain ⟨m', e, -⟩ := c23_exact (m := m.overR squareAt) G (p := fun v => (squareAt v).E) (fun v a => ⟨squareAt v, rfl, rfl⟩)
    sh short long keep n
  have k := c98_remesh (m := m.overR squareAt) G sh short long keep n e
  have hf : (m.overR squareAt).fAlive 3 = true ∧ (m.overR squareAt).HoleFace 3 :=
    (mem_holeFaces G.wf).1 (by rw [show (m.over fun v => (squareAt v).fin).holeFaces = m.holeFaces from rfl, S.hole]; simp)
  exact ⟨m, m', h, e, c97_remesh (m := m.overR squareAt) G sh short long keep n e, k, (k.holes 3).2 hf⟩

/-- a run of the simplification that removes faces -/
example : ∃ m m' : Mesh Rat, m.Good ∧ simplifyQEM midSolver (fun _ => id) 17 1 m = .ok () m' ∧ SamePieces m m' ∧ KeepsHoles m m' ∧
    m'.fs.length < m.fs.length := by
  obtain ⟨m, m', g, -, e, -, h1, h2⟩ := c54_counterexample
  exact ⟨m, m', g, e, c97_simplify g _ (fun _ _ _ h => h) _ _ e, c98_simplify g _ (fun _ _ _ h => h) _ _ e, by omega⟩

/-- the hole around the square is filled -/
example : ∃ (m : Mesh Rat) (m' : Mesh XR), squareMesh = .ok () m ∧ fillHoles (m.overR squareAt) = .ok () m' ∧
    SamePieces (m.overR squareAt) m' := by
  obtain ⟨m, h, S⟩ := squareMesh_ok
  obtain ⟨m', h1, -⟩ := c21_fill_exact (S.good.over _) (m.overR_at squareAt)
  exact ⟨m, m', h, h1, c97_fill (m := m.overR squareAt) (S.good.over _) h1⟩

end TinyMesh
