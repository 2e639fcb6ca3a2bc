import Verif.Proof.CloneD
/-
Closed meshes; saving and loading; decidable forms of the conditions.
-/
set_option linter.unusedSimpArgs false
namespace TinyMesh
variable {F : Type} {m m' : Mesh F}

section
variable [Scalar F]

/-- an edit of a mesh without boundary gives a mesh without boundary -/
theorem edit_closed (g : m.Good) (nb : ∀ h, m.hAlive h = true → m.hBd h = false) {e : Edit} (ok : e.okAt m) {r : Bool}
    {m' : Mesh F} (h : e.run m = .ok r m') : ∀ h, m'.hAlive h = true → m'.hBd h = false := by
  cases e with
  | split x =>
    rcases splitHE_cases g ok with e | ⟨m2, he, S⟩
    · have := e.symm.trans h; cases this; exact nb
    · have := S.run.symm.trans h; cases this
      intro y ay
      have n0 := S.R.BN 0 (by omega)
      rw [Nat.add_zero] at n0
      rcases (S.R.hal y).1 ay with h1 | rfl | rfl | rfl | rfl | rfl | rfl
      · rw [S.R.B y h1, nb y h1]
      · exact n0
      all_goals exact S.R.BN _ (by omega)
  | flip x =>
    rcases flipHE_cases g ok.1 ok.2.1 ok.2.2 with e | ⟨m2, e, rfl, _⟩
    · have := e.symm.trans h; cases this; exact nb
    · have := e.symm.trans h; cases this; exact nb
  | collapse x =>
    rcases collapseHE_cases g ok with e | ⟨he, rev, hs, hdeg, G, a', b', c', d', o0, o1, o2, o3, v0, v1, v2, v3, D, W, h2⟩
    · have := e.symm.trans h; cases this; exact nb
    · rcases h2 with ⟨hp, m2, e, R⟩ | ⟨hp, e⟩
      · have := e.symm.trans h; cases this
        intro y ay
        rw [R.bd]
        exact nb y ((R.hal y).1 ay).1
      · have := e.symm.trans h; cases this

theorem edits_closed {N : Vec3 F → Prop} (P : PosRange N) : ∀ (es : List Edit) (m : Mesh F), m.Good → m.InRange N →
    (∀ h, m.hAlive h = true → m.hBd h = false) → Allowed m es → ∃ bs m', runEdits es m = .ok bs m' ∧ bs.length = es.length ∧ m'.Good ∧
      ∀ h, m'.hAlive h = true → m'.hBd h = false
  | [], m, g, _, nb, _ => ⟨[], m, rfl, rfl, g, nb⟩
  | e :: es, m, g, r, nb, ok => by
    obtain ⟨b, m1, e1, d1⟩ := edit_step P g r ok.1
    obtain ⟨bs, m2, e2, l2, d2⟩ := edits_closed P es m1 d1.good d1.range (edit_closed g nb ok.1 e1) (ok.2 b m1 e1)
    refine ⟨b :: bs, m2, ?_, by simp [l2], d2⟩
    simp [runEdits, e1, e2]

omit [Scalar F] in
theorem oneHole_closed (w : m.WF) (nb : ∀ h, m.hAlive h = true → m.hBd h = false) : m.OneHole := by
  intro h _ a _ _ hh _
  have := hh h a rfl
  rw [nb h a] at this
  cases this

omit [Scalar F] in
theorem bdSym_closed (w : m.WF) (nb : ∀ h, m.hAlive h = true → m.hBd h = false) : m.BdSym := by
  intro h a
  rw [nb _ (w.rev_alive _ a), nb _ a]

theorem Mesh.Good.save_load_ok (L : EqLaw F) (g : m.Good) (oh : m.OneHole) (bs : m.BdSym) (round : Vec3 F → Vec3 F)
    (D : Distinct ((m.vs.map m.vPos).map round)) {grow : Nat → Nat} (hf : Fits grow 0 m.shown) :
    ∃ f m2 r r2, savePLY round m = .ok f m ∧ saveOBJ round m = .ok f m ∧ loadPLY f (Mesh.empty grow) = .ok () m2 ∧
      loadOBJ f (Mesh.empty grow) = .ok () m2 ∧ m2.Good ∧ (m2.vs.map m2.vPos).Perm ((m.vs.map m.vPos).map round) ∧
      getVertexIndices m = .ok r m ∧ getVertexIndices m2 = .ok r2 m2 ∧
      SameFaces ((m.vs.map m.vPos).map round) r (m2.vs.map m2.vPos) r2 := by
  have w := g.wf
  have S := g.sound oh bs
  obtain ⟨m2, r2, e, G, hp, hr2, hs⟩ := S.rebuild L (by simp) D (Owned.empty grow) (m := Mesh.empty grow) rfl hf
  refine ⟨⟨(m.vs.map m.vPos).map round, ofTris (m.shown.map Tri.rot)⟩, m2, _, r2, ?_, ?_, e, ?_, G, hp, report_shown w g, hr2, hs⟩
  · simp only [savePLY, bind_apply, w.getVertices_ok, report_shown w g, pure_apply, flatIdx_map]
  · have : (m.shown.map (fun t => ((t.c : Int), (t.a : Int), (t.b : Int)))).filter (inFile m.vs.length) =
        m.shown.map (fun t => ((t.c : Int), (t.a : Int), (t.b : Int))) := by
      rw [List.filter_eq_self]
      intro x hx
      obtain ⟨t, ht, rfl⟩ := List.mem_map.1 hx
      have := g.range_shown ht
      simp only [Tri.inRange] at this
      simp [inFile, this]
    simp only [saveOBJ, bind_apply, w.getVertices_ok, report_shown w g, M.read, this, pure_apply, flatIdx_map]
  · exact (loadOBJ_of_construct (m := Mesh.empty grow) (Owned.empty grow)) e

end

/-! decidable forms -/

def Mesh.holeB (m : Mesh F) (f : Nat) : Bool := m.hes.all (fun h => !(m.hFace h == f) || m.hBd h)

theorem Mesh.WF.holeB_iff (w : m.WF) {f : Nat} : m.holeB f = true ↔ m.HoleFace f := by
  unfold Mesh.holeB Mesh.HoleFace
  simp only [List.all_eq_true, w.hDense.mem, Bool.or_eq_true, Bool.not_eq_true', beq_eq_false_iff_ne]
  constructor
  · intro h x ax ex
    exact (h x ax).resolve_left (fun hn => hn ex)
  · intro h x ax
    by_cases c : m.hFace x = f
    · exact Or.inr (h x ax c)
    · exact Or.inl c

def Mesh.noAloneB (m : Mesh F) : Bool := m.hes.all (fun h => !(m.holeB (m.hFace h) && m.holeB (m.hFace (m.hRev h))))

theorem Mesh.WF.noAlone (w : m.WF) (h : m.noAloneB = true) : m.NoAlone := by
  unfold Mesh.noAloneB at h
  simp only [List.all_eq_true, w.hDense.mem] at h
  intro x ax h1 h2
  have := h x ax
  rw [w.holeB_iff.2 h1, w.holeB_iff.2 h2] at this
  cases this

def Mesh.onHoleB (m : Mesh F) (v : Nat) : Bool := m.hes.any (fun h => m.hSrc h == v && m.holeB (m.hFace h))

theorem Mesh.WF.onHole (w : m.WF) {v : Nat} (h : m.OnHole v) : m.onHoleB v = true := by
  obtain ⟨x, ax, sx, hx⟩ := h
  unfold Mesh.onHoleB
  simp only [List.any_eq_true, w.hDense.mem, Bool.and_eq_true, beq_iff_eq]
  exact ⟨x, ax, sx, w.holeB_iff.2 hx⟩

def Edit.insideB (m : Mesh F) : Edit → Bool
  | .split h => m.hAlive h
  | .collapse h => m.hAlive h && !(m.onHoleB (m.hSrc h) && m.onHoleB (m.hSrc (m.hRev h)))
  | .flip h => m.hAlive h && !m.hBd h

theorem Edit.inside_of (w : m.WF) {e : Edit} (h : e.insideB m = true) : e.inside m := by
  cases e with
  | split x => exact h
  | collapse x =>
    simp only [Edit.insideB, Bool.and_eq_true, Bool.not_eq_true', Bool.and_eq_false_iff] at h
    refine ⟨h.1, fun ⟨h1, h2⟩ => ?_⟩
    rw [w.onHole h1, w.onHole h2] at h
    simp at h
  | flip x =>
    simp only [Edit.insideB, Bool.and_eq_true, Bool.not_eq_true'] at h
    exact h

def Mesh.shownB (m : Mesh F) : List Tri := (m.fs.filter (fun f => !m.holeB f)).map m.corners

theorem Mesh.WF.shown_eq (w : m.WF) : m.shown = m.shownB := by
  classical
  unfold Mesh.shown Mesh.shownB
  congr 1
  apply List.filter_congr
  intro f _
  by_cases h : m.HoleFace f
  · rw [w.holeB_iff.2 h]; simp [h]
  · have : m.holeB f = false := by rw [← Bool.not_eq_true, w.holeB_iff]; exact h
    rw [this]; simp [h]

section
variable [Scalar F]

def insideB : List Edit → Mesh F → Bool
  | [], _ => true
  | e :: es, m => e.insideB m && match e.run m with
    | .ok _ m' => insideB es m'
    | .err _ => true

theorem inside_of {N : Vec3 F → Prop} (P : PosRange N) : ∀ (es : List Edit) (m : Mesh F), m.Good → m.BdSym → m.OneHole → m.InRange N →
    insideB es m = true → Inside m es
  | [], _, _, _, _, _, _ => trivial
  | e :: es, m, g, bs, oh, r, h => by
    simp only [insideB, Bool.and_eq_true] at h
    have hin := Edit.inside_of g.wf h.1
    refine ⟨hin, fun b m' e1 => ?_⟩
    obtain ⟨b', m1, e2, d1⟩ := edit_step P g r (Edit.inside_ok g bs hin)
    rw [e1] at e2
    cases e2
    obtain ⟨oh1, bs1⟩ := edit_inside g oh bs hin e1
    refine inside_of P es m' d1.good bs1 oh1 d1.range ?_
    have := h.2
    rw [e1] at this
    exact this

end
end TinyMesh
