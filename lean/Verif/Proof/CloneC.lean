import Verif.Proof.CloneB
/-
The holes at the vertices of a constructed mesh; building again from a mesh.
-/
set_option linter.unusedSimpArgs false
namespace TinyMesh
open Orbit
variable {F : Type} {m m' : Mesh F}

theorem Built.bdSym {ts K : List Tri} (B : Built m ts K m') : m'.BdSym := by
  obtain ⟨mA, pd, V0, g, mC, V, I, hvs, C, rfl⟩ := B.phases
  intro h a
  show mC.hBd (mC.hRev h) = mC.hBd h
  rcases C.cases a with ⟨h1, h2⟩ | h1 | ⟨h1, h2⟩
  · obtain ⟨e1, e2⟩ := C.rT h h1 h2
    have a2 := C.T.rev_alive h h1 h2
    have r2 := C.T.rev_rev h h1 h2
    rw [e1, e2, (C.rT _ a2 (by rw [r2]; exact C.T.ne0 h1)).2]
  · obtain ⟨q1, q2, q3, q4⟩ := C.bnd_rev h1
    rw [q4, (C.holeRev _ q1 q2).2.2.1]
  · obtain ⟨q1, q2, q3, q4⟩ := C.holeRev h h1 h2
    rw [q3, (C.bnd_rev q1).2.2.2]

theorem Built.oneHole {ts K : List Tri} (B : Built m ts K m') (na : m'.NoAlone) : m'.OneHole := by
  have w := B.good.wf
  obtain ⟨mA, pd, V0, g, mC, V, I, hvs, C, rfl⟩ := B.phases
  have hole : ∀ b, mA.hFresh ≤ b → b < mC.hFresh → Mesh.AtHole { mC with vHe := V } b := by
    intro b h1 h2 x ax ex
    show mC.hBd x = true
    have ex : mC.hFace x = mC.hFace b := ex
    rcases (C.hal x).1 ax with h3 | h3
    · exfalso
      have := (C.T.fB _ (C.T.face_alive x h3)).2
      rw [C.fT x h3] at ex
      have := (C.holeFace b h1 h2).1
      omega
    · exact (C.holeRev x h3.1 h3.2).2.2.1
  have key : ∀ h, mC.HA h → Mesh.AtHole { mC with vHe := V } h → mA.hFresh ≤ h := by
    intro h a hh
    have hb : mC.hBd h = true := hh h a rfl
    rcases C.cases a with ⟨h1, h2⟩ | h1 | ⟨h1, h2⟩
    · rw [(C.rT h h1 h2).2] at hb; cases hb
    · obtain ⟨q1, q2, q3, q4⟩ := C.bnd_rev h1
      exact absurd (hole _ q1 q2) (na h a hh)
    · exact h1
  intro h h' a a' e hh hh'
  have a : mC.HA h := a
  have a' : mC.HA h' := a'
  obtain ⟨n, hn⟩ := w.ring_conn h h' a a' e
  have hn : mC.sig^[n] h = h' := hn
  have pm := C.permSig
  have m1 : h ∈ orbit mC.sig h := (pm.mem_orbit a).2 ⟨0, rfl⟩
  have m2 : h' ∈ orbit mC.sig h := (pm.mem_orbit a).2 ⟨n, hn⟩
  have cnt := C.ring_holes a
  have le : (orbit mC.sig h).countP (fun h => decide (mA.hFresh ≤ h)) ≤ 1 := by
    rw [show (orbit mC.sig h).countP (fun h => decide (mA.hFresh ≤ h)) = _ from cnt]
    split <;> omega
  rw [List.countP_eq_length_filter] at le
  have f1 : h ∈ (orbit mC.sig h).filter (fun h => decide (mA.hFresh ≤ h)) :=
    List.mem_filter.2 ⟨m1, decide_eq_true (key h a hh)⟩
  have f2 : h' ∈ (orbit mC.sig h).filter (fun h => decide (mA.hFresh ≤ h)) :=
    List.mem_filter.2 ⟨m2, decide_eq_true (key h' a' hh')⟩
  generalize (orbit mC.sig h).filter (fun h => decide (mA.hFresh ≤ h)) = l at *
  match l, le with
  | [], _ => cases f1
  | [z], _ =>
    rw [List.mem_singleton] at f1 f2
    rw [f1, f2]

section
variable [Scalar F]

theorem construct_oneHole (O : Owned m) {V : List (Vec3 F)} {I : List Nat} (h : construct V I m = .ok () m') (na : m'.NoAlone) :
    m'.OneHole ∧ m'.BdSym := by
  obtain ⟨mD, J, ts0, _, _, _, _, _, _, _, B, _⟩ := construct_ok O h
  exact ⟨B.oneHole na, B.bdSym⟩

theorem construct_bdSym (O : Owned m) {V : List (Vec3 F)} {I : List Nat} (h : construct V I m = .ok () m') : m'.BdSym := by
  obtain ⟨mD, J, ts0, _, _, _, _, _, _, _, B, _⟩ := construct_ok O h
  exact B.bdSym

/-- a mesh without flagged half-edges has no holes -/
theorem Mesh.Good.no_hole (w : m.WF) (nb : ∀ h, m.hAlive h = true → m.hBd h = false) {f : Nat} (af : m.fAlive f = true) :
    ¬ m.HoleFace f := by
  intro h
  obtain ⟨a, e⟩ := w.fHe_ok f af
  have := h _ a e
  rw [nb _ a] at this
  cases this

theorem Mesh.Good.fits_shown (g : m.Good) (nb : ∀ h, m.hAlive h = true → m.hBd h = false) (grow : Nat → Nat) (cap : Nat) :
    Fits grow cap m.shown := by
  have w := g.wf
  apply fits_closed
  intro t ht e he
  obtain ⟨f, af, hf, rfl⟩ := (mem_shown w).1 ht
  obtain ⟨x, ax, ex, rfl⟩ := (mem_corners g af hf).1 he
  have ar := w.rev_alive _ ax
  have hr := Mesh.Good.no_hole w nb (w.face_alive _ ar)
  refine ⟨_, (mem_shown w).2 ⟨_, w.face_alive _ ar, hr, rfl⟩, (mem_corners g (w.face_alive _ ar) hr).2 ⟨_, ar, rfl, ?_⟩⟩
  have e1 := w.src_rev _ ax
  have e2 := w.src_rev _ ar
  rw [w.rev_rev _ ax] at e2
  simp only [Mesh.dir, e1, ← e2]

theorem Mesh.Good.clone_ok (L : EqLaw F) (g : m.Good) (oh : m.OneHole) (bs : m.BdSym) (D : Distinct (m.vs.map m.vPos))
    {grow : Nat → Nat} (hf : Fits grow 0 m.shown) :
    ∃ m2 r r2, clone grow m = .ok () m2 ∧ m2.Good ∧ (m2.vs.map m2.vPos).Perm (m.vs.map m.vPos) ∧
      getVertexIndices m = .ok r m ∧ getVertexIndices m2 = .ok r2 m2 ∧
      SameFaces (m.vs.map m.vPos) r (m2.vs.map m2.vPos) r2 := by
  obtain ⟨m2, r2, e, g2, p, q, s⟩ := (g.sound oh bs).rebuild L rfl D (Owned.empty grow) (m := Mesh.empty grow) rfl hf
  refine ⟨m2, _, r2, ?_, g2, p, report_shown g.wf g, q, s⟩
  unfold clone
  rw [g.wf.getVertices_ok, report_shown g.wf g]
  simp only [flatIdx_map, e]

end
end TinyMesh
