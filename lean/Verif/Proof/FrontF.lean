import Verif.Proof.FrontE
/-
What a round that adds triangles does to the mesh.
-/
namespace TinyMesh
open Orbit
variable {F : Type} {m : Mesh F}

/-- a round that adds triangles to the front: nothing outside the hole `f` changes -/
structure Grow (m m' : Mesh F) (f : Nat) : Prop where
  wf : m'.WF
  hal : ∀ h, m.hAlive h = true → m'.hAlive h = true ∧ m'.hSrc h = m.hSrc h
  out : ∀ h, m.hAlive h = true → m.hFace h ≠ f → m'.hNext h = m.hNext h ∧ m'.hFace h = m.hFace h
  tri : ∀ h, m'.hAlive h = true → m'.hFace h ≠ f → (m.hAlive h = true ∧ m.hFace h = m'.hFace h) ∨ (m.fFresh ≤ m'.hFace h ∧ m'.OnTri h ∧ m'.hNext h ≠ h)
  front : ∀ h, m'.hAlive h = true → m'.hFace h = f →
    m.vFresh ≤ m'.hSrc h ∨ ∃ h0, m.hAlive h0 = true ∧ m.hFace h0 = f ∧ m.hSrc h0 = m'.hSrc h
  val : ∀ v, m.vAlive v = true → m'.vAlive v = true ∧ m'.vPos v = m.vPos v ∧ m'.vLock v = m.vLock v
  new : ∀ v, m'.vAlive v = true → m.vFresh ≤ v → m'.vLock v = false
  fal : ∀ g, m.fAlive g = true → m'.fAlive g = true
  hfr : m.hFresh ≤ m'.hFresh
  vfr : m.vFresh ≤ m'.vFresh
  ffr : m.fFresh ≤ m'.fFresh
  rev : ∀ h, m.hAlive h = true → m'.hRev h = m.hRev h
  src : ∀ h, m'.hAlive h = true → m.hAlive h = true ∨ m.vFresh ≤ m'.hSrc h ∨ ∃ h0, m.hAlive h0 = true ∧ m.hFace h0 = f ∧ m.hSrc h0 = m'.hSrc h

section
variable {f : Nat} {hs : List Nat} {pp prev i next qq p a b q : Nat}

theorem earMesh_alive (w : m.WF) (h : Nat) :
    (m.earMesh f p a b q).hAlive h = true ↔ h = m.hFresh ∨ h = m.hFresh + 1 ∨ m.hAlive h = true := by
  simp only [Mesh.earMesh, Mesh.pairUp_hAlive, Mesh.earEnd_hAlive, Mesh.tri_hAlive, Mesh.allocH_hAlive, Mesh.earSide_hAlive, upd,
    Mesh.earSide_hFresh]
  have e : m.allocH.hFresh = m.hFresh + 1 := rfl
  rw [e]
  split
  · next h => simp [h]
  · split <;> simp [*]

theorem earMesh_ear (w : m.WF) (af : m.fAlive f = true) (C : Corner m f hs pp prev i next qq p a b q) :
    m.links.Ear (m.earMesh f p a b q).links p a b q m.hFresh (m.hFresh + 1) m.fFresh := by
  have lt : ∀ {h}, m.hAlive h = true → h < m.hFresh := fun a => (w.hBound _ a).2
  have pl := lt C.ap
  have al := lt C.aa
  have bl := lt C.ab
  have ql := lt C.aq
  have gl := (w.fBound _ af).2
  have pq := C.pq
  have pa := C.pa
  have pb := C.pb
  have n1 : ∀ {h}, m.hAlive h = true → h ≠ m.hFresh ∧ h ≠ m.hFresh + 1 := fun a => by have := lt a; omega
  have A := n1 C.aa
  have B := n1 C.ab
  have P := n1 C.ap
  have Q := n1 C.aq
  have A1 := A.1.symm
  have A2 := A.2.symm
  have B1 := B.1.symm
  have B2 := B.2.symm
  have P1 := P.1.symm
  have P2 := P.2.symm
  have fa := C.fa
  constructor
  · exact fun h => earMesh_alive (f := f) (b := b) w h
  all_goals simp only [Mesh.links, Mesh.earMesh]
  · simp [upd, *]
  · simp [upd, *]
  · simp [upd, *]
  · simp [upd, *]
  · intro h ah h1 h2
    have N := n1 ah
    by_cases e : h = a
    · subst e; simp [upd, *]; exact C.na.symm
    · simp [upd, *]
  · simp [upd, *]
  · simp [upd, *]
  · intro h ah
    have N := n1 ah
    simp [upd, *]
  · simp [upd, *]
  · simp [upd, *]
  · intro h ah
    have N := n1 ah
    simp [upd, *]
    by_cases e : h = a
    · subst e; simp [*]
    · by_cases e' : h = b
      · subst e'; simp [*]
      · simp [*]
  · simp [upd, *]
  · simp [upd, *]
  · simp [upd, *]
  · simp [upd, *]
  · intro h ah h1 h2
    have N := n1 ah
    simp [upd, *]
  · intro v; simp
  · intro v av
    have av' : m.vAlive v = true := av
    have := w.vHe_ok v av'
    have N := n1 this.1
    refine ⟨?_, ?_⟩
    · simp [upd, *]
    · simp [upd, *]
      by_cases e : m.vHe v = a
      · rw [if_neg (by rw [e]; exact pq.2.2), if_pos e, ← e, this.2]
      · by_cases e' : m.vHe v = b
        · rw [if_pos e', ← e', this.2]
        · rw [if_neg e', if_neg e]
  · intro g
    simp [upd]
  · simp [upd, gl.ne', C.aa, *]
  · simp [upd, *]
  · intro g ag hg
    have h2 := (w.fBound g ag).2.ne
    have h1 : g ≠ f := fun e => hg (e.trans fa.symm)
    simp [upd, h1, h2]

theorem earMesh_grow (w : m.WF) (af : m.fAlive f = true) (C : Corner m f hs pp prev i next qq p a b q) : Grow m (m.earMesh f p a b q) f := by
  have R := earMesh_ear w af C
  have K := w.links_ok
  have hp := w.heap af
  have d1 : m.hAlive m.hFresh = false := hp.hdead (Nat.le_refl _)
  have d2 : m.hAlive (m.hFresh + 1) = false := hp.hdead (by omega)
  have L' := K.ear R C.ap C.np C.na C.nb C.pa C.pb d1 d2 (by omega) (hp.fdead (Nat.le_refl _))
  have H' : (m.earMesh f p a b q).Heap := by
    unfold Mesh.earMesh
    exact ((((hp.earSide p q _).allocH).tri _ _ _ _ _ _).earEnd _ _).pairUp _ _
  have fl := (w.fBound _ af).2
  refine ⟨H'.wf L', ?_, ?_, ?_, ?_, ?_, ?_, ?_, ?_, ?_, ?_, fun h ah => R.rvo ah, ?_⟩
  · intro h ah
    exact ⟨(R.al h).2 (.inr (.inr ah)), R.sro ah⟩
  · intro h ah hf
    have h1 : h ≠ p := fun e => hf (e ▸ C.fp)
    have h2 : h ≠ a := fun e => hf (e ▸ C.fa)
    have h3 : h ≠ b := fun e => hf (e ▸ C.fb)
    exact ⟨R.nxo ah h1 h3, R.fco ah h2 h3⟩
  · intro h ah hf
    have onT : ∀ {x}, (m.earMesh f p a b q).hFace x = m.fFresh → x = a ∨ x = b ∨ x = m.hFresh + 1 →
        m.fFresh ≤ (m.earMesh f p a b q).hFace x ∧ (m.earMesh f p a b q).OnTri x ∧ (m.earMesh f p a b q).hNext x ≠ x := by
      intro x fx hx
      have al := (w.hBound _ C.aa).2
      have bl := (w.hBound _ C.ab).2
      have ab := C.pq.2.2
      have na : (m.earMesh f p a b q).hNext a = b := (R.nxo C.aa (Ne.symm C.pa) C.pq.2.2).trans C.na
      have nb : (m.earMesh f p a b q).hNext b = m.hFresh + 1 := R.nxb
      have nc : (m.earMesh f p a b q).hNext (m.hFresh + 1) = a := R.nxB
      refine ⟨fx.ge, ?_, ?_⟩
      · unfold Mesh.OnTri
        rcases hx with rfl | rfl | rfl <;> simp [na, nb, nc]
      · rcases hx with e | e | e <;> rw [e] <;> simp only [na, nb, nc] <;> omega
    rcases (R.al h).1 ah with e | e | e
    · subst e
      exact absurd (R.fcA.trans C.fa) hf
    · subst e
      exact .inr (onT R.fcB (.inr (.inr rfl)))
    · by_cases e1 : h = a
      · subst e1; exact .inr (onT R.fca (.inl rfl))
      · by_cases e2 : h = b
        · subst e2; exact .inr (onT R.fcb (.inr (.inl rfl)))
        · exact .inl ⟨e, (R.fco e e1 e2).symm⟩
  · intro h ah hf
    rcases (R.al h).1 ah with e | e | e
    · subst e
      exact .inr ⟨a, C.aa, C.fa, R.srA.symm⟩
    · subst e
      have := R.fcB
      have h2 : m.fFresh = f := this.symm.trans hf
      omega
    · by_cases e1 : h = a
      · subst e1
        have h2 : m.fFresh = f := R.fca.symm.trans hf
        omega
      · by_cases e2 : h = b
        · subst e2
          have h2 : m.fFresh = f := R.fcb.symm.trans hf
          omega
        · have h3 : m.hFace h = f := (R.fco e e1 e2).symm.trans hf
          exact .inr ⟨h, e, h3, (R.sro e).symm⟩
  · intro v av
    exact ⟨av, rfl, rfl⟩
  · intro v av hv
    have := hp.vb v av
    omega
  · intro g ag
    exact (R.fa g).2 (.inr ag)
  · show m.hFresh ≤ m.hFresh + 1 + 1
    omega
  · exact Nat.le_refl _
  · show m.fFresh ≤ m.fFresh + 1
    omega
  · intro h ah
    rcases (R.al h).1 ah with e | e | e
    · exact .inr (.inr ⟨a, C.aa, C.fa, by rw [e]; exact R.srA.symm⟩)
    · exact .inr (.inr ⟨q, C.aq, C.fq, by rw [e]; exact R.srB.symm⟩)
    · exact .inl e

/-- the sides of the hole after a round -/
theorem earMesh_front (w : m.WF) (af : m.fAlive f = true) (C : Corner m f hs pp prev i next qq p a b q) (h : Nat) :
    ((m.earMesh f p a b q).hAlive h = true ∧ (m.earMesh f p a b q).hFace h = f) ↔
      h = m.hFresh ∨ (m.hAlive h = true ∧ m.hFace h = f ∧ h ≠ a ∧ h ≠ b) := by
  have R := earMesh_ear w af C
  have fl := (w.fBound _ af).2
  have e1 := R.fcA
  have e2 := R.fcB
  have e3 := R.fca
  have e4 := R.fcb
  constructor
  · rintro ⟨ah, hf⟩
    rcases (R.al h).1 ah with e | e | e
    · exact .inl e
    · subst e
      have h2 : m.fFresh = f := e2.symm.trans hf
      omega
    · have n1 : h ≠ a := by
        rintro rfl
        have h2 : m.fFresh = f := e3.symm.trans hf
        omega
      have n2 : h ≠ b := by
        rintro rfl
        have h2 : m.fFresh = f := e4.symm.trans hf
        omega
      exact .inr ⟨e, (R.fco e n1 n2).symm.trans hf, n1, n2⟩
  · rintro (e | ⟨e, hf, n1, n2⟩)
    · subst e
      exact ⟨(R.al _).2 (.inl rfl), e1.trans C.fa⟩
    · exact ⟨(R.al _).2 (.inr (.inr e)), (R.fco e n1 n2).trans hf⟩

end
end TinyMesh
