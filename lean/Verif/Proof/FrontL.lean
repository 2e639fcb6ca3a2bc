import Verif.Proof.FrontK
import Verif.Proof.CollapseExec
/-
`frontMerge`: symbolic execution.
-/
namespace TinyMesh
open Orbit
variable {F : Type} {m : Mesh F}

theorem setSrcs_ok (v : Nat) : ∀ (l : List Nat) (m : Mesh F), (∀ x ∈ l, m.hAlive x = true) →
    setSrcs v l m = .ok () { m with hSrc := fun x => if x ∈ l then v else m.hSrc x }
  | [], m, _ => by simp [setSrcs]
  | h :: l, m, hl => by
    simp only [setSrcs, bind_apply, setSrc, hl h (by simp), if_true]
    rw [setSrcs_ok v l { m with hSrc := upd m.hSrc h v } (fun x hx => hl x (by simp [hx]))]
    congr 2
    funext x
    simp only [upd, List.mem_cons]
    by_cases e : x ∈ l <;> by_cases e' : x = h <;> simp [e, e']

/-- half-edges around a side `b` of the hole `f` with the triangle behind it -/
structure Behind (m : Mesh F) (f a b q c0 c1 c2 t : Nat) : Prop where
  aa : m.hAlive a = true
  ab : m.hAlive b = true
  fb : m.hFace b = f
  na : m.hNext a = b
  nb : m.hNext b = q
  eab : a ≠ b
  rb : m.hRev b = c0
  n0 : m.hNext c0 = c1
  n1 : m.hNext c1 = c2
  n2 : m.hNext c2 = c0
  ft : m.hFace c0 = t
  tf : t ≠ f
  bq : b ≠ q
  vv : m.hSrc b ≠ m.hSrc q

/-- what `frontMerge` does -/
structure MergeEnd [Scalar F] (m m' : Mesh F) (f a b q c0 c1 c2 t : Nat) : Prop where
  tab : m.links.MergeTab m'.links f a b q c0 c1 c2 t
  heap : m'.Heap
  pos : m'.vPos = upd m.vPos (m.hSrc q) (Vec3.smul (Scalar.lit 1 2) ((m.vPos (m.hSrc b)).add (m.vPos (m.hSrc q))))
  lock : m'.vLock = m.vLock
  hfr : m'.hFresh = m.hFresh
  vfr : m'.vFresh = m.vFresh
  ffr : m'.fFresh = m.fFresh
  bd : m'.hBd = m.hBd
  slot : ∀ i g : Nat, m.fs[i]? = some g → i < (m.fIdx t).toNat → m'.fs[i]? = some g

theorem rmF_before {m : Mesh F} (d : Dense m.fAlive m.fIdx m.fs) {f : Nat} (a : m.fAlive f = true) :
    ∃ m', removeFace f m = .ok () m' ∧ Dense m'.fAlive m'.fIdx m'.fs ∧ RmF m m' f ∧
      ∀ i g : Nat, m.fs[i]? = some g → i < (m.fIdx f).toNat → m'.fs[i]? = some g := by
  obtain ⟨z, hz, az, hh⟩ := d.remove a
  have lt := d.idx_lt a
  have drop : ∀ (l : List Nat) (i g : Nat), l.length = m.fs.length → l[i]? = some g → i < (m.fIdx f).toNat → l.dropLast[i]? = some g := by
    intro l i g hl e c
    rw [List.getElem?_dropLast, if_pos (by omega), e]
  unfold removeFace
  simp only [a, if_true, d.arrayAt a, hz, az, BEq.rfl, Bool.and_self]
  rcases hh with ⟨h1, h2⟩ | ⟨h1, h3, h2⟩
  · rw [if_pos h1]
    refine ⟨_, rfl, h2, by constructor <;> rfl, fun i g e c => drop _ i g (by simp) ?_ c⟩
    rw [List.getElem?_set_ne (by omega), e]
  · rw [if_neg h1]; subst h3
    exact ⟨_, rfl, h2, by constructor <;> rfl, fun i g e c => drop _ i g rfl e c⟩

theorem frontMerge_ok [Scalar F] (w : m.WF) {f a b q c0 c1 c2 t : Nat} (B : Behind m f a b q c0 c1 c2 t) :
    ((m.vPos (m.hSrc b)).eq (m.vPos (m.hSrc b)) = true →
      ∃ m', frontMerge f (m.hSrc b) (m.hSrc q) a b q m = .ok () m' ∧ MergeEnd m m' f a b q c0 c1 c2 t) ∧
    (¬ (m.vPos (m.hSrc b)).eq (m.vPos (m.hSrc b)) = true → frontMerge f (m.hSrc b) (m.hSrc q) a b q m = .err .abort) := by
  have aq : m.hAlive q = true := B.nb ▸ w.next_alive b B.ab
  have h0 : m.hAlive c0 = true := B.rb ▸ w.rev_alive b B.ab
  have h1 : m.hAlive c1 = true := B.n0 ▸ w.next_alive _ h0
  have h2 : m.hAlive c2 = true := B.n1 ▸ w.next_alive _ h1
  have f1 : m.hFace c1 = t := by rw [← B.n0, w.face_next _ h0, B.ft]
  have f2 : m.hFace c2 = t := by rw [← B.n1, w.face_next _ h1, f1]
  have fa : m.hFace a = f := by rw [← w.face_next _ B.aa, B.na, B.fb]
  have af : m.fAlive f = true := B.fb ▸ w.face_alive _ B.ab
  have at' : m.fAlive t = true := B.ft ▸ w.face_alive _ h0
  have s0 : m.hSrc c0 = m.hSrc q := by rw [← B.rb, w.src_rev _ B.ab, B.nb]
  have r0 : m.hRev c0 = b := by rw [← B.rb, w.rev_rev _ B.ab]
  have s1 : m.hSrc c1 = m.hSrc b := by rw [← B.n0, ← w.src_rev _ h0, r0]
  have c01 : c0 ≠ c1 := by
    intro e
    exact B.vv (by rw [← s1, ← e, s0])
  have c12 : c1 ≠ c2 := by
    intro e
    exact c01 (w.next_inj _ _ h0 h1 (by rw [B.n0, B.n1, e]))
  have c02 : c0 ≠ c2 := by
    intro e
    have : m.hNext c0 = c0 := by rw [e, B.n2, e]
    rw [B.n0] at this
    exact c01 this.symm
  have bt : ∀ {h}, m.hFace h = t → h ≠ b ∧ h ≠ a := fun {h} e => ⟨fun e' => B.tf (by rw [← e, e', B.fb]), fun e' => B.tf (by rw [← e, e', fa])⟩
  have ao1 := w.rev_alive _ h1
  have ao2 := w.rev_alive _ h2
  have av := w.src_alive _ B.ab
  have aw := w.src_alive _ aq
  have av2 := w.src_alive _ h2
  have ring : ∀ x, x ∈ orbit m.sig (m.vHe (m.hSrc b)) ↔ m.hAlive x = true ∧ m.hSrc x = m.hSrc b := fun x => w.mem_ring av
  have ra := w.ringList_ok av
  obtain ⟨l, hl⟩ : ∃ l, orbit m.sig (m.vHe (m.hSrc b)) = l := ⟨_, rfl⟩
  rw [hl] at ra ring
  have a0 : c0 ≠ a := (bt B.ft).2
  have a1 : c1 ≠ a := (bt f1).2
  have a2 : c2 ≠ a := (bt f2).2
  obtain ⟨E, hE⟩ : ∃ E : Mesh F, E = { m with
    hNext := upd m.hNext a q
    hRev := upd (upd m.hRev (m.hRev c1) (m.hRev c2)) (m.hRev c2) (m.hRev c1)
    hSrc := fun x => if x ∈ l then m.hSrc q else m.hSrc x
    vHe := upd (upd m.vHe (m.hSrc q) (m.hRev c2)) (m.hSrc c2) (m.hRev c1)
    fHe := upd m.fHe f q
    vPos := upd m.vPos (m.hSrc q) (Vec3.smul (Scalar.lit 1 2) ((m.vPos (m.hSrc b)).add (m.vPos (m.hSrc q)))) } := ⟨_, rfl⟩
  have run : frontMerge f (m.hSrc b) (m.hSrc q) a b q m = (do
      let g ← getFace c0
      removeFace g
      removeHalfedge b
      removeHalfedge c0
      removeHalfedge c1
      removeHalfedge c2
      removeVertex (m.hSrc b)) E := by
    unfold frontMerge
    rw [bind_apply, ra]
    dsimp only
    simp only [bind_apply, getNext, B.aa, if_true, B.na, M.assert, pure_apply, B.ab, B.nb, setNext, getRev, B.rb, h0, h1, h2,
      upd_ne _ _ a0, upd_ne _ _ a1, upd_ne _ _ a2, B.n0, B.n1, B.n2, decide_true, getSrc, s0, s1, setRev, ao1, ao2]
    rw [setSrcs_ok _ _ { m with
      hNext := upd m.hNext a q
      hRev := upd (upd m.hRev (m.hRev c1) (m.hRev c2)) (m.hRev c2) (m.hRev c1) } (fun x hx => ((ring x).1 hx).1)]
    simp only [setVHe, aw, av2, if_true, setFHe, af, getPos, av, setPos]
    rw [← hE]
  rw [run]
  have fc : E.hFace c0 = t := by rw [hE]; exact B.ft
  have K := w.heap af
  have hDE : Dense E.hAlive E.hIdx E.hes := by rw [hE]; exact w.hDense
  have vDE : Dense E.vAlive E.vIdx E.vs := by rw [hE]; exact w.vDense
  have fDE : Dense E.fAlive E.fIdx E.fs := by rw [hE]; exact w.fDense
  have alE : E.hAlive = m.hAlive := by rw [hE]
  have valE : E.vAlive = m.vAlive := by rw [hE]
  have falE : E.fAlive = m.fAlive := by rw [hE]
  obtain ⟨m1, q1, D1, K1, S1⟩ := rmF_before fDE (f := t) (by rw [falE]; exact at')
  obtain ⟨m2, q2, D2, K2⟩ := rmH (m := m1) (by rw [K1.hAlive, K1.hIdx, K1.hes]; exact hDE) (h := b) (by rw [K1.hAlive, alE]; exact B.ab)
  have al2 : m2.hAlive = upd m.hAlive b false := by rw [K2.al, K1.hAlive, alE]
  obtain ⟨m3, q3, D3, K3⟩ := rmH D2 (h := c0) (by rw [al2, upd_ne _ _ (bt B.ft).1]; exact h0)
  have al3 : m3.hAlive = upd (upd m.hAlive b false) c0 false := by rw [K3.al, al2]
  obtain ⟨m4, q4, D4, K4⟩ := rmH D3 (h := c1) (by rw [al3, upd_ne _ _ c01.symm, upd_ne _ _ (bt f1).1]; exact h1)
  have al4 : m4.hAlive = upd (upd (upd m.hAlive b false) c0 false) c1 false := by rw [K4.al, al3]
  obtain ⟨m5, q5, D5, K5⟩ := rmH D4 (h := c2) (by rw [al4, upd_ne _ _ c12.symm, upd_ne _ _ c02.symm, upd_ne _ _ (bt f2).1]; exact h2)
  have al5 : m5.hAlive = upd (upd (upd (upd m.hAlive b false) c0 false) c1 false) c2 false := by rw [K5.al, al4]
  have Ko : RmOther m1 m5 := K2.o.trans (K3.o.trans (K4.o.trans K5.o))
  have val5 : m5.vAlive = m.vAlive := by rw [Ko.vAlive, K1.vAlive, valE]
  have vD5 : Dense m5.vAlive m5.vIdx m5.vs := by rw [Ko.vAlive, Ko.vIdx, Ko.vs, K1.vAlive, K1.vIdx, K1.vs]; exact vDE
  have pos5 : m5.vPos = E.vPos := by rw [Ko.vPos, K1.vPos]
  have posv : m5.vPos (m.hSrc b) = m.vPos (m.hSrc b) := by
    rw [pos5, hE]
    exact upd_ne _ _ B.vv
  have steps : (do
      let g ← getFace c0
      removeFace g
      removeHalfedge b
      removeHalfedge c0
      removeHalfedge c1
      removeHalfedge c2
      removeVertex (m.hSrc b)) E = removeVertex (m.hSrc b) m5 := by
    simp only [bind_apply, getFace, alE, h0, if_true, fc, q1, q2, q3, q4, q5]
  rw [steps]
  refine ⟨fun hp => ?_, fun hp => ?_⟩
  · obtain ⟨m6, q6, D6, K6⟩ := rmV vD5 (v := m.hSrc b) (by rw [val5]; exact av) (by rw [posv]; exact hp)
    refine ⟨m6, q6, ?_⟩
    have e_nx : m6.hNext = upd m.hNext a q := by rw [K6.nx, Ko.nx, K1.nx, hE]
    have e_rv : m6.hRev = upd (upd m.hRev (m.hRev c1) (m.hRev c2)) (m.hRev c2) (m.hRev c1) := by rw [K6.hRev, Ko.hRev, K1.hRev, hE]
    have e_sr : m6.hSrc = fun x => if x ∈ l then m.hSrc q else m.hSrc x := by rw [K6.hSrc, Ko.hSrc, K1.hSrc, hE]
    have e_fc : m6.hFace = m.hFace := by rw [K6.hFace, Ko.hFace, K1.hFace, hE]
    have e_vh : m6.vHe = upd (upd m.vHe (m.hSrc q) (m.hRev c2)) (m.hSrc c2) (m.hRev c1) := by rw [K6.vHe, Ko.vHe, K1.vHe, hE]
    have e_fh : m6.fHe = upd m.fHe f q := by rw [K6.fHe, Ko.fHe, K1.fHe, hE]
    have e_al : m6.hAlive = upd (upd (upd (upd m.hAlive b false) c0 false) c1 false) c2 false := by rw [K6.hAlive, al5]
    have e_va : m6.vAlive = upd m.vAlive (m.hSrc b) false := by rw [K6.al, val5]
    have e_fa : m6.fAlive = upd m.fAlive t false := by rw [K6.fAlive, Ko.fAlive, K1.al, falE]
    have e_hf : m6.hFresh = m.hFresh := by rw [K6.hFresh, Ko.hFresh, K1.hFresh, hE]
    have e_vf : m6.vFresh = m.vFresh := by rw [K6.vFresh, Ko.vFresh, K1.vFresh, hE]
    have e_ff : m6.fFresh = m.fFresh := by rw [K6.fFresh, Ko.fFresh, K1.fFresh, hE]
    have al' : ∀ h, m6.hAlive h = true ↔ h ≠ b ∧ h ≠ c0 ∧ h ≠ c1 ∧ h ≠ c2 ∧ m.hAlive h = true := by
      intro h
      rw [e_al]
      simp only [upd]
      repeat' split
      all_goals simp_all
    have va' : ∀ v, m6.vAlive v = true ↔ v ≠ m.hSrc b ∧ m.vAlive v = true := by
      intro v
      rw [e_va]
      simp only [upd]
      split <;> simp_all
    have fa' : ∀ g, m6.fAlive g = true ↔ g ≠ t ∧ m.fAlive g = true := by
      intro v
      rw [e_fa]
      simp only [upd]
      split <;> simp_all
    have o12 : m.hRev c1 ≠ m.hRev c2 := fun e => c12 (by rw [← w.rev_rev _ h1, e, w.rev_rev _ h2])
    have e_bd : m6.hBd = m.hBd := by rw [K6.hBd, Ko.hBd, K1.hBd, hE]
    have e_fs : m6.fs = m1.fs := by rw [K6.fs, Ko.fs]
    refine ⟨?_, ?_, ?_, ?_, e_hf, e_vf, e_ff, e_bd, fun i g e c => ?_⟩
    · constructor
      · exact al'
      · show m6.hNext a = q
        rw [e_nx, upd_same]
      · intro h e
        show m6.hNext h = _
        rw [e_nx, upd_ne _ _ e]; rfl
      · show m6.hRev (m.hRev c1) = _
        rw [e_rv, upd_ne _ _ o12, upd_same]; rfl
      · show m6.hRev (m.hRev c2) = _
        rw [e_rv, upd_same]; rfl
      · intro h e1 e2
        have e1 : h ≠ m.hRev c1 := e1
        have e2 : h ≠ m.hRev c2 := e2
        show m6.hRev h = _
        rw [e_rv, upd_ne _ _ e2, upd_ne _ _ e1]; rfl
      · intro h ah e
        show m6.hSrc h = _
        rw [e_sr]
        exact if_pos ((ring h).2 ⟨ah, e⟩)
      · intro h ah e
        show m6.hSrc h = _
        rw [e_sr]
        exact if_neg (fun hm => e ((ring h).1 hm).2)
      · intro h
        show m6.hFace h = _
        rw [e_fc]; rfl
      · exact va'
      · show m6.vHe (m.hSrc c2) = _
        rw [e_vh, upd_same]; rfl
      · intro e
        have e : m.hSrc q ≠ m.hSrc c2 := e
        show m6.vHe (m.hSrc q) = _
        rw [e_vh, upd_ne _ _ e, upd_same]; rfl
      · intro v e1 e2
        have e1 : v ≠ m.hSrc q := e1
        have e2 : v ≠ m.hSrc c2 := e2
        show m6.vHe v = _
        rw [e_vh, upd_ne _ _ e2, upd_ne _ _ e1]; rfl
      · exact fa'
      · show m6.fHe f = q
        rw [e_fh, upd_same]
      · intro g e
        show m6.fHe g = _
        rw [e_fh, upd_ne _ _ e]; rfl
    · exact ⟨by rw [K6.hAlive, K6.hIdx, K6.hes]; exact D5, D6, by
          rw [K6.fAlive, K6.fIdx, K6.fs, Ko.fAlive, Ko.fIdx, Ko.fs]; exact D1,
        fun h ah => by rw [e_hf]; exact w.hBound h ((al' h).1 ah).2.2.2.2, fun v hv => by rw [e_vf]; exact w.vBound v ((va' v).1 hv).2,
        fun g hg => by rw [e_ff]; exact w.fBound g ((fa' g).1 hg).2, by rw [e_hf]; exact K.h0, by rw [e_vf]; exact K.v0, by rw [e_ff]; exact K.f0⟩
    · rw [K6.vPos, pos5, hE]
    · rw [K6.vLock, Ko.vLock, K1.vLock, hE]
    · rw [e_fs]
      exact S1 i g (by rw [hE]; exact e) (by rw [hE]; exact c)
  · have hi := vD5.1
    exact removeVertex_abort vD5 (by rw [val5]; exact av) (by rw [posv]; exact hp)

theorem MergeEnd.wf [Scalar F] (w : m.WF) {m' : Mesh F} {f a b q c0 c1 c2 t : Nat} (B : Behind m f a b q c0 c1 c2 t) (R : MergeEnd m m' f a b q c0 c1 c2 t) :
    m'.WF := R.heap.wf (w.links_ok.merge R.tab B.aa B.ab B.fb B.na B.nb B.eab B.rb B.n0 B.n1 B.n2 B.ft B.tf B.bq B.vv)

end TinyMesh
