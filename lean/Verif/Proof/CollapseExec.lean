import Verif.Proof.Collapse
/-
`collapseHE`: symbolic execution.
-/
set_option linter.unusedSimpArgs false
namespace TinyMesh
open Orbit
variable {F : Type} {m m' : Mesh F}

theorem Mesh.WF.fb_false (w : m.WF) {h : Nat} (a : m.HA h) :
    (orbit m.hNext (m.fHe (m.hFace h))).any m.hBd = false ↔ ∀ x, m.HA x → m.hFace x = m.hFace h → m.hBd x = false := by
  rw [List.any_eq_false]
  constructor
  · intro h1 x ax e
    simpa using h1 x ((w.mem_loop (w.face_alive _ a)).2 ⟨ax, e⟩)
  · intro h1 x hx
    have := (w.mem_loop (w.face_alive _ a)).1 hx
    simp [h1 x this.1 this.2]

/-- unchanged by the removal of half-edges -/
structure RmOther (m m' : Mesh F) : Prop where
  nx : m'.hNext = m.hNext
  hSrc : m'.hSrc = m.hSrc
  hRev : m'.hRev = m.hRev
  hFace : m'.hFace = m.hFace
  hBd : m'.hBd = m.hBd
  vPos : m'.vPos = m.vPos
  vHe : m'.vHe = m.vHe
  vLock : m'.vLock = m.vLock
  fHe : m'.fHe = m.fHe
  indices : m'.indices = m.indices
  hFresh : m'.hFresh = m.hFresh
  vFresh : m'.vFresh = m.vFresh
  fFresh : m'.fFresh = m.fFresh
  vAlive : m'.vAlive = m.vAlive
  vIdx : m'.vIdx = m.vIdx
  vs : m'.vs = m.vs
  fAlive : m'.fAlive = m.fAlive
  fIdx : m'.fIdx = m.fIdx
  fs : m'.fs = m.fs

theorem RmOther.trans {m1 m2 m3 : Mesh F} (h : RmOther m1 m2) (h' : RmOther m2 m3) : RmOther m1 m3 := by
  constructor <;> first
    | exact h'.nx.trans h.nx | exact h'.hSrc.trans h.hSrc | exact h'.hRev.trans h.hRev
    | exact h'.hFace.trans h.hFace | exact h'.hBd.trans h.hBd | exact h'.vPos.trans h.vPos
    | exact h'.vHe.trans h.vHe | exact h'.vLock.trans h.vLock | exact h'.fHe.trans h.fHe
    | exact h'.indices.trans h.indices | exact h'.hFresh.trans h.hFresh | exact h'.vFresh.trans h.vFresh
    | exact h'.fFresh.trans h.fFresh | exact h'.vAlive.trans h.vAlive | exact h'.vIdx.trans h.vIdx
    | exact h'.vs.trans h.vs | exact h'.fAlive.trans h.fAlive | exact h'.fIdx.trans h.fIdx | exact h'.fs.trans h.fs

/-- what the removal of the half-edge `h` changes -/
structure RmH (m m' : Mesh F) (h : Nat) : Prop where
  al : m'.hAlive = upd m.hAlive h false
  o : RmOther m m'
  nx : m'.hNext = m.hNext

theorem rmH (d : Dense m.hAlive m.hIdx m.hes) {h : Nat} (a : m.hAlive h = true) :
    ∃ m', removeHalfedge h m = .ok () m' ∧ Dense m'.hAlive m'.hIdx m'.hes ∧ RmH m m' h := by
  obtain ⟨hs, ix, e, d'⟩ := removeHalfedge_ok d a
  exact ⟨_, e, d', rfl, by constructor <;> rfl, rfl⟩

/-- what the removal of the face `f` changes -/
structure RmF (m m' : Mesh F) (f : Nat) : Prop where
  al : m'.fAlive = upd m.fAlive f false
  nx : m'.hNext = m.hNext
  hSrc : m'.hSrc = m.hSrc
  hRev : m'.hRev = m.hRev
  hFace : m'.hFace = m.hFace
  hBd : m'.hBd = m.hBd
  vPos : m'.vPos = m.vPos
  vHe : m'.vHe = m.vHe
  vLock : m'.vLock = m.vLock
  fHe : m'.fHe = m.fHe
  indices : m'.indices = m.indices
  hFresh : m'.hFresh = m.hFresh
  vFresh : m'.vFresh = m.vFresh
  fFresh : m'.fFresh = m.fFresh
  vAlive : m'.vAlive = m.vAlive
  vIdx : m'.vIdx = m.vIdx
  vs : m'.vs = m.vs
  hAlive : m'.hAlive = m.hAlive
  hIdx : m'.hIdx = m.hIdx
  hes : m'.hes = m.hes

theorem rmF (d : Dense m.fAlive m.fIdx m.fs) {f : Nat} (a : m.fAlive f = true) :
    ∃ m', removeFace f m = .ok () m' ∧ Dense m'.fAlive m'.fIdx m'.fs ∧ RmF m m' f := by
  obtain ⟨hs, ix, e, d'⟩ := removeFace_ok d a
  exact ⟨_, e, d', by constructor <;> rfl⟩

/-- what the removal of the vertex `v` changes -/
structure RmV (m m' : Mesh F) (v : Nat) : Prop where
  al : m'.vAlive = upd m.vAlive v false
  nx : m'.hNext = m.hNext
  hSrc : m'.hSrc = m.hSrc
  hRev : m'.hRev = m.hRev
  hFace : m'.hFace = m.hFace
  hBd : m'.hBd = m.hBd
  vPos : m'.vPos = m.vPos
  vHe : m'.vHe = m.vHe
  vLock : m'.vLock = m.vLock
  fHe : m'.fHe = m.fHe
  indices : m'.indices = m.indices
  hFresh : m'.hFresh = m.hFresh
  vFresh : m'.vFresh = m.vFresh
  fFresh : m'.fFresh = m.fFresh
  fAlive : m'.fAlive = m.fAlive
  fIdx : m'.fIdx = m.fIdx
  fs : m'.fs = m.fs
  hAlive : m'.hAlive = m.hAlive
  hIdx : m'.hIdx = m.hIdx
  hes : m'.hes = m.hes

theorem rmV [Scalar F] (d : Dense m.vAlive m.vIdx m.vs) {v : Nat} (a : m.vAlive v = true)
    (hp : (m.vPos v).eq (m.vPos v) = true) :
    ∃ m', removeVertex v m = .ok () m' ∧ Dense m'.vAlive m'.vIdx m'.vs ∧ RmV m m' v := by
  obtain ⟨hs, ix, e, d'⟩ := removeVertex_ok d a hp
  exact ⟨_, e, d', by constructor <;> rfl⟩

set_option maxRecDepth 4000 in
theorem collapseCommit_ok [Scalar F] (w : m.WF) {he rev a b c d o0 o1 o2 o3 v0 v1 v2 v3 : Nat}
    (D : Diamond m he rev a b c d) (W : Wings m he rev a b c d o0 o1 o2 o3 v0 v1 v2 v3)
    (hb0 : (orbit m.hNext (m.fHe (m.hFace he))).any m.hBd = false)
    (hb1 : (orbit m.hNext (m.fHe (m.hFace rev))).any m.hBd = false) :
    ((m.vPos v2).eq (m.vPos v2) = true → ∃ m', collapseCommit he rev v0 v1 v2 v3 m = .ok true m' ∧
      CollapseRel m m' he rev a b c d o0 o1 o2 o3 v0 v1 v2 v3) ∧
    (¬ (m.vPos v2).eq (m.vPos v2) = true → collapseCommit he rev v0 v1 v2 v3 m = .err .abort) := by
  have A0 : m.vAlive v0 = true := by rw [← W.s]; exact w.src_alive _ D.a
  have A1 : m.vAlive v1 = true := by rw [← W.sb]; exact w.src_alive _ D.a1
  have A2 : m.vAlive v2 = true := by rw [← W.sr]; exact w.src_alive _ D.ar
  have A3 : m.vAlive v3 = true := by rw [← W.sd]; exact w.src_alive _ D.a3
  have F0 := w.face_alive _ D.a
  have F1 := w.face_alive _ D.ar
  have hvv : (v2 != v0) = true := by simpa using W.v02.symm
  have L1 : circ ringStep (m.vHe v2) () (fun x _ => do
      let s ← getSrc x
      M.assert (s == v2)
      setSrc x v0
      pure (false, ())) m = .ok () { m with hSrc := fun x => if x ∈ orbit m.sig (m.vHe v2) then v0 else m.hSrc x } := by
    refine (w.circ_ring_eq A2 ⟨rfl, rfl, rfl, rfl⟩ ?_ ()).trans ?_
    · intro m1 s x hx bb r m' hr
      have hx' : m1.hAlive x = true := by rw [s.al]; exact hx
      simp only [bind_apply, getSrc_ok hx'] at hr
      by_cases h1 : (m1.hSrc x == v2) = true
      · simp only [assert_true h1, setSrc, hx', if_true, pure_apply] at hr
        injection hr with _ hr
        rw [← hr]
        exact ⟨s.al, s.nx, s.rv, s.fr⟩
      · simp [M.assert, h1] at hr
    · exact fold_setSrc v0 v2 _ m (w.permSig.nodup_orbit (w.vHe_ok _ A2).1)
        (fun x hx => ((w.mem_ring A2).1 hx).1) (fun x hx => ((w.mem_ring A2).1 hx).2)
  obtain ⟨Sr, hSr⟩ : ∃ S, S = fun x => if x ∈ orbit m.sig (m.vHe v2) then v0 else m.hSrc x := ⟨_, rfl⟩
  rw [← hSr] at L1
  have SO : ∀ h, m.hAlive h = true → Sr h = if m.hSrc h = v2 then v0 else m.hSrc h := by
    intro h ah
    rw [hSr]
    simp only [w.mem_ring A2]
    by_cases e : m.hSrc h = v2 <;> simp [e, ah]
  have L2 : circ ringStep (m.vHe v0) () (fun x _ => do
      let s ← getSrc x
      M.assert (s == v0)
      pure (false, ())) { m with hSrc := Sr } = .ok () { m with hSrc := Sr } := by
    refine (w.circ_ring_eq A0 (m1 := { m with hSrc := Sr }) ⟨rfl, rfl, rfl, rfl⟩ ?_ ()).trans ?_
    · intro m1 s x hx bb r m' hr
      have hx' : m1.hAlive x = true := by rw [s.al]; exact hx
      simp only [bind_apply, getSrc_ok hx'] at hr
      by_cases h1 : (m1.hSrc x == v0) = true
      · simp only [assert_true h1, pure_apply] at hr
        injection hr with _ hr
        rw [← hr]
        exact s
      · simp [M.assert, h1] at hr
    · refine fold_checkSrc v0 _ _ (fun x hx => ((w.mem_ring A0).1 hx).1) (fun x hx => ?_)
      have := (w.mem_ring A0).1 hx
      show Sr x = v0
      rw [SO x this.1, this.2]; simp
  obtain ⟨R, hR⟩ : ∃ R, R = upd (upd (upd (upd m.hRev o0 o1) o1 o0) o2 o3) o3 o2 := ⟨_, rfl⟩
  obtain ⟨V, hV⟩ : ∃ V, V = upd (upd (upd (upd (upd m.vHe v0 o0) v0 o0) v1 o1) v2 o2) v3 o3 := ⟨_, rfl⟩
  have B0 : ∀ m1 : Mesh F, m1.hAlive = m.hAlive → m1.hNext = m.hNext → m1.hFresh = m.hFresh → m1.hBd = m.hBd →
     m1.fHe = m.fHe → m1.fAlive = m.fAlive → fIsBoundary (m.hFace he) m1 = .ok false m1 := by
    intro m1 e1 e2 e3 e4 e5 e6
    rw [w.fIsBoundary_ok' F0 e1 e2 e3 e4 e5 e6, hb0]
  have B1 : ∀ m1 : Mesh F, m1.hAlive = m.hAlive → m1.hNext = m.hNext → m1.hFresh = m.hFresh → m1.hBd = m.hBd →
     m1.fHe = m.fHe → m1.fAlive = m.fAlive → fIsBoundary (m.hFace rev) m1 = .ok false m1 := by
    intro m1 e1 e2 e3 e4 e5 e6
    rw [w.fIsBoundary_ok' F1 e1 e2 e3 e4 e5 e6, hb1]
  -- the removals
  obtain ⟨m1, hm1⟩ : ∃ m1 : Mesh F, m1 = { m with
    hSrc := Sr
    hRev := R
    vHe := V } := ⟨_, rfl⟩
  have aA : m.hAlive he = true := D.a
  have aR : m.hAlive rev = true := D.ar
  have aa : m.hAlive a = true := D.a0
  have ab : m.hAlive b = true := D.a1
  have ac : m.hAlive c = true := D.a2
  have ad : m.hAlive d = true := D.a3
  have ao0 : m.hAlive o0 = true := W.a0
  have ao1 : m.hAlive o1 = true := W.a1
  have ao2 : m.hAlive o2 = true := W.a2
  have ao3 : m.hAlive o3 = true := W.a3
  have hpre : collapseCommit he rev v0 v1 v2 v3 m = (do
      removeHalfedge b
      let a1' ← getNext he
      removeHalfedge a1'
      removeHalfedge he
      let c1 ← getNext rev
      let c2 ← getNext c1
      removeHalfedge c2
      let c1' ← getNext rev
      removeHalfedge c1'
      removeHalfedge rev
      removeFace (m.hFace he)
      removeFace (m.hFace rev)
      removeVertex v2
      return true : M F Bool) m1 := by
    unfold collapseCommit
    simp only [bind_apply, assertVIdx_ok w.vDense A0, assertVIdx_ok w.vDense A2, assert_true hvv, getVHe_ok A2, L1]
    have gv0 : getVHe v0 { m with hSrc := Sr } = .ok (m.vHe v0) { m with hSrc := Sr } := by simp [getVHe, A0]
    simp only [gv0, L2]
    have db : ¬ d = o0 := W.q0.2.2.2.2.2.symm
    have db1 : ¬ d = o1 := W.q1.2.2.2.2.2.symm
    have cb : ¬ c = o0 := W.q0.2.2.2.2.1.symm
    have cb1 : ¬ c = o1 := W.q1.2.2.2.2.1.symm
    have ca : ¬ b = a := D.d10.symm
    simp only [getNext, getRev, getFace, aA, aa, ab, ac, ad, aR, if_true, D.n, D.n0, D.nr, D.n2, W.r0, W.r1, setRev,
      ao0, ao1, ao2, ao3, upd, db, db1, cb, cb1, if_false, W.r2, W.r3, setVHe, A0, A1, A2, A3]
    have q0 := B0 m1 (by rw [hm1]) (by rw [hm1]) (by rw [hm1]) (by rw [hm1]) (by rw [hm1]) (by rw [hm1])
    have q1 := B1 m1 (by rw [hm1]) (by rw [hm1]) (by rw [hm1]) (by rw [hm1]) (by rw [hm1]) (by rw [hm1])
    rw [← hR, ← hV, ← hm1]
    simp only [q0, q1, Bool.not_false, assert_true]
    have e1 : m1.hAlive = m.hAlive := by rw [hm1]
    have e2 : m1.hNext = m.hNext := by rw [hm1]
    simp only [e1, e2, aA, aa, D.n, D.n0, if_true]
  rw [hpre]
  have hd0 : Dense m1.hAlive m1.hIdx m1.hes := by rw [hm1]; exact w.hDense
  have fd0 : Dense m1.fAlive m1.fIdx m1.fs := by rw [hm1]; exact w.fDense
  have vd0 : Dense m1.vAlive m1.vIdx m1.vs := by rw [hm1]; exact w.vDense
  have hal0 : m1.hAlive = m.hAlive := by rw [hm1]
  have hnx0 : m1.hNext = m.hNext := by rw [hm1]
  have hfal : m1.fAlive = m.fAlive := by rw [hm1]
  have hval : m1.vAlive = m.vAlive := by rw [hm1]
  have hps : m1.vPos = m.vPos := by rw [hm1]
  obtain ⟨m2, q2, D2, K2⟩ := rmH hd0 (h := b) (by rw [hal0]; exact ab)
  have al2 : ∀ x, m2.hAlive x = upd m.hAlive b false x := by rw [K2.al, hal0]; exact fun _ => rfl
  have g2 : getNext he m2 = .ok a m2 := by
    rw [getNext_ok (by simp [al2, upd, D.d3, aA]), K2.nx, hnx0, D.n]
  obtain ⟨m3, q3, D3, K3⟩ := rmH D2 (h := a) (by simp [al2, upd, D.d10, aa])
  have al3 : ∀ x, m3.hAlive x = upd m2.hAlive a false x := by rw [K3.al]; exact fun _ => rfl
  obtain ⟨m4, q4, D4, K4⟩ := rmH D3 (h := he) (by simp [al3, al2, upd, D.d3, D.d2, aA])
  have al4 : ∀ x, m4.hAlive x = upd m3.hAlive he false x := by rw [K4.al]; exact fun _ => rfl
  have nx4 : m4.hNext = m.hNext := by rw [K4.nx, K3.nx, K2.nx, hnx0]
  have g4 : getNext rev m4 = .ok c m4 := by
    rw [getNext_ok (by simp [al4, al3, al2, upd, D.d1.symm, D.d6, D.d7, aR]), nx4, D.nr]
  have g4' : getNext c m4 = .ok d m4 := by
    rw [getNext_ok (by simp [al4, al3, al2, upd, D.d4.symm, D.d11.symm, D.d13.symm, ac]), nx4, D.n2]
  obtain ⟨m5, q5, D5, K5⟩ := rmH D4 (h := d) (by simp [al4, al3, al2, upd, D.d14.symm, D.d12.symm, D.d5.symm, ad])
  have al5 : ∀ x, m5.hAlive x = upd m4.hAlive d false x := by rw [K5.al]; exact fun _ => rfl
  have g5 : getNext rev m5 = .ok c m5 := by
    rw [getNext_ok (by simp [al5, al4, al3, al2, upd, D.d1.symm, D.d6, D.d7, D.d9, aR]), K5.nx, nx4, D.nr]
  obtain ⟨m6, q6, D6, K6⟩ := rmH D5 (h := c) (by
    simp [al5, al4, al3, al2, upd, D.d13.symm, D.d11.symm, D.d4.symm, D.d15, ac])
  have al6 : ∀ x, m6.hAlive x = upd m5.hAlive c false x := by rw [K6.al]; exact fun _ => rfl
  obtain ⟨m7, q7, D7, K7⟩ := rmH D6 (h := rev) (by
    simp [al6, al5, al4, al3, al2, upd, D.d7, D.d6, D.d1.symm, D.d9, D.d8, aR])
  have al7 : ∀ x, m7.hAlive x = upd m6.hAlive rev false x := by rw [K7.al]; exact fun _ => rfl
  have K : RmOther m1 m7 := K2.o.trans (K3.o.trans (K4.o.trans (K5.o.trans (K6.o.trans K7.o))))
  obtain ⟨m8, q8, D8, K8⟩ := rmF (m := m7) (by rw [K.fAlive, K.fIdx, K.fs]; exact fd0) (f := m.hFace he) (by
    rw [K.fAlive, hfal]; exact F0)
  obtain ⟨m9, q9, D9, K9⟩ := rmF (m := m8) D8 (f := m.hFace rev) (by
    rw [K8.al, K.fAlive, hfal]; simp [upd, D.dface.symm, F1])
  have val9 : m9.vAlive = m.vAlive := by rw [K9.vAlive, K8.vAlive, K.vAlive, hval]
  have pos9 : m9.vPos = m.vPos := by rw [K9.vPos, K8.vPos, K.vPos, hps]
  have vd9 : Dense m9.vAlive m9.vIdx m9.vs := by
    rw [val9, K9.vIdx, K8.vIdx, K.vIdx, K9.vs, K8.vs, K.vs, ← hval]; exact vd0
  simp only [bind_apply, q2, g2, q3, q4, g4, g4', q5, g5, q6, q7, q8, q9]
  constructor
  · intro hp
    obtain ⟨ml, ql, Dl, Kl⟩ := rmV vd9 (v := v2) (by rw [val9]; exact A2) (by rw [pos9]; exact hp)
    simp only [ql]
    refine ⟨ml, rfl, ?_⟩
    have hale : ∀ x, ml.hAlive x = upd (upd (upd (upd (upd (upd m.hAlive b false) a false) he false) d false) c false) rev false x := by
      intro x
      rw [Kl.hAlive, K9.hAlive, K8.hAlive, al7]
      simp only [upd, al6, al5, al4, al3, al2]
    constructor
    · intro h
      rw [hale]
      simp only [upd]
      clear * -
      constructor
      · intro hh
        split at hh <;> [cases hh; skip]
        split at hh <;> [cases hh; skip]
        split at hh <;> [cases hh; skip]
        split at hh <;> [cases hh; skip]
        split at hh <;> [cases hh; skip]
        split at hh <;> [cases hh; skip]
        refine ⟨hh, ?_, ?_, ?_, ?_, ?_, ?_⟩ <;> assumption
      · rintro ⟨h1, h2, h3, h4, h5, h6, h7⟩
        simp [h1, h2, h3, h4, h5, h6, h7]
    · intro v
      rw [Kl.al, val9]
      by_cases h : v = v2 <;> simp [upd, h]
    · intro f
      rw [Kl.fAlive, K9.al, K8.al, K.fAlive, hfal]
      by_cases h : f = m.hFace he <;> by_cases h' : f = m.hFace rev <;> simp [upd, h, h']
    · rw [Kl.hFresh, K9.hFresh, K8.hFresh, K.hFresh, hm1]
    · rw [Kl.vFresh, K9.vFresh, K8.vFresh, K.vFresh, hm1]
    · rw [Kl.fFresh, K9.fFresh, K8.fFresh, K.fFresh, hm1]
    · rw [Kl.hAlive, Kl.hIdx, Kl.hes, K9.hAlive, K9.hIdx, K9.hes, K8.hAlive, K8.hIdx, K8.hes]; exact D7
    · exact Dl
    · rw [Kl.fAlive, Kl.fIdx, Kl.fs]; exact D9
    · rw [Kl.nx, K9.nx, K8.nx, K.nx, hnx0]
    · rw [Kl.hFace, K9.hFace, K8.hFace, K.hFace, hm1]
    · rw [Kl.hBd, K9.hBd, K8.hBd, K.hBd, hm1]
    · rw [Kl.hSrc, K9.hSrc, K8.hSrc, K.hSrc, hm1]; exact SO
    · rw [Kl.hRev, K9.hRev, K8.hRev, K.hRev, hm1]
      simp only [hR, upd, W.p01, W.p02, W.p03, if_false, if_true]
    · rw [Kl.hRev, K9.hRev, K8.hRev, K.hRev, hm1]
      simp only [hR, upd, W.p12, W.p13, if_false, if_true]
    · rw [Kl.hRev, K9.hRev, K8.hRev, K.hRev, hm1]
      simp only [hR, upd, W.p23, if_false, if_true]
    · rw [Kl.hRev, K9.hRev, K8.hRev, K.hRev, hm1]
      simp only [hR, upd, if_false, if_true]
    · intro h h0 h1 h2 h3
      rw [Kl.hRev, K9.hRev, K8.hRev, K.hRev, hm1]
      simp only [hR, upd, h0, h1, h2, h3, if_false]
    · rw [Kl.fHe, K9.fHe, K8.fHe, K.fHe, hm1]
    · rw [Kl.vHe, K9.vHe, K8.vHe, K.vHe, hm1]
      simp only [hV, upd, W.v01, W.v02, W.v03, if_false, if_true]
    · rw [Kl.vHe, K9.vHe, K8.vHe, K.vHe, hm1]
      simp only [hV, upd, W.v12, W.v13, if_false, if_true]
    · rw [Kl.vHe, K9.vHe, K8.vHe, K.vHe, hm1]
      simp only [hV, upd, if_false, if_true]
    · intro h h0 h1 h2 h3
      rw [Kl.vHe, K9.vHe, K8.vHe, K.vHe, hm1]
      simp only [hV, upd, h0, h1, h2, h3, if_false]
    · rw [Kl.vPos, pos9]
    · rw [Kl.vLock, K9.vLock, K8.vLock, K.vLock, hm1]
    · rw [Kl.indices, K9.indices, K8.indices, K.indices, hm1]
  · intro hp
    rw [removeVertex_abort vd9 (v := v2) (by rw [val9]; exact A2) (by rw [pos9]; exact hp)]

/-- the end points of the half-edges leaving `v`, in circulation order -/
noncomputable def Mesh.nbrs (m : Mesh F) (v : Nat) : List Nat :=
  (orbit m.sig (m.vHe v)).map (fun x => m.hSrc (m.hNext x))

/-- the tests of `collapseHE` -/
structure CollapseGuard [Scalar F] (m : Mesh F) (he rev : Nat) : Prop where
  b0 : ∀ x, m.HA x → m.hFace x = m.hFace he → m.hBd x = false
  b1 : ∀ x, m.HA x → m.hFace x = m.hFace rev → m.hBd x = false
  d0 : 3 < m.outDeg (m.hSrc he)
  d1 : 4 < m.outDeg (m.hSrc (m.hNext (m.hNext he)))
  d2 : 3 < m.outDeg (m.hSrc rev)
  d3 : 4 < m.outDeg (m.hSrc (m.hNext (m.hNext rev)))
  link : ((m.nbrs (m.hSrc he)).filter (fun d => (m.nbrs (m.hSrc rev)).contains d)).length = 2
  geom : collapseGeomOK (m.vPos (m.hSrc he)) (m.vPos (m.hSrc rev)) ((m.nbrs (m.hSrc rev)).map m.vPos) = some true

theorem collapseGeomOK_ne_none [Scalar F] (p0 p2 : Vec3 F) (ps : List (Vec3 F)) : collapseGeomOK p0 p2 ps ≠ none := by
  unfold collapseGeomOK Vec3.normalize? Vec3.div?
  by_cases h : Scalar.eq (Vec3.length (sumCross p2 ps)) (Scalar.lit 0 1) = true <;> simp [h]

theorem Mesh.TriOrHole.onTri (tr : m.TriOrHole) {h : Nat} (a : m.HA h) (hb : m.hBd h = false) : m.OnTri h := by
  rcases tr.holds h a with h1 | h1
  · exact h1
  · have := (h1 h a rfl).1; rw [hb] at this; cases this

theorem collapseTail_ok [Scalar F] (g : m.Good) {he rev : Nat} (a : m.HA he) (hr : m.hRev he = rev) :
    (¬ CollapseGuard m he rev → collapseTail he rev m = .ok false m) ∧
    (CollapseGuard m he rev → m.OnTri he ∧ m.OnTri rev ∧
      collapseTail he rev m = collapseCommit he rev (m.hSrc he) (m.hSrc (m.hNext (m.hNext he))) (m.hSrc rev)
        (m.hSrc (m.hNext (m.hNext rev))) m) := by
  have w := g.wf
  have ar : m.HA rev := hr ▸ w.rev_alive _ a
  have a0 := w.next_alive _ a
  have a1 := w.next_alive _ a0
  have a2 := w.next_alive _ ar
  have a3 := w.next_alive _ a2
  have A0 := w.src_alive _ a
  have A1 := w.src_alive _ a1
  have A2 := w.src_alive _ ar
  have A3 := w.src_alive _ a3
  have hh : ∀ P : Prop, ∀ X : Out F Bool, ∀ Y : Prop,
      (¬ CollapseGuard m he rev ∧ X = .ok false m) → (¬ CollapseGuard m he rev → X = .ok false m) ∧
    (CollapseGuard m he rev → Y) := fun P X Y h => ⟨fun _ => h.2, fun k => absurd k h.1⟩
  unfold collapseTail
  simp only [bind_apply, getFace_ok a, w.fIsBoundary_ok (w.face_alive _ a)]
  cases h0 : (orbit m.hNext (m.fHe (m.hFace he))).any m.hBd with
  | true =>
    refine hh True _ _ ⟨?_, by simp⟩
    intro G
    have := (w.fb_false a).2 G.b0
    rw [h0] at this; cases this
  | false =>
  simp only [Bool.false_eq_true, if_false, bind_apply, getRev_ok a, hr, getFace_ok ar, w.fIsBoundary_ok (w.face_alive _ ar)]
  cases h1 : (orbit m.hNext (m.fHe (m.hFace rev))).any m.hBd with
  | true =>
    refine hh True _ _ ⟨?_, by simp⟩
    intro G
    have := (w.fb_false ar).2 G.b1
    rw [h1] at this; cases this
  | false =>
  have H0 := (w.fb_false a).1 h0
  have H1 := (w.fb_false ar).1 h1
  have t := g.tri.onTri a (H0 he a rfl)
  have t' := g.tri.onTri ar (H1 rev ar rfl)
  simp only [Bool.false_eq_true, if_false, bind_apply, getSrc_ok a, w.getPrev_tri a t, getSrc_ok a1, getSrc_ok ar,
    w.getPrev_tri ar t', getSrc_ok a3, assertVIdx_ok w.vDense A0, assertVIdx_ok w.vDense A1, assertVIdx_ok w.vDense A2,
    assertVIdx_ok w.vDense A3, w.degree_ok A0]
  by_cases c0 : m.outDeg (m.hSrc he) ≤ 3
  · refine hh True _ _ ⟨fun G => ?_, by simp [c0]⟩
    have := G.d0; omega
  simp only [c0, if_false, bind_apply, w.degree_ok A1]
  by_cases c1 : m.outDeg (m.hSrc (m.hNext (m.hNext he))) ≤ 4
  · refine hh True _ _ ⟨fun G => ?_, by simp [c1]⟩
    have := G.d1; omega
  simp only [c1, if_false, bind_apply, w.degree_ok A2]
  by_cases c2 : m.outDeg (m.hSrc rev) ≤ 3
  · refine hh True _ _ ⟨fun G => ?_, by simp [c2]⟩
    have := G.d2; omega
  simp only [c2, if_false, bind_apply, w.degree_ok A3]
  by_cases c3 : m.outDeg (m.hSrc (m.hNext (m.hNext rev))) ≤ 4
  · refine hh True _ _ ⟨fun G => ?_, by simp [c3]⟩
    have := G.d3; omega
  have hn : ∀ v, m.vAlive v = true → ringDsts v m = .ok (m.nbrs v) m := fun v hv => w.ringDsts_ok hv
  have hne : (!(m.nbrs (m.hSrc rev)).isEmpty) = true := by
    have : (m.nbrs (m.hSrc rev)).length = m.outDeg (m.hSrc rev) := by
      unfold Mesh.nbrs; rw [List.length_map, w.ring_length A2]
    cases hl : m.nbrs (m.hSrc rev) with
    | nil => rw [hl] at this; simp at this; omega
    | cons => simp
  have hva : ∀ v ∈ m.nbrs (m.hSrc rev), m.vAlive v = true := by
    intro v hv
    unfold Mesh.nbrs at hv
    rw [List.mem_map] at hv
    obtain ⟨x, hx, rfl⟩ := hv
    exact w.src_alive _ (w.next_alive _ ((w.mem_ring A2).1 hx).1)
  simp only [c3, if_false, bind_apply, hn _ A2, assert_true hne, hn _ A0]
  by_cases c4 : ((m.nbrs (m.hSrc he)).filter (fun d => (m.nbrs (m.hSrc rev)).contains d)).length ≠ 2
  · refine hh True _ _ ⟨fun G => c4 G.link, by rw [if_pos c4]; simp⟩
  rw [if_neg c4]
  simp only [bind_apply, getPos_ok A0, getPos_ok A2, getPosList_ok _ hva]
  cases hg : collapseGeomOK (m.vPos (m.hSrc he)) (m.vPos (m.hSrc rev)) ((m.nbrs (m.hSrc rev)).map m.vPos) with
  | none => exact absurd hg (collapseGeomOK_ne_none _ _ _)
  | some r =>
    cases r with
    | false =>
      refine hh True _ _ ⟨fun G => ?_, by simp⟩
      rw [G.geom] at hg; cases hg
    | true =>
      refine ⟨fun G => absurd ⟨H0, H1, by omega, by omega, by omega, by omega, not_not.1 c4, hg⟩ G, fun _ => ⟨t, t', rfl⟩⟩

/-- `collapseHE h` removes the end point `rev` of the edge `he`. -/
def CollapseStep [Scalar F] (m : Mesh F) (h he rev : Nat) : Prop :=
    ((he = h ∧ rev = m.hRev h) ∨ (he = m.hRev h ∧ rev = h)) ∧
      m.outDeg (m.hSrc he) ≤ m.outDeg (m.hSrc rev) ∧ CollapseGuard m he rev ∧
      ∃ a b c d o0 o1 o2 o3 v0 v1 v2 v3, Diamond m he rev a b c d ∧
        Wings m he rev a b c d o0 o1 o2 o3 v0 v1 v2 v3 ∧
        (((m.vPos v2).eq (m.vPos v2) = true ∧ ∃ m', collapseHE h m = .ok true m' ∧
          CollapseRel m m' he rev a b c d o0 o1 o2 o3 v0 v1 v2 v3) ∨
        (¬ (m.vPos v2).eq (m.vPos v2) = true ∧ collapseHE h m = .err .abort))

/-- Every outcome of `collapseHE` on a mesh on which the library works. -/
theorem collapseHE_cases [Scalar F] (g : m.Good) {h : Nat} (a : m.HA h) :
    collapseHE h m = .ok false m ∨ ∃ he rev, CollapseStep m h he rev := by
  have w := g.wf
  have key : ∀ he rev, m.HA he → m.hRev he = rev → collapseHE h m = collapseTail he rev m →
      ((he = h ∧ rev = m.hRev h) ∨ (he = m.hRev h ∧ rev = h)) → m.outDeg (m.hSrc he) ≤ m.outDeg (m.hSrc rev) →
      collapseHE h m = .ok false m ∨ ∃ he rev, CollapseStep m h he rev := by
    intro he rev ah hr he1 he2 he3
    obtain ⟨k1, k2⟩ := collapseTail_ok g ah hr
    by_cases G : CollapseGuard m he rev
    · right
      obtain ⟨t, t', e⟩ := k2 G
      have D := Diamond.mk' w g.simple ah t (hr ▸ t')
      rw [hr] at D
      have W := Wings.mk' w g.simple D (by have := G.d2; omega)
      have c := collapseCommit_ok w D W ((w.fb_false ah).2 G.b0) ((w.fb_false D.ar).2 G.b1)
      refine ⟨he, rev, he2, he3, G, _, _, _, _, _, _, _, _, _, _, _, _, D, W, ?_⟩
      rw [he1, e]
      by_cases hp : (m.vPos (m.hSrc rev)).eq (m.vPos (m.hSrc rev)) = true
      · exact Or.inl ⟨hp, c.1 hp⟩
      · exact Or.inr ⟨hp, c.2 hp⟩
    · left; rw [he1, k1 G]
  have e := collapseHE_tail w a
  by_cases h1 : m.outDeg (m.hSrc h) > m.outDeg (m.hSrc (m.hRev h))
  · rw [if_pos h1] at e
    exact key (m.hRev h) h (w.rev_alive _ a) (w.rev_rev _ a) e (Or.inr ⟨rfl, rfl⟩) (by omega)
  · rw [if_neg h1] at e
    exact key h (m.hRev h) a rfl e (Or.inl ⟨rfl, rfl⟩) (by omega)

end TinyMesh
