import Verif.Proof.Flip
/-
`splitHE`: the state it produces, and consistency of that state.
-/
set_option linter.unusedSimpArgs false
namespace TinyMesh
open Orbit
variable {F : Type} {m m' : Mesh F}

theorem Dense.push {alive : Nat → Bool} {idx : Nat → Int} {l : List Nat} (d : Dense alive idx l) {x : Nat}
    (hx : alive x = false) : Dense (upd alive x true) (upd idx x (l.length : Int)) (l ++ [x]) := by
  have hxl : x ∉ l := fun h => by rw [d.mem] at h; simp [h] at hx
  refine ⟨?_, ?_, ?_⟩
  · rw [List.nodup_append]
    exact ⟨d.nodup, by simp, by intro a ha b hb e; rw [List.mem_singleton] at hb; subst hb; exact hxl (e ▸ ha)⟩
  · intro p
    rw [List.mem_append, d.mem]
    by_cases h : p = x <;> simp [upd, h, hx]
  · intro i hi
    rw [List.length_append] at hi
    by_cases h : i < l.length
    · rw [List.getElem_append_left h]
      have : l[i] ≠ x := fun e => hxl (e ▸ List.getElem_mem h)
      simp [upd, this, d.idx i h]
    · have : i = l.length := by simp at hi; omega
      subst this
      simp [upd]

theorem Dense.congr {alive alive' : Nat → Bool} {idx idx' : Nat → Int} {l : List Nat} (d : Dense alive idx l)
    (h1 : ∀ p, alive' p = alive p) (h2 : ∀ p, alive p = true → idx' p = idx p) : Dense alive' idx' l := by
  refine ⟨d.nodup, fun p => by rw [d.mem, h1], fun i hi => ?_⟩
  rw [h2 _ ((d.mem _).1 (List.getElem_mem hi)), d.idx i hi]

/-- capacity and number of reallocations after appending -/
def pushCap (n cap : Nat) (grow : Nat → Nat) : Nat := if n < cap then cap else max (grow n) (n + 1)
def pushEpoch (n cap ep : Nat) : Nat := if n < cap then ep else ep + 1

theorem addHalfedge_ok {h : Nat} {m : Mesh F} (a : m.hAlive h = true) :
    addHalfedge h m = .ok () { m with
      hIdx := upd m.hIdx h (m.hes.length : Int)
      hes := m.hes ++ [h]
      hCap := pushCap m.hes.length m.hCap m.grow
      hEpoch := pushEpoch m.hes.length m.hCap m.hEpoch } := by
  unfold addHalfedge pushCap pushEpoch
  simp only [bind_apply, read_apply, setHIdx, a, if_true, pushHalfedge]
  split <;> rfl

theorem addFace_ok {f : Nat} {m : Mesh F} (a : m.fAlive f = true) :
    addFace f m = .ok () { m with fIdx := upd m.fIdx f (m.fs.length : Int), fs := m.fs ++ [f] } := by
  simp [addFace, Bind.bind, M.bind, M.read, setFIdx, a]

theorem addVertex_ok {v : Nat} {m : Mesh F} (a : m.vAlive v = true) :
    addVertex v m = .ok () { m with vIdx := upd m.vIdx v (m.vs.length : Int), vs := m.vs ++ [v] } := by
  simp [addVertex, Bind.bind, M.bind, M.read, setVIdx, a]

/-- How the state after splitting the edge `he` is related to the one before. -/
structure SplitRel [Scalar F] (m m' : Mesh F) (he rev he0 he1 he2 he3 : Nat) : Prop where
  hal : ∀ h, m'.hAlive h = true ↔ m.hAlive h = true ∨ h = m.hFresh ∨ h = m.hFresh + 1 ∨ h = m.hFresh + 2 ∨
    h = m.hFresh + 3 ∨ h = m.hFresh + 4 ∨ h = m.hFresh + 5
  val : ∀ v, m'.vAlive v = true ↔ m.vAlive v = true ∨ v = m.vFresh
  fal : ∀ f, m'.fAlive f = true ↔ m.fAlive f = true ∨ f = m.fFresh ∨ f = m.fFresh + 1
  hfr : m'.hFresh = m.hFresh + 6
  vfr : m'.vFresh = m.vFresh + 1
  ffr : m'.fFresh = m.fFresh + 2
  hd : Dense m'.hAlive m'.hIdx m'.hes
  vd : Dense m'.vAlive m'.vIdx m'.vs
  fd : Dense m'.fAlive m'.fIdx m'.fs
  hes : m'.hes = m.hes ++ [m.hFresh, m.hFresh + 3, m.hFresh + 1, m.hFresh + 2, m.hFresh + 4, m.hFresh + 5]
  vs : m'.vs = m.vs ++ [m.vFresh]
  fs : m'.fs = m.fs ++ [m.fFresh, m.fFresh + 1]
  N_ : m'.hNext he = he0
  N0 : m'.hNext he0 = m.hFresh + 1
  N01 : m'.hNext (m.hFresh + 1) = he
  Nn : m'.hNext m.hFresh = m.hFresh + 2
  N02 : m'.hNext (m.hFresh + 2) = he1
  N1 : m'.hNext he1 = m.hFresh
  Nr : m'.hNext rev = m.hFresh + 4
  N11 : m'.hNext (m.hFresh + 4) = he3
  N3 : m'.hNext he3 = rev
  Nrn : m'.hNext (m.hFresh + 3) = he2
  N2 : m'.hNext he2 = m.hFresh + 5
  N12 : m'.hNext (m.hFresh + 5) = m.hFresh + 3
  NO : ∀ h, m.hAlive h = true → h ≠ he → h ≠ rev → h ≠ he0 → h ≠ he1 → h ≠ he2 → h ≠ he3 → m'.hNext h = m.hNext h
  Rn : m'.hRev m.hFresh = m.hFresh + 3
  R1 : m'.hRev (m.hFresh + 1) = m.hFresh + 2
  R2 : m'.hRev (m.hFresh + 2) = m.hFresh + 1
  R3 : m'.hRev (m.hFresh + 3) = m.hFresh
  R4 : m'.hRev (m.hFresh + 4) = m.hFresh + 5
  R5 : m'.hRev (m.hFresh + 5) = m.hFresh + 4
  RO : ∀ h, m.hAlive h = true → m'.hRev h = m.hRev h
  F_ : m'.hFace he = m.hFace he
  F0 : m'.hFace he0 = m.hFace he
  F01 : m'.hFace (m.hFresh + 1) = m.hFace he
  Fn : m'.hFace m.hFresh = m.fFresh
  F02 : m'.hFace (m.hFresh + 2) = m.fFresh
  F1 : m'.hFace he1 = m.fFresh
  Fr : m'.hFace rev = m.hFace rev
  F11 : m'.hFace (m.hFresh + 4) = m.hFace rev
  F3 : m'.hFace he3 = m.hFace rev
  Frn : m'.hFace (m.hFresh + 3) = m.fFresh + 1
  F2 : m'.hFace he2 = m.fFresh + 1
  F12 : m'.hFace (m.hFresh + 5) = m.fFresh + 1
  FO : ∀ h, m.hAlive h = true → h ≠ he → h ≠ rev → h ≠ he0 → h ≠ he1 → h ≠ he2 → h ≠ he3 → m'.hFace h = m.hFace h
  S_ : m'.hSrc he = m.vFresh
  S01 : m'.hSrc (m.hFresh + 1) = m.hSrc he1
  Sn : m'.hSrc m.hFresh = m.hSrc he
  S02 : m'.hSrc (m.hFresh + 2) = m.vFresh
  S11 : m'.hSrc (m.hFresh + 4) = m.vFresh
  Srn : m'.hSrc (m.hFresh + 3) = m.vFresh
  S12 : m'.hSrc (m.hFresh + 5) = m.hSrc he3
  SO : ∀ h, m.hAlive h = true → h ≠ he → m'.hSrc h = m.hSrc h
  B : ∀ h, m.hAlive h = true → m'.hBd h = m.hBd h
  BN : ∀ i, i < 6 → m'.hBd (m.hFresh + i) = false
  FH0 : m'.fHe (m.hFace he) = he
  FH1 : m'.fHe (m.hFace rev) = rev
  FHn : m'.fHe m.fFresh = m.hFresh
  FHr : m'.fHe (m.fFresh + 1) = m.hFresh + 3
  FHO : ∀ f, m.fAlive f = true → f ≠ m.hFace he → f ≠ m.hFace rev → m'.fHe f = m.fHe f
  VH0 : m'.vHe (m.hSrc he) = he2
  VH1 : m'.vHe (m.hSrc rev) = he0
  VHn : m'.vHe m.vFresh = he
  VHO : ∀ v, m.vAlive v = true → v ≠ m.hSrc he → v ≠ m.hSrc rev → m'.vHe v = m.vHe v
  posN : m'.vPos m.vFresh = Vec3.smul (Scalar.lit 1 2) (Vec3.add (m.vPos (m.hSrc he)) (m.vPos (m.hSrc rev)))
  pos : ∀ v, m.vAlive v = true → m'.vPos v = m.vPos v
  lockN : m'.vLock m.vFresh = false
  lock : ∀ v, m.vAlive v = true → m'.vLock v = m.vLock v

/-- the part of `splitHE` after the exchange of the two half-edges -/
def splitTail [Scalar F] (he rev v0 v1 : Nat) : M F Bool := do
  let d0 ← degree v0
  if d0 < 3 then return false
  let d1 ← degree v1
  if d1 < 3 then return false
  let b0 ← getBd he
  if b0 then return false
  let r ← getRev he
  let b1 ← getBd r
  if b1 then return false
  let he_new ← newHalfedge
  let he01 ← newHalfedge
  let he02 ← newHalfedge
  let rev_new ← newHalfedge
  let he11 ← newHalfedge
  let he12 ← newHalfedge
  let he0 ← getNext he
  let he1 ← getNext he0
  let he2 ← getNext rev
  let he3 ← getNext he2
  let f0 ← getFace he
  let f1 ← getFace rev
  let f0_new ← newFace
  let f1_new ← newFace
  let v2 ← getSrc he1
  let v3 ← getSrc he3
  let ps ← getSrc he
  let pp ← getPos ps
  let pd ← getDst he
  let pq ← getPos pd
  let v_new ← newVertex (Vec3.smul (Scalar.lit 1 2) (Vec3.add pp pq))
  setNext he he0
  setNext he0 he01
  setNext he01 he
  setNext he_new he02
  setNext he02 he1
  setNext he1 he_new
  setNext rev he11
  setNext he11 he3
  setNext he3 rev
  setNext rev_new he2
  setNext he2 he12
  setNext he12 rev_new
  setRev he rev
  setRev rev he
  setRev he_new rev_new
  setRev rev_new he_new
  setRev he01 he02
  setRev he02 he01
  setRev he11 he12
  setRev he12 he11
  setFace he f0
  setFace he0 f0
  setFace he01 f0
  setFace he_new f0_new
  setFace he02 f0_new
  setFace he1 f0_new
  setFace rev f1
  setFace he3 f1
  setFace he11 f1
  setFace rev_new f1_new
  setFace he12 f1_new
  setFace he2 f1_new
  setSrc he v_new
  setSrc he0 v1
  setSrc he01 v2
  setSrc he_new v0
  setSrc he02 v_new
  setSrc he1 v2
  setSrc rev v1
  setSrc he11 v_new
  setSrc he3 v3
  setSrc rev_new v_new
  setSrc he2 v0
  setSrc he12 v3
  setVHe v0 he2
  setVHe v1 he0
  setVHe v_new he
  setFHe f0 he
  setFHe f0_new he_new
  setFHe f1 rev
  setFHe f1_new rev_new
  addFace f0_new
  addFace f1_new
  addVertex v_new
  addHalfedge he_new
  addHalfedge rev_new
  addHalfedge he01
  addHalfedge he02
  addHalfedge he11
  addHalfedge he12
  return true

theorem splitHE_tail [Scalar F] (w : m.WF) {he : Nat} (a : m.HA he) :
    splitHE he m = if m.outDeg (m.hSrc he) < m.outDeg (m.hSrc (m.hRev he))
      then splitTail (m.hRev he) he (m.hSrc (m.hRev he)) (m.hSrc he) m
      else splitTail he (m.hRev he) (m.hSrc he) (m.hSrc (m.hRev he)) m := by
  have ar := w.rev_alive _ a
  unfold splitHE
  simp only [bind_apply, getRev_ok a, getSrc_ok a, getSrc_ok ar, w.degree_ok (w.src_alive _ a), w.degree_ok (w.src_alive _ ar)]
  by_cases h : m.outDeg (m.hSrc he) < m.outDeg (m.hSrc (m.hRev he))
  · simp only [h, decide_true, if_true]
    unfold splitTail
    simp only [bind_apply]
  · simp only [h, decide_false, if_false, Bool.false_eq_true]
    unfold splitTail
    simp only [bind_apply]

set_option maxRecDepth 4000 in
set_option maxHeartbeats 4000000 in
theorem splitTail_ok [Scalar F] (w : m.WF) {he rev he0 he1 he2 he3 : Nat} (D : Diamond m he rev he0 he1 he2 he3)
    (sm : m.Simple)
    (h0 : ¬ m.outDeg (m.hSrc he) < 3) (h1 : ¬ m.outDeg (m.hSrc rev) < 3) (b0 : m.hBd he = false)
    (b1 : m.hBd rev = false) :
    ∃ m', splitTail he rev (m.hSrc he) (m.hSrc rev) m = .ok true m' ∧ SplitRel m m' he rev he0 he1 he2 he3 := by
  obtain ⟨a, ar, a0, a1, a2, a3, hrev, hrev', n, n0, n1, nr, n2, n3, d1, d2, d3, d4, d5, d6, d7, d8, d9, d10,
    d11, d12, d13, d14, d15, df⟩ := D
  have lt := fun x hx => (w.hBound x hx).2
  have l_ := lt _ a
  have lr := lt _ ar
  have l0 := lt _ a0
  have l1 := lt _ a1
  have l2 := lt _ a2
  have l3 := lt _ a3
  have v_ := w.src_alive _ a
  have vr := w.src_alive _ ar
  have vl_ := (w.vBound _ v_).2
  have vlr := (w.vBound _ vr).2
  have f_ := w.face_alive _ a
  have fr := w.face_alive _ ar
  have fl_ := (w.fBound _ f_).2
  have flr := (w.fBound _ fr).2
  have hne : ∀ x, m.hAlive x = true → ∀ i, x ≠ m.hFresh + i := by
    intro x hx i; have := lt x hx; omega
  have hne' : ∀ x, m.hAlive x = true → x ≠ m.hFresh := by
    intro x hx; have := lt x hx; omega
  have vne : ∀ x, m.vAlive x = true → x ≠ m.vFresh := by
    intro x hx; have := (w.vBound x hx).2; omega
  have fne : ∀ x, m.fAlive x = true → ∀ i, x ≠ m.fFresh + i := by
    intro x hx; have := (w.fBound x hx).2; omega
  have fne' : ∀ x, m.fAlive x = true → x ≠ m.fFresh := by
    intro x hx; have := (w.fBound x hx).2; omega
  have vd_ : m.hSrc (m.hNext he) = m.hSrc rev := by rw [← w.src_rev _ a, hrev]
  unfold splitTail
  simp only [bind_apply, w.degree_ok v_, w.degree_ok vr, h0, h1, if_false, getBd_ok a, getBd_ok ar, b0, b1,
    getRev_ok a, hrev, Bool.false_eq_true]
  -- allocations and reads
  have r_ : ∀ i, he ≠ m.hFresh + i := hne _ a
  have rr_ : ∀ i, rev ≠ m.hFresh + i := hne _ ar
  have r0_ : ∀ i, he0 ≠ m.hFresh + i := hne _ a0
  have r1_ : ∀ i, he1 ≠ m.hFresh + i := hne _ a1
  have r2_ : ∀ i, he2 ≠ m.hFresh + i := hne _ a2
  have r3_ : ∀ i, he3 ≠ m.hFresh + i := hne _ a3
  rw [n] at vd_
  simp only [newHalfedge, getNext, getFace, newFace, getSrc, getPos, getDst, newVertex, upd, a, ar, a0, a1, a2, a3,
    n, n0, nr, n2, r_, rr_, r0_, r1_, r2_, r3_, hne' _ a, hne' _ ar, hne' _ a0, hne' _ a1, hne' _ a2, hne' _ a3,
    v_, vr, vd_, if_true, if_false, Nat.add_assoc, Nat.reduceAdd, bind_apply, setNext, setRev, setFace, setSrc,
    Nat.add_left_cancel_iff, Nat.reduceEqDiff, Nat.left_eq_add, Nat.add_eq_left]
  simp only [setVHe, setFHe, addFace_ok, addVertex_ok, addHalfedge_ok, a, ar, a0, a1, a2, a3, upd, f_, fr, fne' _ f_, fne' _ fr, fne _ f_, fne _ fr,
    r_, rr_, r0_, r1_, r2_, r3_, hne' _ a, hne' _ ar, hne' _ a0, hne' _ a1, hne' _ a2, hne' _ a3, vne _ v_, vne _ vr,
    v_, vr, if_true, if_false, Nat.add_assoc, Nat.reduceAdd, bind_apply, pure_apply,
    Nat.add_left_cancel_iff, Nat.reduceEqDiff, Nat.left_eq_add, Nat.add_eq_left]
  have q_ : ∀ i, m.hFresh + i ≠ he := fun i => (r_ i).symm
  have qr_ : ∀ i, m.hFresh + i ≠ rev := fun i => (rr_ i).symm
  have q0_ : ∀ i, m.hFresh + i ≠ he0 := fun i => (r0_ i).symm
  have q1_ : ∀ i, m.hFresh + i ≠ he1 := fun i => (r1_ i).symm
  have q2_ : ∀ i, m.hFresh + i ≠ he2 := fun i => (r2_ i).symm
  have q3_ : ∀ i, m.hFresh + i ≠ he3 := fun i => (r3_ i).symm
  have p_ := (hne' _ a).symm
  have pr := (hne' _ ar).symm
  have p0 := (hne' _ a0).symm
  have p1 := (hne' _ a1).symm
  have p2 := (hne' _ a2).symm
  have p3 := (hne' _ a3).symm
  have vv : m.hSrc he ≠ m.hSrc rev := by
    have := sm.no_loop _ a; rw [n, vd_] at this; exact this
  have vd2 : m.hSrc he2 = m.hSrc he := by
    rw [← nr, ← w.src_rev _ ar, hrev']
  have hdead : ∀ x, m.hFresh ≤ x → m.hAlive x = false := by
    intro x hx
    by_contra hh
    have := lt x (by simpa using hh); omega
  have vdead : m.vAlive m.vFresh = false := by
    by_contra hh
    have := (w.vBound _ (by simpa using hh : m.vAlive m.vFresh = true)).2; omega
  have fdead : ∀ x, m.fFresh ≤ x → m.fAlive x = false := by
    intro x hx
    by_contra hh
    have := (w.fBound x (by simpa using hh)).2; omega
  refine ⟨_, rfl, ?_⟩
  constructor
  case hal => intro h; simp only [upd]; split_ifs <;> simp_all
  case val => intro h; simp only [upd]; split_ifs <;> simp_all
  case fal => intro h; simp only [upd]; split_ifs <;> simp_all
  case hfr => rfl
  case vfr => rfl
  case ffr => rfl
  case hd =>
    have D1 := w.hDense.push (x := m.hFresh) (hdead _ (by omega))
    have D2 := D1.push (x := m.hFresh + 3) (by simp [upd, hdead])
    have D3 := D2.push (x := m.hFresh + 1) (by simp [upd, hdead])
    have D4 := D3.push (x := m.hFresh + 2) (by simp [upd, hdead])
    have D5 := D4.push (x := m.hFresh + 4) (by simp [upd, hdead])
    have D6 := D5.push (x := m.hFresh + 5) (by simp [upd, hdead])
    refine D6.congr ?_ ?_
    · intro p; simp only [upd]; split_ifs <;> rfl
    · intro p hp; simp only [upd] at hp ⊢
      split_ifs at hp ⊢ <;> rfl
  case vd =>
    have D1 := w.vDense.push (x := m.vFresh) vdead
    refine D1.congr (fun p => rfl) ?_
    intro p hp; simp only [upd] at hp ⊢
    split_ifs at hp ⊢ <;> rfl
  case fd =>
    have D1 := w.fDense.push (x := m.fFresh) (fdead _ (by omega))
    have D2 := D1.push (x := m.fFresh + 1) (by simp [upd, fdead])
    refine D2.congr (fun p => rfl) ?_
    intro p hp; simp only [upd] at hp ⊢
    split_ifs at hp ⊢ <;> rfl
  case hes => simp
  case vs => simp
  case fs => simp
  case NO => intro h ah g1 g2 g3 g4 g5 g6; simp [upd, g1, g2, g3, g4, g5, g6, hne h ah, hne' h ah]
  case FO => intro h ah g1 g2 g3 g4 g5 g6; simp [upd, g1, g2, g3, g4, g5, g6, hne h ah, hne' h ah]
  case RO => intro h ah; simp only [upd, hne h ah, hne' h ah, if_false]; split_ifs <;> simp_all
  case SO => intro h ah g; simp only [upd, hne h ah, hne' h ah, g, if_false]; split_ifs <;> simp_all
  case B => intro h ah; simp [upd, hne h ah, hne' h ah]
  case BN =>
    intro i hi
    have : i = 0 ∨ i = 1 ∨ i = 2 ∨ i = 3 ∨ i = 4 ∨ i = 5 := by omega
    rcases this with rfl | rfl | rfl | rfl | rfl | rfl <;> simp [upd]
  case FHO => intro f af g1 g2; simp [upd, g1, g2, fne f af, fne' f af]
  case VHO => intro f af g1 g2; simp [upd, g1, g2, vne f af]
  case pos => intro v av; simp [upd, vne v av]
  case lock => intro v av; simp [upd, vne v av]
  case posN => simp [upd]
  all_goals simp [upd, q_, qr_, q0_, q1_, q2_, q3_, r_, rr_, r0_, r1_, r2_, r3_, hne' _ a, hne' _ ar, hne' _ a0,
    hne' _ a1, hne' _ a2, hne' _ a3, p_, pr, p0, p1, p2, p3, vv, vv.symm, df, df.symm, fne' _ f_, fne' _ fr,
    fne _ f_, fne _ fr, (fne' _ f_).symm, (fne' _ fr).symm, fun i => (fne _ f_ i).symm, fun i => (fne _ fr i).symm,
    vne _ v_, vne _ vr, (vne _ v_).symm, (vne _ vr).symm, d1, d1.symm, d2, d2.symm, d3, d3.symm, d4, d4.symm, d5, d5.symm, d6, d6.symm, d7, d7.symm, d8, d8.symm, d9, d9.symm, d10, d10.symm, d11, d11.symm, d12, d12.symm, d13, d13.symm, d14, d14.symm, d15, d15.symm]

end TinyMesh
