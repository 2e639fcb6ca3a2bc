import Verif.Proof.FrontH
/-
A round that adds two vertices and three triangles.
-/
namespace TinyMesh
open Orbit
variable {F : Type} {m : Mesh F}

/-- the mesh after the links of the three new sides of the front have been set, completion.cpp:447-475 -/
@[simps -fullyApplied] def Mesh.wideSide (m : Mesh F) (p q u : Nat) (x y : Vec3 F) : Mesh F := { ((m.allocV x).allocV y).allocH.allocH.allocH with
  vHe := upd (upd m.vHe m.vFresh (m.hFresh + 1)) (m.vFresh + 1) (m.hFresh + 2)
  hSrc := upd (upd (upd m.hSrc m.hFresh u) (m.hFresh + 1) m.vFresh) (m.hFresh + 2) (m.vFresh + 1)
  hBd := upd (upd (upd m.hBd m.hFresh true) (m.hFresh + 1) true) (m.hFresh + 2) true
  hNext := upd (upd (upd (upd m.hNext p m.hFresh) m.hFresh (m.hFresh + 1)) (m.hFresh + 1) (m.hFresh + 2)) (m.hFresh + 2) q }

@[simps -fullyApplied] def Mesh.wideEnd (m : Mesh F) (f h h' h'' : Nat) : Mesh F := { m with
  fHe := upd m.fHe f h
  hFace := upd (upd (upd m.hFace h f) h' f) h'' f }

theorem Mesh.Heap.wideSide (K : m.Heap) (p q u : Nat) (x y : Vec3 F) : (m.wideSide p q u x y).Heap := by
  have := ((((K.allocV x).allocV y).allocH).allocH).allocH
  exact ⟨this.hD, this.vD, this.fD, this.hb, this.vb, this.fb, this.h0, this.v0, this.f0⟩

theorem Mesh.Heap.wideEnd (K : m.Heap) (f h h' h'' : Nat) : (m.wideEnd f h h' h'').Heap := ⟨K.hD, K.vD, K.fD, K.hb, K.vb, K.fb, K.h0, K.v0, K.f0⟩

/-- the mesh after `frontWide` -/
def Mesh.wideTwo (m : Mesh F) (f p a b q : Nat) (x y : Vec3 F) : Mesh F :=
  ((((m.wideSide p q (m.hSrc a) x y).allocH.allocH.tri a (m.hFresh + 3) (m.hFresh + 4) (m.hSrc a) (m.hSrc b) m.vFresh).allocH.allocH.allocH.tri
    (m.hFresh + 5) (m.hFresh + 6) (m.hFresh + 7) m.vFresh (m.hSrc b) (m.vFresh + 1)).allocH.allocH.tri
    (m.hFresh + 8) b (m.hFresh + 9) (m.vFresh + 1) (m.hSrc b) (m.hSrc q)).wideEnd f m.hFresh (m.hFresh + 1) (m.hFresh + 2)

/-- the mesh after a round that adds two vertices and three triangles -/
def Mesh.wideMesh (m : Mesh F) (f p a b q : Nat) (x y : Vec3 F) : Mesh F :=
  (((((m.wideTwo f p a b q x y).pairUp (m.hFresh + 3) (m.hFresh + 5)).pairUp (m.hFresh + 4) m.hFresh).pairUp (m.hFresh + 6) (m.hFresh + 8)).pairUp
    (m.hFresh + 7) (m.hFresh + 1)).pairUp (m.hFresh + 9) (m.hFresh + 2)

set_option maxHeartbeats 1000000 in
theorem frontWide_eq [Scalar F] (w : m.WF) {f : Nat} (af : m.fAlive f = true) {hs : List Nat} {pp prev i next qq p a b q : Nat}
    (C : Corner m f hs pp prev i next qq p a b q) :
    (frontWide f (hs.map m.hSrc) (startMaps hs) i >>= fun r => frontLink r.2 r.1) m =
      match frontThirds (m.vPos (m.hSrc a)) (m.vPos (m.hSrc b)) (m.vPos (m.hSrc q)) with
      | some (x, y) => .ok () (m.wideMesh f p a b q x y)
      | none => .err .throw := by
  have lt : ∀ {h}, m.hAlive h = true → h < m.hFresh := fun a => (w.hBound _ a).2
  have pl := lt C.ap
  have al := lt C.aa
  have bl := lt C.ab
  have ql := lt C.aq
  have gl := (w.fBound _ af).2
  have b0 := (w.hBound _ C.ab).1
  have a0 := (w.hBound _ C.aa).1
  have ne := C.ne
  have ne1 := ne.1
  have ne2 := ne.2.1
  have ne3 := ne.2.2
  have ne1' := ne.1.symm
  have ne2' := ne.2.1.symm
  have ne3' := ne.2.2.symm
  have pq := C.pq
  have hl := C.n4
  have li := C.lt
  have i1 := li.1.ne
  have i2 := li.2.1.ne
  have i3 := li.2.2.ne
  have i1' := i1.symm
  have i2' := i2.symm
  have i3' := i3.symm
  -- the maps
  obtain ⟨k, hk⟩ : ∃ k, hs.length = k := ⟨_, rfl⟩
  rw [hk] at i1 i2 i3 i1' i2' i3' li
  have u1 : prev ≠ k + 1 := by omega
  have u2 : i ≠ k + 1 := by omega
  have u3 : next ≠ k + 1 := by omega
  have u1' := u1.symm
  have u2' := u2.symm
  have u3' := u3.symm
  obtain ⟨s1, hs1⟩ : ∃ s, (((startMaps hs).assign (prev, k) m.hFresh).assign (k, k + 1) (m.hFresh + 1)).assign (k + 1, next) (m.hFresh + 2) = s := ⟨_, rfl⟩
  have nok : ∀ x y, k ≤ x ∨ k ≤ y → (startMaps hs).pair2he.lookup (x, y) = none := fun x y h => C.nok x y (by rw [hk]; exact h)
  have nok1 : ∀ y, (startMaps hs).pair2he.lookup (k, y) = none := fun y => nok _ _ (by omega)
  have nok2 : ∀ y, (startMaps hs).pair2he.lookup (k + 1, y) = none := fun y => nok _ _ (by omega)
  have nok3 : ∀ y, (startMaps hs).pair2he.lookup (y, k) = none := fun y => nok _ _ (by omega)
  have nok4 : ∀ y, (startMaps hs).pair2he.lookup (y, k + 1) = none := fun y => nok _ _ (by omega)
  have l1 : ∀ e, s1.pair2he.lookup e = if e = (k + 1, next) then some (m.hFresh + 2) else if e = (k, k + 1) then some (m.hFresh + 1) else
      if e = (prev, k) then some m.hFresh else (startMaps hs).pair2he.lookup e := by
    intro e; rw [← hs1, assign_pair, assign_pair, assign_pair]
  have j1 : ∀ h, s1.he2pair.lookup h = if h = m.hFresh + 2 then some (k + 1, next) else if h = m.hFresh + 1 then some (k, k + 1) else
      if h = m.hFresh then some (prev, k) else (startMaps hs).he2pair.lookup h := by
    intro e; rw [← hs1, assign_he, assign_he, assign_he]
  have c1 : s1.pair2he.lookup (prev, i) = some a := by rw [l1]; simp [*, C.la]
  have c2 : s1.pair2he.lookup (i, k) = none := by rw [l1]; simp [*]
  have d2 : s1.he2pair.lookup (m.hFresh + 3) = none := by rw [j1]; simp [C.nob]
  obtain ⟨s2, hs2⟩ : ∃ s, s1.insert (i, k) (m.hFresh + 3) = s := ⟨_, rfl⟩
  have l2 : ∀ e, s2.pair2he.lookup e = if e = (i, k) then some (m.hFresh + 3) else s1.pair2he.lookup e := by rw [← hs2]; exact fun e => insert_pair c2 e
  have j2 : ∀ e, s2.he2pair.lookup e = if e = m.hFresh + 3 then some (i, k) else s1.he2pair.lookup e := by rw [← hs2]; exact fun e => insert_he d2 e
  have c3 : s2.pair2he.lookup (k, prev) = none := by rw [l2, l1]; simp [*]
  have d3 : s2.he2pair.lookup (m.hFresh + 4) = none := by rw [j2, j1]; simp [C.nob]
  obtain ⟨s3, hs3⟩ : ∃ s, s2.insert (k, prev) (m.hFresh + 4) = s := ⟨_, rfl⟩
  have l3 : ∀ e, s3.pair2he.lookup e = if e = (k, prev) then some (m.hFresh + 4) else s2.pair2he.lookup e := by rw [← hs3]; exact fun e => insert_pair c3 e
  have j3 : ∀ e, s3.he2pair.lookup e = if e = m.hFresh + 4 then some (k, prev) else s2.he2pair.lookup e := by rw [← hs3]; exact fun e => insert_he d3 e
  have c4 : s3.pair2he.lookup (k, i) = none := by rw [l3, l2, l1]; simp [*]
  have d4 : s3.he2pair.lookup (m.hFresh + 5) = none := by rw [j3, j2, j1]; simp [C.nob]
  obtain ⟨s4, hs4⟩ : ∃ s, s3.insert (k, i) (m.hFresh + 5) = s := ⟨_, rfl⟩
  have l4 : ∀ e, s4.pair2he.lookup e = if e = (k, i) then some (m.hFresh + 5) else s3.pair2he.lookup e := by rw [← hs4]; exact fun e => insert_pair c4 e
  have j4 : ∀ e, s4.he2pair.lookup e = if e = m.hFresh + 5 then some (k, i) else s3.he2pair.lookup e := by rw [← hs4]; exact fun e => insert_he d4 e
  have c5 : s4.pair2he.lookup (i, k + 1) = none := by rw [l4, l3, l2, l1]; simp [*]
  have d5 : s4.he2pair.lookup (m.hFresh + 6) = none := by rw [j4, j3, j2, j1]; simp [C.nob]
  obtain ⟨s5, hs5⟩ : ∃ s, s4.insert (i, k + 1) (m.hFresh + 6) = s := ⟨_, rfl⟩
  have l5 : ∀ e, s5.pair2he.lookup e = if e = (i, k + 1) then some (m.hFresh + 6) else s4.pair2he.lookup e := by rw [← hs5]; exact fun e => insert_pair c5 e
  have j5 : ∀ e, s5.he2pair.lookup e = if e = m.hFresh + 6 then some (i, k + 1) else s4.he2pair.lookup e := by rw [← hs5]; exact fun e => insert_he d5 e
  have c6 : s5.pair2he.lookup (k + 1, k) = none := by rw [l5, l4, l3, l2, l1]; simp [*]
  have d6 : s5.he2pair.lookup (m.hFresh + 7) = none := by rw [j5, j4, j3, j2, j1]; simp [C.nob]
  obtain ⟨s6, hs6⟩ : ∃ s, s5.insert (k + 1, k) (m.hFresh + 7) = s := ⟨_, rfl⟩
  have l6 : ∀ e, s6.pair2he.lookup e = if e = (k + 1, k) then some (m.hFresh + 7) else s5.pair2he.lookup e := by rw [← hs6]; exact fun e => insert_pair c6 e
  have j6 : ∀ e, s6.he2pair.lookup e = if e = m.hFresh + 7 then some (k + 1, k) else s5.he2pair.lookup e := by rw [← hs6]; exact fun e => insert_he d6 e
  have c7 : s6.pair2he.lookup (k + 1, i) = none := by rw [l6, l5, l4, l3, l2, l1]; simp [*]
  have d7 : s6.he2pair.lookup (m.hFresh + 8) = none := by rw [j6, j5, j4, j3, j2, j1]; simp [C.nob]
  obtain ⟨s7, hs7⟩ : ∃ s, s6.insert (k + 1, i) (m.hFresh + 8) = s := ⟨_, rfl⟩
  have l7 : ∀ e, s7.pair2he.lookup e = if e = (k + 1, i) then some (m.hFresh + 8) else s6.pair2he.lookup e := by rw [← hs7]; exact fun e => insert_pair c7 e
  have j7 : ∀ e, s7.he2pair.lookup e = if e = m.hFresh + 8 then some (k + 1, i) else s6.he2pair.lookup e := by rw [← hs7]; exact fun e => insert_he d7 e
  have c8 : s7.pair2he.lookup (next, k + 1) = none := by rw [l7, l6, l5, l4, l3, l2, l1]; simp [*]
  have d8 : s7.he2pair.lookup (m.hFresh + 9) = none := by rw [j7, j6, j5, j4, j3, j2, j1]; simp [C.nob]
  obtain ⟨s8, hs8⟩ : ∃ s, s7.insert (next, k + 1) (m.hFresh + 9) = s := ⟨_, rfl⟩
  have l8 : ∀ e, s8.pair2he.lookup e = if e = (next, k + 1) then some (m.hFresh + 9) else s7.pair2he.lookup e := by rw [← hs8]; exact fun e => insert_pair c8 e
  have j8 : ∀ e, s8.he2pair.lookup e = if e = m.hFresh + 9 then some (next, k + 1) else s7.he2pair.lookup e := by rw [← hs8]; exact fun e => insert_he d8 e
  have cb : s7.pair2he.lookup (i, next) = some b := by rw [l7, l6, l5, l4, l3, l2, l1]; simp [*, C.lb]
  -- the vertices
  have vs' : ∀ {j v : Nat}, (hs.map m.hSrc)[j]? = some v → (hs.map m.hSrc ++ [m.vFresh, m.vFresh + 1])[j]? = some v := by
    intro j v e
    rw [List.getElem?_append_left (List.getElem?_eq_some_iff.1 e).1, e]
  have vk : (hs.map m.hSrc ++ [m.vFresh, m.vFresh + 1])[k]? = some m.vFresh := by
    rw [← hk]; simp
  have vk' : (hs.map m.hSrc ++ [m.vFresh, m.vFresh + 1])[k + 1]? = some (m.vFresh + 1) := by
    rw [← hk]; simp
  have pos : ∀ {j v}, (hs.map m.hSrc)[j]? = some v → m.vAlive v = true → boundaryPos (hs.map m.hSrc) j m = .ok (m.vPos v) m := by
    intro j v e av
    simp [boundaryPos, boundaryAt, e, getPos, av]
  have av1 := w.src_alive _ C.aa
  have av2 := w.src_alive _ C.ab
  have av3 := w.src_alive _ C.aq
  unfold frontWide
  simp only [List.length_map, C.hprev, C.hnext, C.hpp, C.hqq, C.lp, C.lq]
  rw [bind_apply]
  rw [bind_apply, pos C.va av1]
  dsimp only
  rw [bind_apply, pos C.vb av2]
  dsimp only
  rw [bind_apply, pos C.vq av3]
  dsimp only
  cases hx : frontThirds (m.vPos (m.hSrc a)) (m.vPos (m.hSrc b)) (m.vPos (m.hSrc q)) with
  | none => rfl
  | some xy =>
    obtain ⟨x, y⟩ := xy
    rw [bind_apply]
    simp only [orThrowM, pure_apply]
    rw [allocV2, alloc3]
    have e0 : ((m.allocV x).allocV y).allocH.allocH.allocH.vAlive m.vFresh = true := by simp [upd]
    have e0' : ((m.allocV x).allocV y).allocH.allocH.allocH.vAlive (m.vFresh + 1) = true := by simp [upd]
    have e1 : ((m.allocV x).allocV y).allocH.allocH.allocH.hAlive m.hFresh = true := by simp [upd]
    have e1' : ((m.allocV x).allocV y).allocH.allocH.allocH.hAlive (m.hFresh + 1) = true := by simp [upd]
    have e1'' : ((m.allocV x).allocV y).allocH.allocH.allocH.hAlive (m.hFresh + 2) = true := by simp [upd]
    have e2 : ((m.allocV x).allocV y).allocH.allocH.allocH.hAlive p = true := by simp [upd, C.ap]
    have hh1 : ((m.allocV x).allocV y).hFresh = m.hFresh := rfl
    simp only [bind_apply, boundaryAt, C.va, pure_apply, setSrc, e1, if_true, setBd, setNext, e2, setVHe, e0, e0', e1', e1'', hh1]
    have e3 : ({ ((m.allocV x).allocV y).allocH.allocH.allocH with
        vHe := upd (upd ((m.allocV x).allocV y).allocH.allocH.allocH.vHe m.vFresh (m.hFresh + 1)) (m.vFresh + 1) (m.hFresh + 2)
        hSrc := upd (upd (upd ((m.allocV x).allocV y).allocH.allocH.allocH.hSrc m.hFresh (m.hSrc a)) (m.hFresh + 1) m.vFresh) (m.hFresh + 2) (m.vFresh + 1)
        hBd := upd (upd (upd ((m.allocV x).allocV y).allocH.allocH.allocH.hBd m.hFresh true) (m.hFresh + 1) true) (m.hFresh + 2) true
        hNext := upd (upd (upd (upd ((m.allocV x).allocV y).allocH.allocH.allocH.hNext p m.hFresh) m.hFresh (m.hFresh + 1)) (m.hFresh + 1) (m.hFresh + 2)) (m.hFresh + 2) q } : Mesh F) =
        m.wideSide p q (m.hSrc a) x y := by
      simp only [Mesh.wideSide, Mesh.allocH, Mesh.allocV, upd_upd]
      congr 1
      all_goals
        funext z; simp only [upd]; repeat' split
        all_goals rfl
    simp only [e3, hk, hs1]
    have na : ∀ j, a ≠ m.hFresh + j := fun j => by omega
    have nb : ∀ j, b ≠ m.hFresh + j := fun j => by omega
    have na' : ∀ j, m.hFresh + j ≠ a := fun j => by omega
    have nb' : ∀ j, m.hFresh + j ≠ b := fun j => by omega
    have n0 : a ≠ m.hFresh := by omega
    have n0' : b ≠ m.hFresh := by omega
    obtain ⟨M0, hM0⟩ : ∃ M0, m.wideSide p q (m.hSrc a) x y = M0 := ⟨_, rfl⟩
    have hF : M0.hFresh = m.hFresh + 3 := by rw [← hM0]; rfl
    have hF' : M0.allocH.hFresh = m.hFresh + 4 := by simp [hF]
    have q2 := pair_new (m := M0) c2
    rw [hF, hs2] at q2
    have q3 := pair_new (m := M0.allocH) c3
    rw [hF', hs3] at q3
    have t1 := addTri_eq (vs := hs.map m.hSrc ++ [m.vFresh, m.vFresh + 1]) (m := M0) (pair_old c1) q2 q3 (vs' C.va) (vs' C.vb) vk
      (by simp [← hM0, upd, Nat.add_assoc, C.aa, na, n0]) (by simp [hF, upd]) (by simp [hF, upd])
    have g1 : M0.allocH.allocH.fFresh = m.fFresh := by rw [← hM0]; rfl
    rw [g1] at t1
    rw [hM0, t1]
    dsimp only
    obtain ⟨M1, hM1⟩ : ∃ M1, M0.allocH.allocH.tri a (m.hFresh + 3) (m.hFresh + 4) (m.hSrc a) (m.hSrc b) m.vFresh = M1 := ⟨_, rfl⟩
    have hG : M1.hFresh = m.hFresh + 5 := by rw [← hM1, ← hM0]; rfl
    have hG' : M1.allocH.hFresh = m.hFresh + 6 := by simp [hG]
    have hG'' : M1.allocH.allocH.hFresh = m.hFresh + 7 := by simp [hG]
    have q4 := pair_new (m := M1) c4
    rw [hG, hs4] at q4
    have q5 := pair_new (m := M1.allocH) c5
    rw [hG', hs5] at q5
    have q6 := pair_new (m := M1.allocH.allocH) c6
    rw [hG'', hs6] at q6
    have t2 := addTri_eq (vs := hs.map m.hSrc ++ [m.vFresh, m.vFresh + 1]) (m := M1) q4 q5 q6 vk (vs' C.vb) vk'
      (by simp [upd, hG]) (by simp [upd, hG]) (by simp [upd, hG])
    have g2 : M1.allocH.allocH.allocH.fFresh = m.fFresh + 1 := by rw [← hM1, ← hM0]; rfl
    rw [g2] at t2
    rw [hM1, t2]
    dsimp only
    obtain ⟨M2, hM2⟩ : ∃ M2, M1.allocH.allocH.allocH.tri (m.hFresh + 5) (m.hFresh + 6) (m.hFresh + 7) m.vFresh (m.hSrc b) (m.vFresh + 1) = M2 := ⟨_, rfl⟩
    have hI : M2.hFresh = m.hFresh + 8 := by rw [← hM2, ← hM1, ← hM0]; rfl
    have hI' : M2.allocH.hFresh = m.hFresh + 9 := by simp [hI]
    have q7 := pair_new (m := M2) c7
    rw [hI, hs7] at q7
    have q8 := pair_new (m := M2.allocH) c8
    rw [hI', hs8] at q8
    have ab2 : M2.hAlive b = true := by simp [← hM2, ← hM1, ← hM0, upd, Nat.add_assoc, nb, n0', C.ab]
    have t3 := addTri_eq (vs := hs.map m.hSrc ++ [m.vFresh, m.vFresh + 1]) (m := M2) q7 (pair_old cb) q8 vk' (vs' C.vb) (vs' C.vq)
      (by simp [upd, hI]) (by simp [upd, hI, nb, ab2]) (by simp [upd, hI])
    have g3 : M2.allocH.allocH.fFresh = m.fFresh + 2 := by rw [← hM2, ← hM1, ← hM0]; rfl
    rw [g3] at t3
    rw [hM2, t3]
    dsimp only
    obtain ⟨M3, hM3⟩ : ∃ M3, M2.allocH.allocH.tri (m.hFresh + 8) b (m.hFresh + 9) (m.vFresh + 1) (m.hSrc b) (m.hSrc q) = M3 := ⟨_, rfl⟩
    rw [hM3]
    have e4 : M3.fAlive f = true := by
      simp [upd, ← hM3, ← hM2, ← hM1, ← hM0, af]
    have e5 : M3.hAlive m.hFresh = true := by
      simp [upd, ← hM3, ← hM2, ← hM1, ← hM0]
    have e6 : M3.hAlive (m.hFresh + 1) = true := by
      simp [upd, ← hM3, ← hM2, ← hM1, ← hM0]
    have e6' : M3.hAlive (m.hFresh + 2) = true := by
      simp [upd, ← hM3, ← hM2, ← hM1, ← hM0]
    simp only [setFHe, setFace, e4, e5, e6, e6', if_true]
    have e7 : m.wideTwo f p a b q x y = M3.wideEnd f m.hFresh (m.hFresh + 1) (m.hFresh + 2) := by
      rw [← hM3, ← hM2, ← hM1, ← hM0]; rfl
    have e8 : ({ M3 with
        fHe := upd M3.fHe f m.hFresh
        hFace := upd (upd (upd M3.hFace m.hFresh f) (m.hFresh + 1) f) (m.hFresh + 2) f } : Mesh F) =
        m.wideTwo f p a b q x y := by rw [e7]; rfl
    rw [e8]
    have ra := (w.hBound _ (w.rev_alive a C.aa)).1.ne'
    have rb := (w.hBound _ (w.rev_alive b C.ab)).1.ne'
    have gl0 := gl.ne'
    have gl1 : m.fFresh + 1 ≠ f := by omega
    have gl2 : m.fFresh + 2 ≠ f := by omega
    have s8l : ∀ e, s8.pair2he.lookup e = if e = (next, k + 1) then some (m.hFresh + 9) else if e = (k + 1, i) then some (m.hFresh + 8) else
        if e = (k + 1, k) then some (m.hFresh + 7) else if e = (i, k + 1) then some (m.hFresh + 6) else if e = (k, i) then some (m.hFresh + 5) else
        if e = (k, prev) then some (m.hFresh + 4) else if e = (i, k) then some (m.hFresh + 3) else
        if e = (k + 1, next) then some (m.hFresh + 2) else if e = (k, k + 1) then some (m.hFresh + 1) else
        if e = (prev, k) then some m.hFresh else (startMaps hs).pair2he.lookup e := by
      intro e; rw [l8, l7, l6, l5, l4, l3, l2, l1]
    have s8j : ∀ e, s8.he2pair.lookup e = if e = m.hFresh + 9 then some (next, k + 1) else if e = m.hFresh + 8 then some (k + 1, i) else
        if e = m.hFresh + 7 then some (k + 1, k) else if e = m.hFresh + 6 then some (i, k + 1) else if e = m.hFresh + 5 then some (k, i) else
        if e = m.hFresh + 4 then some (k, prev) else if e = m.hFresh + 3 then some (i, k) else
        if e = m.hFresh + 2 then some (k + 1, next) else if e = m.hFresh + 1 then some (k, k + 1) else
        if e = m.hFresh then some (prev, k) else (startMaps hs).he2pair.lookup e := by
      intro e; rw [j8, j7, j6, j5, j4, j3, j2, j1]
    have M3al : ∀ j, j < 10 → M3.hAlive (m.hFresh + j) = true := by
      intro j hj
      have hj : j = 0 ∨ j = 1 ∨ j = 2 ∨ j = 3 ∨ j = 4 ∨ j = 5 ∨ j = 6 ∨ j = 7 ∨ j = 8 ∨ j = 9 := by omega
      rcases hj with rfl | rfl | rfl | rfl | rfl | rfl | rfl | rfl | rfl | rfl <;> simp [upd, ← hM3, ← hM2, ← hM1, ← hM0]
    have M3a : M3.hAlive a = true := by simp [upd, ← hM3, ← hM2, ← hM1, ← hM0, Nat.add_assoc, na, n0, C.aa]
    have M3b : M3.hAlive b = true := by simp [upd, ← hM3, ← hM2, ← hM1, ← hM0, Nat.add_assoc, nb, n0', C.ab]
    have M3ra : M3.hRev a ≠ 0 := by simp [upd, ← hM3, ← hM2, ← hM1, ← hM0, Nat.add_assoc, na, n0, ra]
    have M3rb : M3.hRev b ≠ 0 := by simp [upd, ← hM3, ← hM2, ← hM1, ← hM0, Nat.add_assoc, nb, n0', rb]
    have M3r : ∀ j, j < 10 → M3.hRev (m.hFresh + j) = 0 := by
      intro j hj
      have hj : j = 0 ∨ j = 1 ∨ j = 2 ∨ j = 3 ∨ j = 4 ∨ j = 5 ∨ j = 6 ∨ j = 7 ∨ j = 8 ∨ j = 9 := by omega
      rcases hj with rfl | rfl | rfl | rfl | rfl | rfl | rfl | rfl | rfl | rfl <;> simp [upd, ← hM3, ← hM2, ← hM1, ← hM0]
    have Na : M3.hNext a = m.hFresh + 3 := by simp [upd, ← hM3, ← hM2, ← hM1, ← hM0, Nat.add_assoc, na, n0, pq]
    have Nb : M3.hNext b = m.hFresh + 9 := by simp [upd, ← hM3, nb]
    have N3 : M3.hNext (m.hFresh + 3) = m.hFresh + 4 := by simp [upd, ← hM3, ← hM2, ← hM1, ← hM0, Nat.add_assoc, nb']
    have N4 : M3.hNext (m.hFresh + 4) = a := by simp [upd, ← hM3, ← hM2, ← hM1, ← hM0, Nat.add_assoc, nb']
    have N5 : M3.hNext (m.hFresh + 5) = m.hFresh + 6 := by simp [upd, ← hM3, ← hM2, ← hM1, ← hM0, Nat.add_assoc, nb']
    have N6 : M3.hNext (m.hFresh + 6) = m.hFresh + 7 := by simp [upd, ← hM3, ← hM2, ← hM1, ← hM0, Nat.add_assoc, nb']
    have N7 : M3.hNext (m.hFresh + 7) = m.hFresh + 5 := by simp [upd, ← hM3, ← hM2, ← hM1, ← hM0, Nat.add_assoc, nb']
    have N8 : M3.hNext (m.hFresh + 8) = b := by simp [upd, ← hM3, nb']
    have N9 : M3.hNext (m.hFresh + 9) = m.hFresh + 8 := by simp [upd, ← hM3]
    have fr : M3.hFresh = m.hFresh + 10 := by rw [← hM3, ← hM2, ← hM1, ← hM0]; rfl
    have G1 : M3.fAlive m.fFresh = true := by simp [upd, ← hM3, ← hM2, ← hM1, ← hM0]
    have G2 : M3.fAlive (m.fFresh + 1) = true := by simp [upd, ← hM3, ← hM2, ← hM1, ← hM0]
    have G3 : M3.fAlive (m.fFresh + 2) = true := by simp [upd, ← hM3, ← hM2, ← hM1, ← hM0]
    have H1 : M3.fHe m.fFresh = a := by simp [upd, ← hM3, ← hM2, ← hM1, ← hM0, Nat.add_assoc]
    have H2 : M3.fHe (m.fFresh + 1) = m.hFresh + 5 := by simp [upd, ← hM3, ← hM2, ← hM1, ← hM0]
    have H3 : M3.fHe (m.fFresh + 2) = m.hFresh + 8 := by simp [upd, ← hM3, ← hM2, ← hM1, ← hM0]
    clear e8 e6 e5 e4 t2 t1 t3 q2 q3 q4 q5 q6 q7 q8 l8 l7 l6 l5 l4 l3 l2 l1 j8 j7 j6 j5 j4 j3 j2 j1 e3 c1 c2 c3 c4 c5 c6 c7 c8 cb d2 d3 d4 d5 d6 d7 d8
    clear hs1 hs2 hs3 hs4 hs5 hs6 hs7 hs8 g1 g2 g3 hF hF' hG hG' hG'' hI hI' ab2 e0 e0' e1 e1' e1'' e2 e6' pos vk vk' vs' hx av1 av2 av3 hM3 hM2 hM1 hM0
    have M30 := M3al 0 (by omega)
    rw [Nat.add_zero] at M30
    have run1 := circ3 (body := frontLinkRev s8) (a := a) (b := m.hFresh + 3) (c := m.hFresh + 4) (m := m.wideTwo f p a b q x y)
      (by omega) (by omega) (by omega) (na _) (na _) (by simp [e7, fr])
      (link_old (by simp [e7, M3a]) (by simp [e7, M3ra]))
      (link_new (r := m.hFresh + 5) (e := (i, k)) (by simp [e7, M3al]) (by simp [e7, M3al]) (by simp [e7, M3r])
        (by rw [s8j]; simp) (by rw [s8l]; simp [*]))
      (link_new (r := m.hFresh) (e := (k, prev)) (by simp [e7, M3al]) (by simp [e7, M30]) (by simp [e7, M3r, upd])
        (by rw [s8j]; simp) (by rw [s8l]; simp [*]))
      (by simp [e7, M3a]) (by simp [e7, M3al]) (by simp [e7, M3al]) (by simp [e7, Na]) (by simp [e7, N3]) (by simp [e7, N4])
    have run2 := circ3 (body := frontLinkRev s8) (a := m.hFresh + 5) (b := m.hFresh + 6) (c := m.hFresh + 7)
      (m := ((m.wideTwo f p a b q x y).pairUp (m.hFresh + 3) (m.hFresh + 5)).pairUp (m.hFresh + 4) m.hFresh)
      (by omega) (by omega) (by omega) (by omega) (by omega) (by simp [e7, fr])
      (link_old (by simp [e7, M3al]) (by simp [upd]))
      (link_new (r := m.hFresh + 8) (e := (i, k + 1)) (by simp [e7, M3al]) (by simp [e7, M3al]) (by simp [e7, M3r, upd])
        (by rw [s8j]; simp) (by rw [s8l]; simp [*]))
      (link_new (r := m.hFresh + 1) (e := (k + 1, k)) (by simp [e7, M3al]) (by simp [e7, M3al]) (by simp [e7, M3r, upd])
        (by rw [s8j]; simp) (by rw [s8l]; simp [*]))
      (by simp [e7, M3al]) (by simp [e7, M3al]) (by simp [e7, M3al]) (by simp [e7, N5]) (by simp [e7, N6]) (by simp [e7, N7])
    have run3 := circ3 (body := frontLinkRev s8) (a := m.hFresh + 8) (b := b) (c := m.hFresh + 9)
      (m := ((((m.wideTwo f p a b q x y).pairUp (m.hFresh + 3) (m.hFresh + 5)).pairUp (m.hFresh + 4) m.hFresh).pairUp (m.hFresh + 6) (m.hFresh + 8)).pairUp
        (m.hFresh + 7) (m.hFresh + 1))
      (by omega) (by omega) (by omega) (nb' _) (by omega) (by simp [e7, fr])
      (link_old (by simp [e7, M3al]) (by simp [upd]))
      (link_old (by simp [e7, M3b]) (by simp [e7, upd, nb, n0', M3rb]))
      (link_new (r := m.hFresh + 2) (e := (next, k + 1)) (by simp [e7, M3al]) (by simp [e7, M3al]) (by simp [e7, M3r, upd])
        (by rw [s8j]; simp) (by rw [s8l]; simp [*]))
      (by simp [e7, M3al]) (by simp [e7, M3b]) (by simp [e7, M3al]) (by simp [e7, N8]) (by simp [e7, Nb]) (by simp [e7, N9])
    simp only [frontLink, bind_apply]
    rw [getFHe_ok (by simp [e7, G1])]
    have w1 : (m.wideTwo f p a b q x y).fHe m.fFresh = a := by simp [e7, upd, gl0, H1]
    dsimp only
    rw [w1, run1]
    dsimp only
    rw [getFHe_ok (by simp [e7, G2])]
    have w2 : (((m.wideTwo f p a b q x y).pairUp (m.hFresh + 3) (m.hFresh + 5)).pairUp (m.hFresh + 4) m.hFresh).fHe (m.fFresh + 1) = m.hFresh + 5 := by
      simp [e7, upd, gl1, H2]
    dsimp only
    rw [w2, run2]
    dsimp only
    rw [getFHe_ok (by simp [e7, G3])]
    have w3 : (((((m.wideTwo f p a b q x y).pairUp (m.hFresh + 3) (m.hFresh + 5)).pairUp (m.hFresh + 4) m.hFresh).pairUp (m.hFresh + 6) (m.hFresh + 8)).pairUp
        (m.hFresh + 7) (m.hFresh + 1)).fHe (m.fFresh + 2) = m.hFresh + 8 := by
      simp [e7, upd, gl2, H3]
    dsimp only
    rw [w3, run3]
    rfl

end TinyMesh
