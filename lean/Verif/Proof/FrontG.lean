import Verif.Proof.FrontF
/-
A round that adds one vertex and two triangles.
-/
namespace TinyMesh
open Orbit
variable {F : Type} {m : Mesh F}

/-- the mesh after the links of the two new sides of the front have been set, completion.cpp:393-411 -/
@[simps -fullyApplied] def Mesh.midSide (m : Mesh F) (p q u : Nat) (x : Vec3 F) : Mesh F := { (m.allocV x).allocH.allocH with
  vHe := upd m.vHe m.vFresh (m.hFresh + 1)
  hSrc := upd (upd m.hSrc m.hFresh u) (m.hFresh + 1) m.vFresh
  hBd := upd (upd m.hBd m.hFresh true) (m.hFresh + 1) true
  hNext := upd (upd (upd m.hNext p m.hFresh) m.hFresh (m.hFresh + 1)) (m.hFresh + 1) q }

@[simps -fullyApplied] def Mesh.midEnd (m : Mesh F) (f h h' : Nat) : Mesh F := { m with
  fHe := upd m.fHe f h
  hFace := upd (upd m.hFace h f) h' f }

theorem Mesh.Heap.midSide (K : m.Heap) (p q u : Nat) (x : Vec3 F) : (m.midSide p q u x).Heap := by
  have := ((K.allocV x).allocH).allocH
  exact ⟨this.hD, this.vD, this.fD, this.hb, this.vb, this.fb, this.h0, this.v0, this.f0⟩

theorem Mesh.Heap.midEnd (K : m.Heap) (f h h' : Nat) : (m.midEnd f h h').Heap := ⟨K.hD, K.vD, K.fD, K.hb, K.vb, K.fb, K.h0, K.v0, K.f0⟩

/-- the mesh after `frontMiddle` -/
def Mesh.midTwo (m : Mesh F) (f p a b q : Nat) (x : Vec3 F) : Mesh F :=
  (((((m.midSide p q (m.hSrc a) x).allocH.allocH.tri a (m.hFresh + 2) (m.hFresh + 3) (m.hSrc a) (m.hSrc b) m.vFresh).allocH.allocH.tri
    (m.hFresh + 4) b (m.hFresh + 5) m.vFresh (m.hSrc b) (m.hSrc q)).midEnd f m.hFresh (m.hFresh + 1)))

/-- the mesh after a round that adds one vertex and two triangles -/
def Mesh.midMesh (m : Mesh F) (f p a b q : Nat) (x : Vec3 F) : Mesh F :=
  (((m.midTwo f p a b q x).pairUp (m.hFresh + 2) (m.hFresh + 4)).pairUp (m.hFresh + 3) m.hFresh).pairUp (m.hFresh + 5) (m.hFresh + 1)

theorem frontMiddle_eq [Scalar F] (w : m.WF) {f : Nat} (af : m.fAlive f = true) {hs : List Nat} {pp prev i next qq p a b q : Nat}
    (C : Corner m f hs pp prev i next qq p a b q) :
    (frontMiddle f (hs.map m.hSrc) (startMaps hs) i >>= fun r => frontLink r.2 r.1) m =
      match frontMid (m.vPos (m.hSrc a)) (m.vPos (m.hSrc b)) (m.vPos (m.hSrc q)) with
      | some x => .ok () (m.midMesh f p a b q x)
      | none => .err .throw := by
  have lt : ∀ {h}, m.hAlive h = true → h < m.hFresh := fun a => (w.hBound _ a).2
  have pl := lt C.ap
  have al := lt C.aa
  have bl := lt C.ab
  have ql := lt C.aq
  have gl := (w.fBound _ af).2
  have b0 := (w.hBound _ C.ab).1
  have a0 := (w.hBound _ C.aa).1
  have ne := C.ne
  have ne1 := ne.1
  have ne2 := ne.2.1
  have ne3 := ne.2.2
  have ne1' := ne.1.symm
  have ne2' := ne.2.1.symm
  have ne3' := ne.2.2.symm
  have pq := C.pq
  have hl := C.n4
  have li := C.lt
  have i1 := li.1.ne
  have i2 := li.2.1.ne
  have i3 := li.2.2.ne
  have i1' := i1.symm
  have i2' := i2.symm
  have i3' := i3.symm
  -- the maps
  obtain ⟨k, hk⟩ : ∃ k, hs.length = k := ⟨_, rfl⟩
  rw [hk] at i1 i2 i3 i1' i2' i3'
  obtain ⟨s1, hs1⟩ : ∃ s, ((startMaps hs).assign (prev, k) m.hFresh).assign (k, next) (m.hFresh + 1) = s := ⟨_, rfl⟩
  have nok : ∀ x y, k ≤ x ∨ k ≤ y → (startMaps hs).pair2he.lookup (x, y) = none := fun x y h => C.nok x y (by rw [hk]; exact h)
  have l1 : ∀ e, s1.pair2he.lookup e = if e = (k, next) then some (m.hFresh + 1) else if e = (prev, k) then some m.hFresh else
      (startMaps hs).pair2he.lookup e := by
    intro e; rw [← hs1, assign_pair, assign_pair]
  have j1 : ∀ h, s1.he2pair.lookup h = if h = m.hFresh + 1 then some (k, next) else if h = m.hFresh then some (prev, k) else
      (startMaps hs).he2pair.lookup h := by
    intro e; rw [← hs1, assign_he, assign_he]
  have c1 : s1.pair2he.lookup (prev, i) = some a := by rw [l1]; simp [*, C.la]
  have c2 : s1.pair2he.lookup (i, k) = none := by rw [l1]; simp [*]
  have d2 : s1.he2pair.lookup (m.hFresh + 2) = none := by rw [j1]; simp [C.nob]
  obtain ⟨s2, hs2⟩ : ∃ s, s1.insert (i, k) (m.hFresh + 2) = s := ⟨_, rfl⟩
  have l2 : ∀ e, s2.pair2he.lookup e = if e = (i, k) then some (m.hFresh + 2) else s1.pair2he.lookup e := by rw [← hs2]; exact fun e => insert_pair c2 e
  have j2 : ∀ e, s2.he2pair.lookup e = if e = m.hFresh + 2 then some (i, k) else s1.he2pair.lookup e := by rw [← hs2]; exact fun e => insert_he d2 e
  have c3 : s2.pair2he.lookup (k, prev) = none := by rw [l2, l1]; simp [*]
  have d3 : s2.he2pair.lookup (m.hFresh + 3) = none := by rw [j2, j1]; simp [C.nob]
  obtain ⟨s3, hs3⟩ : ∃ s, s2.insert (k, prev) (m.hFresh + 3) = s := ⟨_, rfl⟩
  have l3 : ∀ e, s3.pair2he.lookup e = if e = (k, prev) then some (m.hFresh + 3) else s2.pair2he.lookup e := by rw [← hs3]; exact fun e => insert_pair c3 e
  have j3 : ∀ e, s3.he2pair.lookup e = if e = m.hFresh + 3 then some (k, prev) else s2.he2pair.lookup e := by rw [← hs3]; exact fun e => insert_he d3 e
  have c4 : s3.pair2he.lookup (k, i) = none := by rw [l3, l2, l1]; simp [*]
  have d4 : s3.he2pair.lookup (m.hFresh + 4) = none := by rw [j3, j2, j1]; simp [C.nob]
  obtain ⟨s4, hs4⟩ : ∃ s, s3.insert (k, i) (m.hFresh + 4) = s := ⟨_, rfl⟩
  have l4 : ∀ e, s4.pair2he.lookup e = if e = (k, i) then some (m.hFresh + 4) else s3.pair2he.lookup e := by rw [← hs4]; exact fun e => insert_pair c4 e
  have j4 : ∀ e, s4.he2pair.lookup e = if e = m.hFresh + 4 then some (k, i) else s3.he2pair.lookup e := by rw [← hs4]; exact fun e => insert_he d4 e
  have c5 : s4.pair2he.lookup (i, next) = some b := by rw [l4, l3, l2, l1]; simp [*, C.lb]
  have c6 : s4.pair2he.lookup (next, k) = none := by rw [l4, l3, l2, l1]; simp [*]
  have d6 : s4.he2pair.lookup (m.hFresh + 5) = none := by rw [j4, j3, j2, j1]; simp [C.nob]
  obtain ⟨s5, hs5⟩ : ∃ s, s4.insert (next, k) (m.hFresh + 5) = s := ⟨_, rfl⟩
  have l5 : ∀ e, s5.pair2he.lookup e = if e = (next, k) then some (m.hFresh + 5) else s4.pair2he.lookup e := by rw [← hs5]; exact fun e => insert_pair c6 e
  have j5 : ∀ e, s5.he2pair.lookup e = if e = m.hFresh + 5 then some (next, k) else s4.he2pair.lookup e := by rw [← hs5]; exact fun e => insert_he d6 e
  -- the vertices
  have vs' : ∀ {j v : Nat}, (hs.map m.hSrc)[j]? = some v → (hs.map m.hSrc ++ [m.vFresh])[j]? = some v := by
    intro j v e
    rw [List.getElem?_append_left (List.getElem?_eq_some_iff.1 e).1, e]
  have vk : (hs.map m.hSrc ++ [m.vFresh])[k]? = some m.vFresh := by
    rw [← hk]; simp
  have pos : ∀ {j v}, (hs.map m.hSrc)[j]? = some v → m.vAlive v = true → boundaryPos (hs.map m.hSrc) j m = .ok (m.vPos v) m := by
    intro j v e av
    simp [boundaryPos, boundaryAt, e, getPos, av]
  have av1 := w.src_alive _ C.aa
  have av2 := w.src_alive _ C.ab
  have av3 := w.src_alive _ C.aq
  unfold frontMiddle
  simp only [List.length_map, C.hprev, C.hnext, C.hpp, C.hqq, C.lp, C.lq]
  rw [bind_apply]
  rw [bind_apply, pos C.va av1]
  dsimp only
  rw [bind_apply, pos C.vb av2]
  dsimp only
  rw [bind_apply, pos C.vq av3]
  dsimp only
  cases hx : frontMid (m.vPos (m.hSrc a)) (m.vPos (m.hSrc b)) (m.vPos (m.hSrc q)) with
  | none => rfl
  | some x =>
    rw [bind_apply]
    simp only [orThrowM, pure_apply]
    rw [allocV1, alloc2]
    have e0 : (m.allocV x).allocH.allocH.vAlive m.vFresh = true := by simp [upd]
    have e1 : (m.allocV x).allocH.allocH.hAlive m.hFresh = true := by simp [upd]
    have e1' : (m.allocV x).allocH.allocH.hAlive (m.hFresh + 1) = true := by simp [upd]
    have e2 : (m.allocV x).allocH.allocH.hAlive p = true := by simp [upd, C.ap]
    have hh1 : (m.allocV x).hFresh = m.hFresh := rfl
    simp only [bind_apply, boundaryAt, C.va, pure_apply, setSrc, e1, if_true, setBd, setNext, e2, setVHe, e0, e1', hh1]
    have e3 : ({ (m.allocV x).allocH.allocH with
        vHe := upd (m.allocV x).allocH.allocH.vHe m.vFresh (m.hFresh + 1)
        hSrc := upd (upd (m.allocV x).allocH.allocH.hSrc m.hFresh (m.hSrc a)) (m.hFresh + 1) m.vFresh
        hBd := upd (upd (m.allocV x).allocH.allocH.hBd m.hFresh true) (m.hFresh + 1) true
        hNext := upd (upd (upd (m.allocV x).allocH.allocH.hNext p m.hFresh) m.hFresh (m.hFresh + 1)) (m.hFresh + 1) q } : Mesh F) =
        m.midSide p q (m.hSrc a) x := by
      simp only [Mesh.midSide, Mesh.allocH, Mesh.allocV, upd_upd]
      congr 1
      · funext z; simp only [upd]; repeat' split
        all_goals rfl
      · funext z; simp only [upd]; repeat' split
        all_goals rfl
      · funext z; simp only [upd]; repeat' split
        all_goals rfl
    simp only [e3, hk, hs1]
    have na : ∀ j, a ≠ m.hFresh + j := fun j => by omega
    have nb : ∀ j, b ≠ m.hFresh + j := fun j => by omega
    have na' : ∀ j, m.hFresh + j ≠ a := fun j => by omega
    have nb' : ∀ j, m.hFresh + j ≠ b := fun j => by omega
    have n0 : a ≠ m.hFresh := by omega
    have n0' : b ≠ m.hFresh := by omega
    have hF : (m.midSide p q (m.hSrc a) x).hFresh = m.hFresh + 2 := rfl
    have hF' : (m.midSide p q (m.hSrc a) x).allocH.hFresh = m.hFresh + 3 := rfl
    have q2 := pair_new (m := m.midSide p q (m.hSrc a) x) c2
    rw [hF, hs2] at q2
    have q3 := pair_new (m := (m.midSide p q (m.hSrc a) x).allocH) c3
    rw [hF', hs3] at q3
    have t1 := addTri_eq (vs := hs.map m.hSrc ++ [m.vFresh]) (m := m.midSide p q (m.hSrc a) x) (pair_old c1) q2 q3 (vs' C.va) (vs' C.vb) vk
      (by simp [upd, C.aa, na, n0]) (by simp [upd]) (by simp [upd])
    have g1 : (m.midSide p q (m.hSrc a) x).allocH.allocH.fFresh = m.fFresh := rfl
    rw [g1] at t1
    rw [t1]
    dsimp only
    obtain ⟨M1, hM1⟩ : ∃ M1, (m.midSide p q (m.hSrc a) x).allocH.allocH.tri a (m.hFresh + 2) (m.hFresh + 3) (m.hSrc a) (m.hSrc b) m.vFresh = M1 := ⟨_, rfl⟩
    have hG : M1.hFresh = m.hFresh + 4 := by rw [← hM1]; rfl
    have hG' : M1.allocH.hFresh = m.hFresh + 5 := by simp [hG]
    have q4 := pair_new (m := M1) c4
    rw [hG, hs4] at q4
    have q6 := pair_new (m := M1.allocH) c6
    rw [hG', hs5] at q6
    have t2 := addTri_eq (vs := hs.map m.hSrc ++ [m.vFresh]) (m := M1) q4 (pair_old c5) q6 vk (vs' C.vb) (vs' C.vq)
      (by simp [upd, hG]) (by simp [upd, hG, nb, ← hM1, C.ab]) (by simp [upd, hG])
    have g2 : M1.allocH.allocH.fFresh = m.fFresh + 1 := by rw [← hM1]; rfl
    rw [g2] at t2
    rw [hM1, t2]
    dsimp only
    have e4 : (M1.allocH.allocH.tri (m.hFresh + 4) b (m.hFresh + 5) m.vFresh (m.hSrc b) (m.hSrc q)).fAlive f = true := by
      simp [upd, ← hM1, af]
    have e5 : (M1.allocH.allocH.tri (m.hFresh + 4) b (m.hFresh + 5) m.vFresh (m.hSrc b) (m.hSrc q)).hAlive m.hFresh = true := by
      simp [upd, hG, ← hM1]
    have e6 : (M1.allocH.allocH.tri (m.hFresh + 4) b (m.hFresh + 5) m.vFresh (m.hSrc b) (m.hSrc q)).hAlive (m.hFresh + 1) = true := by
      simp [upd, hG, ← hM1]
    simp only [setFHe, setFace, e4, e5, e6, if_true]
    have e7 : m.midTwo f p a b q x = (M1.allocH.allocH.tri (m.hFresh + 4) b (m.hFresh + 5) m.vFresh (m.hSrc b) (m.hSrc q)).midEnd f m.hFresh (m.hFresh + 1) := by
      rw [← hM1]; rfl
    have e8 : ({ M1.allocH.allocH.tri (m.hFresh + 4) b (m.hFresh + 5) m.vFresh (m.hSrc b) (m.hSrc q) with
        fHe := upd (M1.allocH.allocH.tri (m.hFresh + 4) b (m.hFresh + 5) m.vFresh (m.hSrc b) (m.hSrc q)).fHe f m.hFresh
        hFace := upd (upd (M1.allocH.allocH.tri (m.hFresh + 4) b (m.hFresh + 5) m.vFresh (m.hSrc b) (m.hSrc q)).hFace m.hFresh f) (m.hFresh + 1) f } : Mesh F) =
        m.midTwo f p a b q x := by rw [e7]; rfl
    rw [e8]
    have ra := (w.hBound _ (w.rev_alive a C.aa)).1.ne'
    have rb := (w.hBound _ (w.rev_alive b C.ab)).1.ne'
    have gl' := gl.ne'
    have gl'' : m.fFresh + 1 ≠ f := by omega
    have s5l : ∀ e, s5.pair2he.lookup e = if e = (next, k) then some (m.hFresh + 5) else if e = (k, i) then some (m.hFresh + 4) else
        if e = (k, prev) then some (m.hFresh + 3) else if e = (i, k) then some (m.hFresh + 2) else
        if e = (k, next) then some (m.hFresh + 1) else if e = (prev, k) then some m.hFresh else (startMaps hs).pair2he.lookup e := by
      intro e; rw [l5, l4, l3, l2, l1]
    have s5j : ∀ e, s5.he2pair.lookup e = if e = m.hFresh + 5 then some (next, k) else if e = m.hFresh + 4 then some (k, i) else
        if e = m.hFresh + 3 then some (k, prev) else if e = m.hFresh + 2 then some (i, k) else
        if e = m.hFresh + 1 then some (k, next) else if e = m.hFresh then some (prev, k) else (startMaps hs).he2pair.lookup e := by
      intro e; rw [j5, j4, j3, j2, j1]
    clear e8 e7 e6 e5 e4 t2 t1 q2 q3 q4 q6 l5 l4 l3 l2 l1 j5 j4 j3 j2 j1 e3 c1 c2 c3 c4 c5 c6 d2 d3 d4 d6
    have run1 := circ3 (body := frontLinkRev s5) (a := a) (b := m.hFresh + 2) (c := m.hFresh + 3) (m := m.midTwo f p a b q x)
      (by omega) (by omega) (by omega) (na _) (na _) (by simp [Mesh.midTwo])
      (link_old (by simp [Mesh.midTwo, upd, Nat.add_assoc, C.aa, na, n0]) (by simp [Mesh.midTwo, upd, Nat.add_assoc, na, n0, ra]))
      (link_new (r := m.hFresh + 4) (e := (i, k)) (by simp [Mesh.midTwo, upd, Nat.add_assoc]) (by simp [Mesh.midTwo, upd, Nat.add_assoc]) (by simp [Mesh.midTwo, upd, Nat.add_assoc])
        (by rw [s5j]; simp) (by rw [s5l]; simp [*]))
      (link_new (r := m.hFresh) (e := (k, prev)) (by simp [Mesh.midTwo, upd, Nat.add_assoc]) (by simp [Mesh.midTwo, upd, Nat.add_assoc]) (by simp [Mesh.midTwo, upd, Nat.add_assoc])
        (by rw [s5j]; simp) (by rw [s5l]; simp [*]))
      (by simp [Mesh.midTwo, upd, Nat.add_assoc, C.aa, na, n0]) (by simp [Mesh.midTwo, upd, Nat.add_assoc]) (by simp [Mesh.midTwo, upd, Nat.add_assoc])
      (by simp [Mesh.midTwo, upd, Nat.add_assoc, na, n0, C.pq.2.2]) (by simp [Mesh.midTwo, upd, Nat.add_assoc, nb']) (by simp [Mesh.midTwo, upd, Nat.add_assoc, nb'])
    have run2 := circ3 (body := frontLinkRev s5) (a := m.hFresh + 4) (b := b) (c := m.hFresh + 5)
      (m := ((m.midTwo f p a b q x).pairUp (m.hFresh + 2) (m.hFresh + 4)).pairUp (m.hFresh + 3) m.hFresh)
      (by omega) (by omega) (by omega) (nb' _) (by omega) (by simp [Mesh.midTwo])
      (link_old (by simp [Mesh.midTwo, upd, Nat.add_assoc]) (by simp [Mesh.midTwo, upd, Nat.add_assoc]))
      (link_old (by simp [Mesh.midTwo, upd, Nat.add_assoc, nb, n0', C.ab]) (by simp [Mesh.midTwo, upd, Nat.add_assoc, nb, n0', rb]))
      (link_new (r := m.hFresh + 1) (e := (next, k)) (by simp [Mesh.midTwo, upd, Nat.add_assoc]) (by simp [Mesh.midTwo, upd, Nat.add_assoc]) (by simp [Mesh.midTwo, upd, Nat.add_assoc])
        (by rw [s5j]; simp) (by rw [s5l]; simp [*]))
      (by simp [Mesh.midTwo, upd, Nat.add_assoc]) (by simp [Mesh.midTwo, upd, Nat.add_assoc, nb, n0', C.ab]) (by simp [Mesh.midTwo, upd, Nat.add_assoc])
      (by simp [Mesh.midTwo, upd, Nat.add_assoc, nb']) (by simp [Mesh.midTwo, upd, Nat.add_assoc, nb]) (by simp [Mesh.midTwo, upd, Nat.add_assoc])
    simp only [frontLink, bind_apply]
    rw [getFHe_ok (by simp [Mesh.midTwo, upd, Nat.add_assoc])]
    have u1 : (m.midTwo f p a b q x).fHe m.fFresh = a := by simp [Mesh.midTwo, upd, Nat.add_assoc, gl', gl'']
    dsimp only
    rw [u1, run1]
    dsimp only
    rw [getFHe_ok (by simp [Mesh.midTwo, upd, Nat.add_assoc])]
    have u2 : (((m.midTwo f p a b q x).pairUp (m.hFresh + 2) (m.hFresh + 4)).pairUp (m.hFresh + 3) m.hFresh).fHe (m.fFresh + 1) = m.hFresh + 4 := by
      simp [Mesh.midTwo, upd, Nat.add_assoc, gl', gl'']
    dsimp only
    rw [u2, run2]
    rfl

end TinyMesh
