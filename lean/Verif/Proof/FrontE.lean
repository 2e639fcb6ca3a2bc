import Verif.Proof.FrontD
import Verif.Proof.FillE
/-
One triangle at a corner of the front.
-/
namespace TinyMesh
open Orbit
variable {F : Type} {m : Mesh F}

/-- four half-edges of the hole that follow each other, with the entries of the maps -/
structure Corner (m : Mesh F) (f : Nat) (hs : List Nat) (pp prev i next qq p a b q : Nat) : Prop where
  n4 : 4 ≤ hs.length
  hpp : (prev + hs.length - 1) % hs.length = pp
  hprev : (i + hs.length - 1) % hs.length = prev
  hnext : (i + 1) % hs.length = next
  hqq : (next + 1) % hs.length = qq
  lt : prev < hs.length ∧ i < hs.length ∧ next < hs.length
  ne : prev ≠ i ∧ i ≠ next ∧ prev ≠ next
  ap : m.hAlive p = true
  aa : m.hAlive a = true
  ab : m.hAlive b = true
  aq : m.hAlive q = true
  fp : m.hFace p = f
  fa : m.hFace a = f
  fb : m.hFace b = f
  fq : m.hFace q = f
  np : m.hNext p = a
  na : m.hNext a = b
  nb : m.hNext b = q
  pa : p ≠ a
  pb : p ≠ b
  pq : q ≠ a ∧ q ≠ b ∧ a ≠ b
  lp : (startMaps hs).he pp prev = p
  la : (startMaps hs).pair2he.lookup (prev, i) = some a
  lb : (startMaps hs).pair2he.lookup (i, next) = some b
  lq : (startMaps hs).he next qq = q
  va : (hs.map m.hSrc)[prev]? = some (m.hSrc a)
  vb : (hs.map m.hSrc)[i]? = some (m.hSrc b)
  vq : (hs.map m.hSrc)[next]? = some (m.hSrc q)
  no1 : (startMaps hs).pair2he.lookup (next, prev) = none
  nok : ∀ k l, hs.length ≤ k ∨ hs.length ≤ l → (startMaps hs).pair2he.lookup (k, l) = none
  nob : ∀ h, m.hFresh ≤ h → (startMaps hs).he2pair.lookup h = none

theorem Mesh.WF.corner (w : m.WF) {f : Nat} (af : m.fAlive f = true) {hs : List Nat} (hl : FaceLoop m f hs) (n4 : 4 ≤ hs.length) {i : Nat}
    (hi : i < hs.length) : ∃ pp prev next qq p a b q, Corner m f hs pp prev i next qq p a b q := by
  have key : ∀ k, (k + 1) % hs.length = if k + 1 = hs.length then 0 else if k + 1 < hs.length then k + 1 else (k + 1) % hs.length := by
    intro k
    split
    · next h => rw [h, Nat.mod_self]
    · split
      · next h => exact Nat.mod_eq_of_lt h
      · rfl
  have kp : ∀ k, k < hs.length → (k + hs.length - 1) % hs.length = if k = 0 then hs.length - 1 else k - 1 := by
    intro k hk
    split
    · next h => subst h; rw [Nat.zero_add]; exact Nat.mod_eq_of_lt (by omega)
    · have : k + hs.length - 1 = (k - 1) + hs.length := by omega
      rw [this, Nat.add_mod_right]; exact Nat.mod_eq_of_lt (by omega)
  have ks : ∀ k, k < hs.length → (k + 1) % hs.length = if k + 1 = hs.length then 0 else k + 1 := by
    intro k hk
    rw [key]
    split
    · rfl
    · rw [if_pos (by omega)]
  obtain ⟨prev, hprev⟩ : ∃ x, (i + hs.length - 1) % hs.length = x := ⟨_, rfl⟩
  obtain ⟨next, hnext⟩ : ∃ x, (i + 1) % hs.length = x := ⟨_, rfl⟩
  obtain ⟨pp, hpp⟩ : ∃ x, (prev + hs.length - 1) % hs.length = x := ⟨_, rfl⟩
  obtain ⟨qq, hqq⟩ : ∃ x, (next + 1) % hs.length = x := ⟨_, rfl⟩
  have l1 : prev < hs.length := by rw [← hprev]; exact Nat.mod_lt _ (by omega)
  have l2 : next < hs.length := by rw [← hnext]; exact Nat.mod_lt _ (by omega)
  have l0 : pp < hs.length := by rw [← hpp]; exact Nat.mod_lt _ (by omega)
  have e1 := hprev; rw [kp i hi] at e1
  have e2 := hnext; rw [ks i hi] at e2
  have e0 := hpp; rw [kp prev l1] at e0
  have e3 := hqq; rw [ks next l2] at e3
  have s0 : (pp + 1) % hs.length = prev := by rw [ks pp l0]; split at e0 <;> split <;> omega
  have s1 : (prev + 1) % hs.length = i := by rw [ks prev l1]; split at e1 <;> split <;> omega
  have g0 := List.getElem?_eq_getElem l0
  have g1 := List.getElem?_eq_getElem l1
  have g2 := List.getElem?_eq_getElem hi
  have g3 := List.getElem?_eq_getElem l2
  have n0 := hl.next _ _ g0; rw [s0, g1] at n0
  have n1 := hl.next _ _ g1; rw [s1, g2] at n1
  have n2 := hl.next _ _ g2; rw [hnext, g3] at n2
  have al : ∀ k (hk : k < hs.length), m.hAlive hs[k] = true ∧ m.hFace hs[k] = f := fun k hk => (hl.mem hs[k]).1 (List.getElem_mem hk)
  have nej : ∀ k l (hk : k < hs.length) (hl' : l < hs.length), k ≠ l → hs[k] ≠ hs[l] := fun k l hk hl' hne e =>
    hne ((List.Nodup.getElem_inj_iff hl.nodup).1 e)
  have look := startMaps_ok hl.nodup
  refine ⟨pp, prev, next, qq, hs[pp], hs[prev], hs[i], hs[next], ?_⟩
  have ne1 : prev ≠ i := by split at e1 <;> omega
  have ne2 : i ≠ next := by split at e2 <;> omega
  have ne3 : prev ≠ next := by split at e1 <;> split at e2 <;> omega
  have ne4 : pp ≠ prev := by split at e0 <;> omega
  have ne5 : pp ≠ i := by split at e0 <;> split at e1 <;> omega
  refine ⟨n4, hpp, hprev, hnext, hqq, ⟨l1, hi, l2⟩, ⟨ne1, ne2, ne3⟩, (al _ _).1, (al _ _).1, (al _ _).1, (al _ _).1, (al _ _).2, (al _ _).2,
    (al _ _).2, (al _ _).2, (Option.some.inj n0).symm, (Option.some.inj n1).symm, (Option.some.inj n2).symm, nej _ _ _ _ ne4, nej _ _ _ _ ne5,
    ⟨nej _ _ _ _ (Ne.symm ne3), nej _ _ _ _ (Ne.symm ne2), nej _ _ _ _ ne1⟩, ?_, ?_, ?_, ?_, ?_, ?_, ?_, ?_, ?_, ?_⟩
  · unfold HeMaps.he
    rw [(look.1 (pp, prev) hs[pp]).2 ⟨s0.symm, g0⟩]; rfl
  · exact (look.1 (prev, i) hs[prev]).2 ⟨s1.symm, g1⟩
  · exact (look.1 (i, next) hs[i]).2 ⟨hnext.symm, g2⟩
  · unfold HeMaps.he
    rw [(look.1 (next, qq) hs[next]).2 ⟨hqq.symm, g3⟩]; rfl
  · rw [List.getElem?_map, g1]; rfl
  · rw [List.getElem?_map, g2]; rfl
  · rw [List.getElem?_map, g3]; rfl
  · rw [Option.eq_none_iff_forall_not_mem]
    intro x hx
    have := ((look.1 _ _).1 hx).1
    dsimp only at this
    rw [hqq] at this
    split at e1 <;> split at e2 <;> split at e3 <;> omega
  · intro k l hkl
    rw [Option.eq_none_iff_forall_not_mem]
    intro x hx
    have := (look.1 _ _).1 hx
    dsimp only at this
    have h1 := (List.getElem?_eq_some_iff.1 this.2).1
    have h2 : l < hs.length := by rw [this.1]; exact Nat.mod_lt _ (by omega)
    omega
  · intro h hh
    rw [Option.eq_none_iff_forall_not_mem]
    intro x hx
    have := (look.1 _ _).1 ((look.2 _ _).1 hx)
    have := w.hBound _ ((hl.mem h).1 (List.mem_of_getElem? this.2)).1
    omega

/-! ### The maps -/

theorem lookup_append_of {κ ν : Type} [BEq κ] [LawfulBEq κ] [DecidableEq κ] {l : List (κ × ν)} {k : κ} (k' : κ) {x : ν} (h : l.lookup k = none) :
    (l ++ [(k, x)]).lookup k' = if k' = k then some x else l.lookup k' := lookup_snoc l k k' x h

theorem assign_pair (s : HeMaps) (e : Nat × Nat) (h : Nat) (e' : Nat × Nat) :
    (s.assign e h).pair2he.lookup e' = if e' = e then some h else s.pair2he.lookup e' := by
  unfold HeMaps.assign
  dsimp only
  by_cases x : e' = e
  · subst x; simp
  · have : (e' == e) = false := by simpa using x
    simp [List.lookup, this, x]

theorem assign_he (s : HeMaps) (e : Nat × Nat) (h : Nat) (h' : Nat) :
    (s.assign e h).he2pair.lookup h' = if h' = h then some e else s.he2pair.lookup h' := by
  unfold HeMaps.assign
  dsimp only
  by_cases x : h' = h
  · subst x; simp
  · have : (h' == h) = false := by simpa using x
    simp [List.lookup, this, x]

/-! ### One triangle -/

/-- the mesh after the links of the new side of the front have been set, completion.cpp:361-367 -/
@[simps -fullyApplied] def Mesh.earSide (m : Mesh F) (p q u : Nat) : Mesh F := { m.allocH with
  hSrc := upd m.hSrc m.hFresh u
  hBd := upd m.hBd m.hFresh true
  hNext := upd (upd m.hNext p m.hFresh) m.hFresh q }

/-- the mesh after `frontEar` -/
@[simps -fullyApplied] def Mesh.earEnd (m : Mesh F) (f h : Nat) : Mesh F := { m with
  fHe := upd m.fHe f h
  hFace := upd m.hFace h f }

theorem Mesh.Heap.earSide (K : m.Heap) (p q u : Nat) : (m.earSide p q u).Heap := by
  have := K.allocH
  exact ⟨this.hD, this.vD, this.fD, this.hb, this.vb, this.fb, this.h0, this.v0, this.f0⟩

theorem Mesh.Heap.earEnd (K : m.Heap) (f h : Nat) : (m.earEnd f h).Heap := ⟨K.hD, K.vD, K.fD, K.hb, K.vb, K.fb, K.h0, K.v0, K.f0⟩

/-- the mesh after a round that adds one triangle -/
def Mesh.earMesh (m : Mesh F) (f p a b q : Nat) : Mesh F :=
  ((((m.earSide p q (m.hSrc a)).allocH.tri a b (m.hFresh + 1) (m.hSrc a) (m.hSrc b) (m.hSrc q)).earEnd f m.hFresh).pairUp (m.hFresh + 1) m.hFresh)

theorem frontEar_eq [Scalar F] (w : m.WF) {f : Nat} (af : m.fAlive f = true) {hs : List Nat} {pp prev i next qq p a b q : Nat}
    (C : Corner m f hs pp prev i next qq p a b q) :
    (frontEar f (hs.map m.hSrc) (startMaps hs) i >>= fun r => frontLink r.2 r.1) m = .ok () (m.earMesh f p a b q) := by
  have lt : ∀ {h}, m.hAlive h = true → h < m.hFresh := fun a => (w.hBound _ a).2
  have pl := lt C.ap
  have al := lt C.aa
  have bl := lt C.ab
  have ql := lt C.aq
  have gl := (w.fBound _ af).2
  have b0 := (w.hBound _ C.ab).1
  have a0 := (w.hBound _ C.aa).1
  have ne := C.ne
  have pq := C.pq
  have hl := C.n4
  -- the maps
  have k1 : ((startMaps hs).assign (prev, next) m.hFresh).pair2he.lookup (prev, i) = some a := by
    rw [assign_pair, if_neg (by simp; exact ne.2.1), C.la]
  have k2 : ((startMaps hs).assign (prev, next) m.hFresh).pair2he.lookup (i, next) = some b := by
    rw [assign_pair, if_neg (by simp; exact Ne.symm ne.1), C.lb]
  have k3 : ((startMaps hs).assign (prev, next) m.hFresh).pair2he.lookup (next, prev) = none := by
    rw [assign_pair, if_neg (by simp; exact fun h => absurd h.symm ne.2.2), C.no1]
  have k4 : ((startMaps hs).assign (prev, next) m.hFresh).pair2he.lookup (prev, next) = some m.hFresh := by
    rw [assign_pair, if_pos rfl]
  have k5 : ((startMaps hs).assign (prev, next) m.hFresh).he2pair.lookup (m.hFresh + 1) = none := by
    rw [assign_he, if_neg (by omega), C.nob _ (by omega)]
  have tri := addTri_eq (vs := hs.map m.hSrc) (m := m.earSide p q (m.hSrc a)) (pair_old k1) (pair_old k2) (pair_new k3) C.va C.vb C.vq
    (by simp [upd, al.ne, C.aa]) (by simp [upd, bl.ne, C.ab]) (by simp [upd])
  have hD : (m.earSide p q (m.hSrc a)).hFresh = m.hFresh + 1 := rfl
  have hG : (m.earSide p q (m.hSrc a)).allocH.fFresh = m.fFresh := rfl
  rw [hD, hG] at tri
  have ear : frontEar f (hs.map m.hSrc) (startMaps hs) i m =
      .ok ([m.fFresh], ((startMaps hs).assign (prev, next) m.hFresh).insert (next, prev) (m.hFresh + 1))
        (((m.earSide p q (m.hSrc a)).allocH.tri a b (m.hFresh + 1) (m.hSrc a) (m.hSrc b) (m.hSrc q)).earEnd f m.hFresh) := by
    unfold frontEar
    simp only [List.length_map, C.hprev, C.hnext, C.hpp, C.hqq, C.lp, C.lq]
    rw [alloc1]
    have e1 : m.allocH.hAlive m.hFresh = true := by simp [upd]
    have e2 : m.allocH.hAlive p = true := by simp [upd, C.ap]
    simp only [bind_apply, boundaryAt, C.va, pure_apply, setSrc, e1, if_true, setBd, setNext, e2]
    have e3 : ({ m.allocH with
        hSrc := upd m.allocH.hSrc m.hFresh (m.hSrc a)
        hBd := upd m.allocH.hBd m.hFresh true
        hNext := upd (upd m.allocH.hNext p m.hFresh) m.hFresh q } : Mesh F) = m.earSide p q (m.hSrc a) := by
      simp only [Mesh.earSide, Mesh.allocH, upd_upd]
      rw [upd_comm (a := m.hFresh) (b := p) _ _ _ (by omega), upd_upd]
    simp only [e3]
    rw [tri]
    have e4 : ((m.earSide p q (m.hSrc a)).allocH.tri a b (m.hFresh + 1) (m.hSrc a) (m.hSrc b) (m.hSrc q)).fAlive f = true := by
      simp [upd, af]
    have e5 : ((m.earSide p q (m.hSrc a)).allocH.tri a b (m.hFresh + 1) (m.hSrc a) (m.hSrc b) (m.hSrc q)).hAlive m.hFresh = true := by
      simp [upd]
    simp only [setFHe, setFace, e4, e5, if_true]
    rfl
  rw [bind_apply, ear]
  dsimp only
  unfold frontLink
  have f1 : (((m.earSide p q (m.hSrc a)).allocH.tri a b (m.hFresh + 1) (m.hSrc a) (m.hSrc b) (m.hSrc q)).earEnd f m.hFresh).fAlive m.fFresh = true := by
    simp [upd]
  have f2 : (((m.earSide p q (m.hSrc a)).allocH.tri a b (m.hFresh + 1) (m.hSrc a) (m.hSrc b) (m.hSrc q)).earEnd f m.hFresh).fHe m.fFresh = a := by
    simp [upd, Ne.symm gl.ne]
  rw [bind_apply, getFHe_ok f1, f2]
  dsimp only
  have ra := (w.hBound _ (w.rev_alive a C.aa)).1
  have rb := (w.hBound _ (w.rev_alive b C.ab)).1
  have na1 : a ≠ m.hFresh := al.ne
  have na2 : a ≠ m.hFresh + 1 := by omega
  have nb1 : b ≠ m.hFresh := bl.ne
  have nb2 : b ≠ m.hFresh + 1 := by omega
  have lk : ∀ e', (((startMaps hs).assign (prev, next) m.hFresh).insert (next, prev) (m.hFresh + 1)).pair2he.lookup e' =
      if e' = (next, prev) then some (m.hFresh + 1) else ((startMaps hs).assign (prev, next) m.hFresh).pair2he.lookup e' := insert_pair k3
  have run := circ3 (body := frontLinkRev (((startMaps hs).assign (prev, next) m.hFresh).insert (next, prev) (m.hFresh + 1)))
    (a := a) (b := b) (c := m.hFresh + 1)
    (m := ((m.earSide p q (m.hSrc a)).allocH.tri a b (m.hFresh + 1) (m.hSrc a) (m.hSrc b) (m.hSrc q)).earEnd f m.hFresh)
    (by omega) (by omega) (by omega) pq.2.2 na2 (by simp; omega)
    (link_old (by simp [upd, C.aa]) (by simp [upd, na1, na2]; omega))
    (link_old (by simp [upd, C.ab]) (by simp [upd, nb1, nb2]; omega))
    (link_new (r := m.hFresh) (e := (next, prev)) (by simp [upd]) (by simp [upd]) (by simp [upd])
      (by rw [insert_he k5, if_pos rfl]) (by rw [lk, if_neg (by simp; exact fun h => absurd h ne.2.2), k4]))
    (by simp [upd, C.aa]) (by simp [upd, C.ab]) (by simp [upd]) (by simp [upd, na1, na2, pq.2.2]) (by simp [upd, nb2, Ne.symm pq.2.2])
    (by simp [upd])
  rw [bind_apply, run]
  rfl

end TinyMesh
