import Verif.Proof.Basic
/-
Circulators and queries on consistent meshes.
-/
namespace TinyMesh
open Orbit
variable {F : Type} {m : Mesh F}

/-- next half-edge around the start vertex -/
def Mesh.sig (m : Mesh F) (x : Nat) : Nat := m.hNext (m.hRev x)

abbrev Mesh.HA (m : Mesh F) (x : Nat) : Prop := m.hAlive x = true

namespace Mesh.WF
variable (w : m.WF)
include w

theorem ne0 {h : Nat} (a : m.HA h) : h ≠ 0 := by have := (w.hBound h a).1; omega
theorem vne0 {v : Nat} (a : m.vAlive v = true) : v ≠ 0 := by have := (w.vBound v a).1; omega
theorem fne0 {v : Nat} (a : m.fAlive v = true) : v ≠ 0 := by have := (w.fBound v a).1; omega

theorem sig_alive {h : Nat} (a : m.HA h) : m.HA (m.sig h) := w.next_alive _ (w.rev_alive _ a)
theorem sig_src {h : Nat} (a : m.HA h) : m.hSrc (m.sig h) = m.hSrc h := by
  unfold Mesh.sig
  rw [← w.src_rev _ (w.rev_alive _ a), w.rev_rev _ a]

theorem permNext : Perm m.hNext m.HA m.hFresh where
  maps := w.next_alive
  inj := w.next_inj
  bound := fun x hx => (w.hBound x hx).2

theorem permSig : Perm m.sig m.HA m.hFresh where
  maps := fun _ a => w.sig_alive a
  inj := fun x y hx hy h => by
    have := w.next_inj _ _ (w.rev_alive _ hx) (w.rev_alive _ hy) h
    rw [← w.rev_rev _ hx, this, w.rev_rev _ hy]
  bound := fun x hx => (w.hBound x hx).2

theorem sig_iter_src {h : Nat} (a : m.HA h) (n : Nat) : m.hSrc (m.sig^[n] h) = m.hSrc h := by
  induction n with
  | zero => rfl
  | succ n ih =>
    rw [Function.iterate_succ_apply', w.sig_src (w.permSig.iter a n), ih]

theorem next_iter_face {h : Nat} (a : m.HA h) (n : Nat) : m.hFace (m.hNext^[n] h) = m.hFace h := by
  induction n with
  | zero => rfl
  | succ n ih =>
    rw [Function.iterate_succ_apply', w.face_next _ (w.permNext.iter a n), ih]

theorem mem_ring {v x : Nat} (a : m.vAlive v = true) :
    x ∈ orbit m.sig (m.vHe v) ↔ m.HA x ∧ m.hSrc x = v := by
  have hv := w.vHe_ok v a
  rw [w.permSig.mem_orbit hv.1]
  constructor
  · rintro ⟨n, rfl⟩
    exact ⟨w.permSig.iter hv.1 n, by rw [w.sig_iter_src hv.1, hv.2]⟩
  · rintro ⟨h1, h2⟩
    exact w.ring_conn _ _ hv.1 h1 (by rw [hv.2, h2])

theorem mem_loop {f x : Nat} (a : m.fAlive f = true) :
    x ∈ orbit m.hNext (m.fHe f) ↔ m.HA x ∧ m.hFace x = f := by
  have hf := w.fHe_ok f a
  rw [w.permNext.mem_orbit hf.1]
  constructor
  · rintro ⟨n, rfl⟩
    exact ⟨w.permNext.iter hf.1 n, by rw [w.next_iter_face hf.1, hf.2]⟩
  · rintro ⟨h1, h2⟩
    exact w.face_conn _ _ hf.1 h1 (by rw [hf.2, h2])

theorem ring_perm {v : Nat} (a : m.vAlive v = true) :
    (orbit m.sig (m.vHe v)).Perm (m.hes.filter (fun h => m.hSrc h == v)) := by
  rw [List.perm_ext_iff_of_nodup (w.permSig.nodup_orbit (w.vHe_ok v a).1)
    (w.hDense.nodup.filter _)]
  intro x
  rw [w.mem_ring a, List.mem_filter, w.hDense.mem]
  simp

theorem loop_perm {f : Nat} (a : m.fAlive f = true) :
    (orbit m.hNext (m.fHe f)).Perm (m.hes.filter (fun h => m.hFace h == f)) := by
  rw [List.perm_ext_iff_of_nodup (w.permNext.nodup_orbit (w.fHe_ok f a).1)
    (w.hDense.nodup.filter _)]
  intro x
  rw [w.mem_loop a, List.mem_filter, w.hDense.mem]
  simp

theorem ring_length {v : Nat} (a : m.vAlive v = true) :
    (orbit m.sig (m.vHe v)).length = m.outDeg v := by
  rw [(w.ring_perm a).length_eq, Mesh.outDeg, List.countP_eq_length_filter]

theorem loop_length {f : Nat} (a : m.fAlive f = true) :
    (orbit m.hNext (m.fHe f)).length = m.sides f := by
  rw [(w.loop_perm a).length_eq, Mesh.sides, List.countP_eq_length_filter]

theorem ringStep_ok {h : Nat} (a : m.HA h) : ringStep h m = .ok (m.sig h) m := by
  simp [ringStep, getRev_ok a, getNext_ok (w.rev_alive _ a), Mesh.sig]

omit w in
theorem faceStep_ok {h : Nat} (a : m.HA h) : faceStep h m = .ok (m.hNext h) m := by
  simp [faceStep, getNext_ok a]

theorem circ_ring {β : Type} {v : Nat} (a : m.vAlive v = true)
    {body : Nat → β → M F (Bool × β)} (g : Nat → β → Bool × β)
    (hbody : ∀ x, m.HA x → ∀ b, body x b m = .ok (g x b) m) (b : β) :
    circ ringStep (m.vHe v) b body m = .ok (foldPure g (orbit m.sig (m.vHe v)) b) m :=
  circ_pure w.permSig (w.vHe_ok v a).1 (fun _ h => w.ne0 h) m (Nat.le_refl _)
    (fun _ h => w.ringStep_ok h) g hbody b

theorem circ_face {β : Type} {f : Nat} (a : m.fAlive f = true)
    {body : Nat → β → M F (Bool × β)} (g : Nat → β → Bool × β)
    (hbody : ∀ x, m.HA x → ∀ b, body x b m = .ok (g x b) m) (b : β) :
    circ faceStep (m.fHe f) b body m = .ok (foldPure g (orbit m.hNext (m.fHe f)) b) m :=
  circ_pure w.permNext (w.fHe_ok f a).1 (fun _ h => w.ne0 h) m (Nat.le_refl _)
    (fun _ h => faceStep_ok h) g hbody b

theorem ringList_ok {v : Nat} (a : m.vAlive v = true) :
    ringList v m = .ok (orbit m.sig (m.vHe v)) m := by
  simp only [ringList, bind_apply, getVHe_ok a]
  refine (w.circ_ring a (fun x l => (false, l ++ [x])) (fun _ _ _ => by simp) _).trans ?_
  rw [foldPure_append]
  simp

theorem faceList_ok {f : Nat} (a : m.fAlive f = true) :
    faceList f m = .ok (orbit m.hNext (m.fHe f)) m := by
  simp only [faceList, bind_apply, getFHe_ok a]
  refine (w.circ_face a (fun x l => (false, l ++ [x])) (fun _ _ _ => by simp) _).trans ?_
  rw [foldPure_append]
  simp

theorem degree_ok {v : Nat} (a : m.vAlive v = true) : degree v m = .ok (m.outDeg v) m := by
  simp only [degree, bind_apply, getVHe_ok a]
  refine (w.circ_ring a (fun _ d => (false, d + 1)) (fun _ _ _ => by simp) _).trans ?_
  rw [foldPure_count, w.ring_length a]
  simp

theorem numCorners_ok {f : Nat} (a : m.fAlive f = true) : numCorners f m = .ok (m.sides f) m := by
  simp only [numCorners, bind_apply, getFHe_ok a]
  refine (w.circ_face a (fun _ d => (false, d + 1)) (fun _ _ _ => by simp) _).trans ?_
  rw [foldPure_count, w.loop_length a]
  simp

theorem vIsBoundary_ok {v : Nat} (a : m.vAlive v = true) :
    vIsBoundary v m = .ok ((orbit m.sig (m.vHe v)).any m.hBd) m := by
  simp only [vIsBoundary, bind_apply, getVHe_ok a]
  refine (w.circ_ring a (fun x _ => (m.hBd x, m.hBd x)) (fun x hx _ => by simp [getBd_ok hx]) _).trans ?_
  rw [foldPure_any]

theorem fIsBoundary_ok {f : Nat} (a : m.fAlive f = true) :
    fIsBoundary f m = .ok ((orbit m.hNext (m.fHe f)).any m.hBd) m := by
  simp only [fIsBoundary, bind_apply, getFHe_ok a]
  refine (w.circ_face a (fun x _ => (m.hBd x, m.hBd x)) (fun x hx _ => by simp [getBd_ok hx]) _).trans ?_
  rw [foldPure_any]

theorem fIsHole_ok {f : Nat} (a : m.fAlive f = true) :
    fIsHole f m = .ok ((orbit m.hNext (m.fHe f)).all m.hBd) m := by
  simp only [fIsHole, bind_apply, getFHe_ok a]
  refine (w.circ_face a (fun x _ => (!m.hBd x, m.hBd x)) (fun x hx _ => by simp [getBd_ok hx]) _).trans ?_
  rw [foldPure_all]

theorem fIsLocked_ok {f : Nat} (a : m.fAlive f = true) :
    fIsLocked f m = .ok ((orbit m.hNext (m.fHe f)).any (fun x => m.vLock (m.hSrc x))) m := by
  simp only [fIsLocked, bind_apply, getFHe_ok a]
  refine (w.circ_face a (fun x _ => (m.vLock (m.hSrc x), m.vLock (m.hSrc x)))
    (fun x hx _ => by simp [getSrc_ok hx, getLock_ok (w.src_alive _ hx)]) _).trans ?_
  rw [foldPure_any]

theorem ringVerts_ok {v : Nat} (a : m.vAlive v = true) :
    ringVerts v m = .ok ((orbit m.sig (m.vHe v)).map (fun x => m.hSrc (m.hNext x))) m := by
  simp only [ringVerts, bind_apply, getVHe_ok a]
  refine (w.circ_ring a (fun x l => (false, l ++ [m.hSrc (m.hNext x)]))
    (fun x hx _ => by simp [getDst_ok hx (w.next_alive _ hx)]) _).trans ?_
  rw [foldPure_map]
  simp

theorem ringDsts_ok {v : Nat} (a : m.vAlive v = true) :
    ringDsts v m = .ok ((orbit m.sig (m.vHe v)).map (fun x => m.hSrc (m.hNext x))) m := by
  simp only [ringDsts, bind_apply, getVHe_ok a]
  refine (w.circ_ring a (fun x l => (false, l ++ [m.hSrc (m.hNext x)]))
    (fun x hx b => by
      have h0 : (m.hSrc (m.hNext x) != 0) = true := by
        simpa using w.vne0 (w.src_alive _ (w.next_alive _ hx))
      simp [getDst_ok hx (w.next_alive _ hx), assert_true h0]) _).trans ?_
  rw [foldPure_map]
  simp

theorem faceVerts_ok {f : Nat} (a : m.fAlive f = true) :
    faceVerts f m = .ok ((orbit m.hNext (m.fHe f)).map m.hSrc) m := by
  simp only [faceVerts, bind_apply, getFHe_ok a]
  refine (w.circ_face a (fun x l => (false, l ++ [m.hSrc x]))
    (fun x hx _ => by simp [getSrc_ok hx]) _).trans ?_
  rw [foldPure_map]
  simp

theorem prevLoop_ok {h : Nat} (a : m.HA h) (p : Nat) (hret : m.hNext^[p] h = h)
    (hmin : ∀ i, 0 < i → i < p → m.hNext^[i] h ≠ h) :
    ∀ k i fuel, 0 < i → i + k = p → k < fuel →
      prevLoop h fuel (m.hNext^[i] h) m = .ok (m.hNext^[p - 1] h) m ∨ i = p := by
  intro k
  induction k with
  | zero => intro i fuel _ h1 _; right; omega
  | succ k ih =>
    intro i fuel hi hik hf
    left
    obtain ⟨fuel, rfl⟩ : ∃ f, fuel = f + 1 := ⟨fuel - 1, by omega⟩
    have ha := w.permNext.iter a i
    simp only [prevLoop, bind_apply, getNext_ok ha]
    rw [← Function.iterate_succ_apply' m.hNext]
    by_cases hk : k = 0
    · subst hk
      have h1 : m.hNext^[i.succ] h = h := by rw [show i.succ = p by omega]; exact hret
      simp only [h1, if_true, pure_apply, show p - 1 = i by omega]
    · have h1 : m.hNext^[i.succ] h ≠ h := hmin _ (by omega) (by omega)
      simp only [h1, if_false]
      rcases ih (i + 1) fuel (by omega) (by omega) (by omega) with h2 | h2
      · exact h2
      · omega

/-- `prev()` returns the half-edge whose `next` is the given one. -/
theorem getPrev_ok {h : Nat} (a : m.HA h) :
    ∃ q, m.HA q ∧ m.hNext q = h ∧ getPrev h m = .ok q m := by
  have hs := w.permNext.period_spec a
  have hle := w.permNext.period_le a
  set p := period m.hNext h with hpdef
  have hb := w.hBound h a
  refine ⟨m.hNext^[p - 1] h, w.permNext.iter a _, ?_, ?_⟩
  · rw [← Function.iterate_succ_apply' m.hNext, show (p - 1).succ = p by omega]; exact hs.2.1
  · simp only [getPrev, bind_apply, getNext_ok a, read_apply]
    rcases Nat.lt_or_ge 1 p with h1 | h1
    · rcases w.prevLoop_ok a p hs.2.1 hs.2.2 (p - 1) 1 m.hFresh (by omega) (by omega) (by omega)
        with h2 | h2
      · exact h2
      · omega
    · have hp1 : p = 1 := by omega
      have hn : m.hNext h = h := by
        have := hs.2.1; rw [hp1] at this; exact this
      obtain ⟨fuel, hfu⟩ : ∃ f, m.hFresh = f + 1 := ⟨m.hFresh - 1, by omega⟩
      rw [hfu, hp1]
      simp [prevLoop, hn, getNext_ok a]

/-- There is an inverse of `next`. -/
theorem exists_prv : ∃ P : Nat → Nat, ∀ h, m.HA h → P (m.hNext h) = h ∧ m.HA (P h) ∧ m.hNext (P h) = h := by
  classical
  have hs : ∀ h, ∃ q, m.HA h → m.HA q ∧ m.hNext q = h := by
    intro h
    by_cases a : m.HA h
    · obtain ⟨q, h1, h2⟩ := w.permNext.surj a
      exact ⟨q, fun _ => ⟨h1, h2⟩⟩
    · exact ⟨0, fun h => absurd h a⟩
  choose P hP using hs
  refine ⟨P, fun h a => ⟨?_, hP h a⟩⟩
  have := hP _ (w.next_alive _ a)
  exact w.next_inj _ _ this.1 a this.2

theorem tri_face {h x : Nat} (a : m.HA h) (t : m.OnTri h) (ax : m.HA x) (hf : m.hFace x = m.hFace h) :
    x = h ∨ x = m.hNext h ∨ x = m.hNext (m.hNext h) := by
  obtain ⟨n, hn⟩ := w.face_conn _ _ a ax hf.symm
  have h3 : m.hNext^[3] h = h := t
  have hm : m.hNext^[n] h = m.hNext^[n % 3] h := by
    conv_lhs => rw [← Nat.mod_add_div n 3]
    rw [Function.iterate_add_apply]
    congr 1
    generalize n / 3 = k
    induction k with
    | zero => rfl
    | succ k ih => rw [Nat.mul_add, Nat.mul_one, Function.iterate_add_apply, h3, ih]
  have : n % 3 = 0 ∨ n % 3 = 1 ∨ n % 3 = 2 := by omega
  rw [hm] at hn
  rcases this with h | h | h <;> rw [h] at hn <;> simp only [Function.iterate_succ, Function.iterate_zero,
    Function.comp, id] at hn <;> simp [hn]

omit w in
theorem onTri_next {h : Nat} (t : m.OnTri h) : m.OnTri (m.hNext h) := by
  unfold Mesh.OnTri at *; rw [t]

/-- Two half-edges that follow each other around a vertex are all half-edges leaving it. -/
theorem outDeg_le_two {x y : Nat} (ax : m.HA x) (h1 : m.sig x = y) (h2 : m.sig y = x) :
    m.outDeg (m.hSrc x) ≤ 2 := by
  have hall : ∀ z, m.HA z → m.hSrc z = m.hSrc x → z = x ∨ z = y := by
    intro z az hz
    obtain ⟨n, hn⟩ := w.ring_conn _ _ ax az hz.symm
    have hn' : m.sig^[n] x = z := hn
    have : ∀ n, m.sig^[n] x = x ∨ m.sig^[n] x = y := by
      intro n
      induction n with
      | zero => left; rfl
      | succ n ih =>
        rw [Function.iterate_succ_apply']
        rcases ih with ih | ih <;> rw [ih] <;> simp [h1, h2]
    rw [← hn']; exact this n
  have hnd : (m.hes.filter (fun h => m.hSrc h == m.hSrc x)).Nodup := w.hDense.nodup.filter _
  have hsub : m.hes.filter (fun h => m.hSrc h == m.hSrc x) ⊆ [x, y] := by
    intro z hz
    rw [List.mem_filter, w.hDense.mem] at hz
    have := hall z hz.1 (by simpa using hz.2)
    simpa using this
  have := (hnd.subperm hsub).length_le
  rw [Mesh.outDeg, List.countP_eq_length_filter]
  simpa using this

/-- The tips of two adjacent triangles differ unless the shared edge ends in a vertex of degree two. -/
theorem tips_ne (sm : m.Simple) {he : Nat} (a : m.HA he) (t' : m.OnTri (m.hRev he))
    (hd : 2 < m.outDeg (m.hSrc (m.hRev he))) :
    m.hSrc (m.hNext (m.hNext he)) ≠ m.hSrc (m.hNext (m.hNext (m.hRev he))) := by
  intro h
  have ar := w.rev_alive _ a
  have a0 := w.next_alive _ a
  have a1 := w.next_alive _ a0
  have a2 := w.next_alive _ ar
  have a3 := w.next_alive _ a2
  unfold Mesh.OnTri at t'
  have e0 : m.hSrc (m.hRev (m.hNext (m.hNext (m.hRev he)))) = m.hSrc (m.hRev he) := by
    rw [w.src_rev _ a3, t']
  have e1 : m.hSrc (m.hNext (m.hRev (m.hNext (m.hNext (m.hRev he))))) = m.hSrc (m.hNext (m.hNext (m.hRev he))) := by
    rw [← w.src_rev _ (w.rev_alive _ a3), w.rev_rev _ a3]
  have e2 : m.hRev (m.hNext (m.hNext (m.hRev he))) = m.hNext he :=
    sm.no_dup _ _ (w.rev_alive _ a3) a0 (by rw [e0, w.src_rev _ a]) (by rw [e1, ← h])
  have e3 : m.hRev (m.hNext he) = m.hNext (m.hNext (m.hRev he)) := by rw [← e2, w.rev_rev _ a3]
  have := w.outDeg_le_two (x := m.hRev he) (y := m.hNext he) ar
    (by unfold Mesh.sig; rw [w.rev_rev _ a]) (by unfold Mesh.sig; rw [e3, t'])
  omega

theorem mem_adj {u v : Nat} (a : m.vAlive u = true) :
    (orbit m.sig (m.vHe u)).any (fun x => m.hSrc (m.hNext x) == v) = true ↔
      ∃ x, m.HA x ∧ m.hSrc x = u ∧ m.hSrc (m.hNext x) = v := by
  rw [List.any_eq_true]
  constructor
  · rintro ⟨x, hx, he⟩
    have := (w.mem_ring a).1 hx
    exact ⟨x, this.1, this.2, by simpa using he⟩
  · rintro ⟨x, h1, h2, h3⟩
    exact ⟨x, (w.mem_ring a).2 ⟨h1, h2⟩, by simpa using h3⟩

end Mesh.WF

theorem Orbit.Perm.of_leftInv {f g : Nat → Nat} {S : Nat → Prop} {N : Nat} (hm : ∀ x, S x → S (f x))
    (hg : ∀ x, S x → g (f x) = x) (hb : ∀ x, S x → x < N) : Perm f S N where
  maps := hm
  inj := fun x y hx hy h => by rw [← hg x hx, h, hg y hy]
  bound := hb

end TinyMesh
