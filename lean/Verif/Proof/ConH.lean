import Verif.Proof.ConG
/-
`construct`: execution of the last two loops, and consistency of the result.
-/
set_option linter.unusedSimpArgs false
namespace TinyMesh
open Orbit
variable {F : Type} {m m' m0 : Mesh F}

theorem assert_false {p : Bool} (h : p = false) (m : Mesh F) : (M.assert p : M F Unit) m = .err .abort := by
  simp [M.assert, h]

theorem stepBack_spec {g : Nat → Nat} (C : Closed m0 g m) : ∀ (vs : List Nat) (V : Nat → Nat),
    (∀ v ∈ vs, m.vAlive v = true) → (∀ v, m.vAlive v = true → m.HA (V v) ∧ m.hSrc (V v) = v) →
    ∃ V', stepBack vs { m with vHe := V } = .ok () { m with vHe := V' } ∧
      (∀ v, m.vAlive v = true → m.HA (V' v) ∧ m.hSrc (V' v) = v) := by
  intro vs
  induction vs with
  | nil => intro V _ h; exact ⟨V, rfl, h⟩
  | cons v vs ih =>
    intro V hvs hV
    have av := hvs v (by simp)
    obtain ⟨h1, h2⟩ := hV v av
    have h3 := C.rev_alive h1
    have h1' : m.hAlive (V v) = true := h1
    have h3' : m.hAlive (m.hRev (V v)) = true := h3
    obtain ⟨V', e, hV'⟩ := ih (upd V v (m.sig (V v))) (fun u hu => hvs u (by simp [hu])) (by
      intro u au
      by_cases c : u = v
      · subst c; rw [upd_same]
        exact ⟨C.next_alive h3, by rw [C.sig_src h1, h2]⟩
      · rw [upd_ne _ _ c]; exact hV u au)
    refine ⟨V', ?_, hV'⟩
    simp only [stepBack, bind_apply, getVHe, av, if_true, getRev, h1', getNext, h3', setVHe]
    exact e

theorem degreeDo_loop {g : Nat → Nat} (C : Closed m0 g m) (V : Nat → Nat) {s : Nat} (a : m.HA s) :
    ∀ k i fuel c, i + k = period m.sig s → 0 < k → k ≤ fuel →
      checkManifold.loop s fuel (m.sig^[i] s) c { m with vHe := V } = .ok (c + k) { m with vHe := V } := by
  obtain ⟨p0, p1, p2⟩ := C.permSig.period_spec a
  intro k
  induction k with
  | zero => intro i fuel c _ h; omega
  | succ k ih =>
    intro i fuel c hik _ hf
    obtain ⟨fuel, rfl⟩ : ∃ f, fuel = f + 1 := ⟨fuel - 1, by omega⟩
    have ai : m.hAlive (m.sig^[i] s) = true := C.permSig.iter a i
    have ar : m.hAlive (m.hRev (m.sig^[i] s)) = true := C.rev_alive (C.permSig.iter a i)
    have e1 : m.hNext (m.hRev (m.sig^[i] s)) = m.sig^[i + 1] s := by
      rw [Function.iterate_succ_apply']; rfl
    simp only [checkManifold.loop, bind_apply, getRev, ai, getNext, ar, if_true, e1]
    by_cases hk : k = 0
    · subst hk
      rw [show i + 1 = period m.sig s by omega, p1, if_pos rfl]; rfl
    · rw [if_neg (p2 _ (by omega) (by omega)), ih (i + 1) fuel (c + 1) (by omega) (by omega) (by omega)]
      rw [show c + 1 + k = c + (k + 1) by omega]

theorem checkManifold_spec {g : Nat → Nat} (C : Closed m0 g m) (V : Nat → Nat) (deg : Nat → Nat)
    (hdeg : ∀ v, m.vAlive v = true → deg (m.vIdx v).toNat = m0.outDeg v)
    (hV : ∀ v, m.vAlive v = true → m.HA (V v) ∧ m.hSrc (V v) = v) :
    ∀ (vs : List Nat), (∀ v ∈ vs, m.vAlive v = true) →
    (checkManifold deg vs { m with vHe := V } = .ok () { m with vHe := V } ∧
      ∀ v ∈ vs, ∀ h, m0.HA h → m0.hSrc h = v → h ∈ orbit m.sig (V v)) ∨
    (checkManifold deg vs { m with vHe := V } = .err .abort ∧
      ∃ v ∈ vs, ¬ ∀ h, m0.HA h → m0.hSrc h = v → h ∈ orbit m.sig (V v)) := by
  intro vs
  induction vs with
  | nil => intro _; exact Or.inl ⟨rfl, by simp⟩
  | cons v vs ih =>
    intro hvs
    have av := hvs v (by simp)
    obtain ⟨h1, h2⟩ := hV v av
    have hne : (V v != 0) = true := by simpa using C.ne0 h1
    obtain ⟨p0, p1, p2⟩ := C.permSig.period_spec h1
    have hple := C.permSig.period_le h1
    have hbd : vIsBoundary v { m with vHe := V } =
        .ok ((orbit m.sig (V v)).any m.hBd) ({ m with vHe := V } : Mesh F) := by
      unfold vIsBoundary
      simp only [bind_apply, getVHe, av, if_true]
      refine (circ_pure (m := { m with vHe := V }) C.permSig h1 (fun x hx => C.ne0 hx) (Nat.le_refl _) ?_
        (fun x _ => (m.hBd x, m.hBd x)) ?_ false).trans ?_
      · intro x hx
        have hx' : m.hAlive x = true := hx
        have hr : m.hAlive (m.hRev x) = true := C.rev_alive hx
        simp only [ringStep, bind_apply, getRev, hx', getNext, hr, if_true]
        rfl
      · intro x hx b
        have hx' : m.hAlive x = true := hx
        simp [getBd, hx']
      · rw [foldPure_any]
    have hdg : checkManifold.degreeDo v { m with vHe := V } = .ok (orbit m.sig (V v)).length ({ m with vHe := V } : Mesh F) := by
      unfold checkManifold.degreeDo
      simp only [bind_apply, getVHe, av, if_true, read_apply]
      have := degreeDo_loop C V h1 (period m.sig (V v)) 0 m.hFresh 0 (by omega) p0 hple
      rw [length_orbit]
      simpa using this
    have test := C.ring_test h1
    rw [h2] at test
    simp only [checkManifold, bind_apply, getVHe, av, if_true, assert_true hne, hbd, hdg, getVIdx, hdeg v av]
    by_cases ht : (if (orbit m.sig (V v)).any m.hBd then (-1 : Int) else 0) + ((orbit m.sig (V v)).length : Int) =
        (m0.outDeg v : Int)
    · have hass : decide ((if (orbit m.sig (V v)).any m.hBd then (-1 : Int) else 0) + ((orbit m.sig (V v)).length : Int) =
        (m0.outDeg v : Int)) = true := by simpa using ht
      rw [assert_true hass]
      rcases ih (fun u hu => hvs u (by simp [hu])) with ⟨e, h⟩ | ⟨e, u, hu, h⟩
      · left
        refine ⟨e, ?_⟩
        intro u hu
        rcases List.mem_cons.1 hu with rfl | hu
        · exact test.1 ht
        · exact h u hu
      · right
        exact ⟨e, u, by simp [hu], h⟩
    · right
      have hass : decide ((if (orbit m.sig (V v)).any m.hBd then (-1 : Int) else 0) + ((orbit m.sig (V v)).length : Int) =
        (m0.outDeg v : Int)) = false := by simpa using ht
      rw [assert_false hass]
      exact ⟨rfl, v, by simp, fun h => ht (test.2 h)⟩

/-- the result of a successful construction is consistent -/
theorem Closed.good {g : Nat → Nat} (C : Closed m0 g m) {V : Nat → Nat}
    (hV : ∀ v, m.vAlive v = true → m.HA (V v) ∧ m.hSrc (V v) = v)
    (hr : ∀ v, m.vAlive v = true → ∀ h, m0.HA h → m0.hSrc h = v → h ∈ orbit m.sig (V v)) :
    Mesh.Good { m with vHe := V } := by
  have T := C.T
  have pm := C.permSig
  have src_alive : ∀ h, m.HA h → m.vAlive (m.hSrc h) = true := by
    intro h a
    rw [C.vAlive]
    rcases (C.hal h).1 a with h1 | h1
    · rw [C.sT h h1]; exact T.src_alive h h1
    · obtain ⟨q1, q2, q3, q4⟩ := C.holeRev h h1.1 h1.2
      rw [q4]; exact T.src_alive _ (T.next_alive _ q1.1)
  -- every half-edge is in the ring of its vertex
  have inring : ∀ h, m.HA h → h ∈ orbit m.sig (V (m.hSrc h)) := by
    intro h a
    have av := src_alive h a
    obtain ⟨v1, v2⟩ := hV _ av
    rcases (C.hal h).1 a with h1 | h1
    · exact hr _ av h h1 (C.sT h h1).symm
    · obtain ⟨q1, q2, q3, q4⟩ := C.holeRev h h1.1 h1.2
      have hs : m.sig h = m0.hNext (m.hRev h) := C.nT _ q1.1
      have ain : m0.HA (m.sig h) := by rw [hs]; exact T.next_alive _ q1.1
      have e : m0.hSrc (m.sig h) = m.hSrc h := by rw [hs, q4]
      have hm := hr _ av _ ain e
      obtain ⟨n, hn⟩ := (pm.mem_orbit v1).1 hm
      rw [pm.mem_orbit v1]
      have c1 : Conn m.sig m.HA (V (m.hSrc h)) (m.sig h) := hn ▸ Conn.iter pm v1 n
      exact (c1.trans (Conn.step a).symm).exists_iter pm v1
  have wf : Mesh.WF { m with vHe := V } := {
    hDense := C.hd
    vDense := by
      show Dense m.vAlive m.vIdx m.vs
      rw [C.vAlive, C.vIdx, C.vs]; exact T.vd
    fDense := C.fd
    hBound := fun h a => ⟨Nat.pos_of_ne_zero (C.ne0 a), C.lt a⟩
    vBound := by
      intro v a
      have a' : m.vAlive v = true := a
      rw [C.vAlive] at a'
      have := T.vB v a'
      exact ⟨this.1, by show v < m.vFresh; rw [C.vFresh]; exact this.2⟩
    fBound := by
      intro f a
      have h0 := T.f0
      have hle := C.fFresh
      show 0 < f ∧ f < m.fFresh
      rcases (C.fal f).1 a with h | h
      · have := T.fB f h; omega
      · omega
    next_alive := fun h a => C.next_alive a
    rev_alive := fun h a => C.rev_alive a
    src_alive := src_alive
    face_alive := by
      intro h a
      show m.fAlive (m.hFace h) = true
      rw [C.fal]
      rcases (C.hal h).1 a with h1 | h1
      · left; rw [C.fT h h1]; exact T.face_alive h h1
      · right; exact C.holeFace h h1.1 h1.2
    rev_rev := fun h a => C.rev_rev a
    rev_ne := fun h a => C.rev_ne a
    src_rev := fun h a => C.src_rev a
    next_inj := fun h h' a a' e => C.next_inj a a' e
    face_next := by
      intro h a
      show m.hFace (m.hNext h) = m.hFace h
      rcases (C.hal h).1 a with h1 | h1
      · rw [C.nT h h1, C.fT h h1, C.fT _ (T.next_alive h h1), T.face_next h h1]
      · exact (C.holeNext h h1.1 h1.2).2.2.2
    fHe_ok := by
      intro f a
      show m.hAlive (m.fHe f) = true ∧ m.hFace (m.fHe f) = f
      rcases (C.fal f).1 a with h | h
      · rw [C.fOld f h]
        obtain ⟨q1, q2⟩ := T.fHe_ok f h
        exact ⟨C.alT q1, by rw [C.fT _ q1, q2]⟩
      · obtain ⟨q1, q2, q3⟩ := C.fNew f h.1 h.2
        exact ⟨C.alH q1 q2, q3⟩
    vHe_ok := hV
    face_conn := by
      intro h h' a a' e
      have e : m.hFace h = m.hFace h' := e
      show ∃ n, m.hNext^[n] h = h'
      rcases (C.hal h).1 a with h1 | h1
      · rcases (C.hal h').1 a' with h2 | h2
        · rw [C.fT h h1, C.fT h' h2] at e
          have n1 := C.nT h h1
          have n2 := C.nT _ (T.next_alive h h1)
          rcases T.face_tri h h' h1 h2 e.symm with rfl | rfl | rfl
          · exact ⟨0, rfl⟩
          · exact ⟨1, n1⟩
          · refine ⟨2, ?_⟩
            show m.hNext (m.hNext h) = _
            rw [n1, n2]
        · rw [C.fT h h1] at e
          have := (T.fB _ (T.face_alive h h1)).2
          have := (C.holeFace h' h2.1 h2.2).1
          omega
      · rcases (C.hal h').1 a' with h2 | h2
        · rw [C.fT h' h2] at e
          have := (T.fB _ (T.face_alive h' h2)).2
          have := (C.holeFace h h1.1 h1.2).1
          omega
        · -- along the hole, `next` runs against `g`
          obtain ⟨n, hn⟩ := C.holeConn h' h h2.1 h2.2 h1.1 h1.2 e.symm
          have key : ∀ n x y, m0.hFresh ≤ x → x < m.hFresh → m0.hFresh ≤ y → y < m.hFresh →
              g^[n] (m.hRev y) = m.hRev x → m.hNext^[n] x = y := by
            intro n
            induction n with
            | zero =>
              intro x y x1 x2 y1 y2 e
              have : m.hRev y = m.hRev x := e
              show x = y
              rw [← (C.holeRev x x1 x2).2.1, ← this, (C.holeRev y y1 y2).2.1]
            | succ n ih =>
              intro x y x1 x2 y1 y2 e
              rw [Function.iterate_succ_apply'] at e
              obtain ⟨w1, w2, w3, _⟩ := C.holeNext x x1 x2
              rw [w3] at e
              have pg := C.S.perm T
              have := pg.inj _ _ (pg.iter (C.holeRev y y1 y2).1 n) (C.holeRev _ w1 w2).1 e
              rw [Function.iterate_succ_apply]
              exact ih _ _ w1 w2 y1 y2 this
          exact ⟨n, key n h h' h1.1 h1.2 h2.1 h2.2 hn⟩
    ring_conn := by
      intro h h' a a' e
      have e : m.hSrc h = m.hSrc h' := e
      show ∃ n, m.sig^[n] h = h'
      obtain ⟨v1, v2⟩ := hV _ (src_alive h a)
      obtain ⟨n, hn⟩ := (pm.mem_orbit v1).1 (inring h a)
      have h2 := inring h' a'
      rw [← e] at h2
      obtain ⟨n', hn'⟩ := (pm.mem_orbit v1).1 h2
      obtain ⟨k, hk⟩ := pm.back v1 n
      refine ⟨n' + k, ?_⟩
      rw [Function.iterate_add_apply, ← hn, hk, hn'] }
  refine ⟨wf, ⟨?_⟩, ⟨?_, ?_⟩⟩
  · intro h a
    show m.hNext (m.hNext (m.hNext h)) = h ∨ _
    rcases (C.hal h).1 a with h1 | h1
    · left
      rw [C.nT h h1, C.nT _ (T.next_alive h h1), C.nT _ (T.next_alive _ (T.next_alive h h1)), T.tri h h1]
    · right
      intro h' a' e
      have e : m.hFace h' = m.hFace h := e
      show m.hBd h' = true ∧ m.hBd (m.hRev h') = true ∧ m.hNext (m.hNext (m.hNext (m.hRev h'))) = m.hRev h'
      have h2 : m0.hFresh ≤ h' ∧ h' < m.hFresh := by
        rcases (C.hal h').1 a' with h2 | h2
        · rw [C.fT h' h2] at e
          have := (T.fB _ (T.face_alive h' h2)).2
          have := (C.holeFace h h1.1 h1.2).1
          omega
        · exact h2
      obtain ⟨q1, q2, q3, q4⟩ := C.holeRev h' h2.1 h2.2
      refine ⟨q3, (C.bnd_rev q1).2.2.2, ?_⟩
      rw [C.nT _ q1.1, C.nT _ (T.next_alive _ q1.1), C.nT _ (T.next_alive _ (T.next_alive _ q1.1)), T.tri _ q1.1]
  · intro h a
    show m.hSrc h ≠ m.hSrc (m.hNext h)
    rcases (C.hal h).1 a with h1 | h1
    · rw [C.sT h h1, C.dst_T h1]; exact T.no_loop h h1
    · obtain ⟨q1, q2, q3, q4⟩ := C.holeRev h h1.1 h1.2
      rw [q4, C.dst_H h1.1 h1.2]
      exact (T.no_loop _ q1.1).symm
  · intro h h' a a' e e'
    have e : m.hSrc h = m.hSrc h' := e
    have e' : m.hSrc (m.hNext h) = m.hSrc (m.hNext h') := e'
    have mixed : ∀ x y, m0.HA x → m0.hFresh ≤ y → y < m.hFresh → m.hSrc x = m.hSrc y →
        m.hSrc (m.hNext x) = m.hSrc (m.hNext y) → False := by
      intro x y ax y1 y2 e e'
      obtain ⟨q1, q2, q3, q4⟩ := C.holeRev y y1 y2
      rw [C.sT x ax, q4] at e
      rw [C.dst_T ax, C.dst_H y1 y2] at e'
      -- `x` is opposite to the boundary half-edge `rev y`
      have := T.opp (m.hRev y) x q1.1 ax e'.symm e.symm
      rw [q1.2] at this
      exact T.ne0 ax this.symm
    rcases (C.hal h).1 a with h1 | h1
    · rcases (C.hal h').1 a' with h2 | h2
      · rw [C.sT h h1, C.sT h' h2] at e
        rw [C.dst_T h1, C.dst_T h2] at e'
        exact T.no_dup h h' h1 h2 e e'
      · exact (mixed h h' h1 h2.1 h2.2 e e').elim
    · rcases (C.hal h').1 a' with h2 | h2
      · exact (mixed h' h h2 h1.1 h1.2 e.symm e'.symm).elim
      · obtain ⟨q1, q2, q3, q4⟩ := C.holeRev h h1.1 h1.2
        obtain ⟨r1, r2, r3, r4⟩ := C.holeRev h' h2.1 h2.2
        rw [q4, r4] at e
        rw [C.dst_H h1.1 h1.2, C.dst_H h2.1 h2.2] at e'
        have := T.no_dup _ _ q1.1 r1.1 e' e
        rw [← q2, this, r2]

end TinyMesh
