import Verif.Proof.Query
/-
`flipHE`: the state it produces, and consistency of that state.
-/
namespace TinyMesh
open Orbit
variable {F : Type} {m : Mesh F}

/-- Transfer of "one orbit per key" from an old permutation to a new one. -/
theorem conn_transfer {σ σ' : Nat → Nat} {S S' : Nat → Prop} {N' : Nat} {key key' : Nat → Nat}
    (old : ∀ h h', S h → S h' → key h = key h' → Conn σ S h h')
    (p' : Perm σ' S' N') (φ ρ : Nat → Nat)
    (hρS : ∀ x, S' x → S (ρ x))
    (hkey : ∀ x y, S' x → S' y → key' x = key' y → Conn σ' S' x y ∨ key (ρ x) = key (ρ y))
    (hφ : ∀ x, S x → Conn σ' S' (φ x) (φ (σ x)))
    (hφρ : ∀ x, S' x → Conn σ' S' x (φ (ρ x))) :
    ∀ h h', S' h → S' h' → key' h = key' h' → ∃ n, σ'^[n] h = h' := by
  intro h h' a a' hk
  refine Conn.exists_iter p' ?_ a
  rcases hkey h h' a a' hk with h1 | h1
  · exact h1
  · exact (hφρ h a).trans ((Conn.map φ hφ (old _ _ (hρS h a) (hρS h' a') h1)).trans (hφρ h' a').symm)

/-- As `conn_transfer`, for orbits that may be new. -/
theorem conn_transfer' {σ σ' : Nat → Nat} {S S' : Nat → Prop} {N' : Nat} {key key' : Nat → Nat}
    (old : ∀ h h', S h → S h' → key h = key h' → Conn σ S h h')
    (p' : Perm σ' S' N') (φ ρ : Nat → Nat)
    (hkey : ∀ x y, S' x → S' y → key' x = key' y → Conn σ' S' x y ∨
      (key (ρ x) = key (ρ y) ∧ (S (ρ x) ∧ Conn σ' S' x (φ (ρ x))) ∧ (S (ρ y) ∧ Conn σ' S' y (φ (ρ y)))))
    (hφ : ∀ x, S x → Conn σ' S' (φ x) (φ (σ x))) :
    ∀ h h', S' h → S' h' → key' h = key' h' → ∃ n, σ'^[n] h = h' := by
  intro h h' a a' hk
  refine Conn.exists_iter p' ?_ a
  rcases hkey h h' a a' hk with h1 | ⟨h1, h2, h3⟩
  · exact h1
  · exact h2.2.trans ((Conn.map φ hφ (old _ _ h2.1 h3.1 h1)).trans h3.2.symm)

theorem cases6 (h x0 x1 x2 x3 x4 x5 : Nat) : h = x0 ∨ h = x1 ∨ h = x2 ∨ h = x3 ∨ h = x4 ∨ h = x5 ∨
    (h ≠ x0 ∧ h ≠ x1 ∧ h ≠ x2 ∧ h ≠ x3 ∧ h ≠ x4 ∧ h ≠ x5) := by omega

theorem Mesh.WF.ringConn (w : m.WF) : ∀ h h', m.HA h → m.HA h' → m.hSrc h = m.hSrc h' →
    Conn m.sig m.HA h h' := by
  intro h h' a a' e
  obtain ⟨n, hn⟩ := w.ring_conn h h' a a' e
  exact hn ▸ Conn.iter w.permSig a n

theorem Mesh.WF.faceConn (w : m.WF) : ∀ h h', m.HA h → m.HA h' → m.hFace h = m.hFace h' →
    Conn m.hNext m.HA h h' := by
  intro h h' a a' e
  obtain ⟨n, hn⟩ := w.face_conn h h' a a' e
  exact hn ▸ Conn.iter w.permNext a n

theorem Mesh.WF.getPrev_tri (w : m.WF) {h : Nat} (a : m.HA h) (t : m.OnTri h) :
    getPrev h m = .ok (m.hNext (m.hNext h)) m := by
  obtain ⟨q, hq, hn, he⟩ := w.getPrev_ok a
  rw [he, w.next_inj q (m.hNext (m.hNext h)) hq (w.next_alive _ (w.next_alive _ a)) (hn.trans t.symm)]

/-- The state after a successful flip of `he`. -/
def flipState (m : Mesh F) (he : Nat) : Mesh F :=
  let rev := m.hRev he
  let he0 := m.hNext he
  let he1 := m.hNext he0
  let he2 := m.hNext rev
  let he3 := m.hNext he2
  let f0 := m.hFace he
  let f1 := m.hFace rev
  { m with
    vHe := upd (upd m.vHe (m.hSrc he0) he0) (m.hSrc he2) he2
    hSrc := upd (upd m.hSrc he (m.hSrc he3)) rev (m.hSrc he1)
    hNext := upd (upd (upd (upd (upd (upd m.hNext he he1) he1 he2) he2 he) rev he3) he3 he0) he0 rev
    fHe := upd (upd m.fHe f0 he) f1 rev
    hFace := upd (upd (upd (upd (upd (upd m.hFace he f0) he1 f0) he2 f0) rev f1) he0 f1) he3 f1 }

/-- Some neighbour of `u` is `v`. -/
noncomputable def Mesh.adjB (m : Mesh F) (u v : Nat) : Bool :=
  (orbit m.sig (m.vHe u)).any (fun x => m.hSrc (m.hNext x) == v)

theorem flipHE_eq (w : m.WF) {he : Nat} (a : m.HA he) (t : m.OnTri he) (t' : m.OnTri (m.hRev he)) :
    flipHE he m =
      if m.outDeg (m.hSrc he) ≤ 4 ∨ m.outDeg (m.hSrc (m.hRev he)) ≤ 4 ∨
        m.adjB (m.hSrc (m.hNext (m.hNext he))) (m.hSrc (m.hNext (m.hNext (m.hRev he)))) = true
      then .ok false m else .ok true (flipState m he) := by
  have ar := w.rev_alive _ a
  have a0 := w.next_alive _ a
  have a1 := w.next_alive _ a0
  have a2 := w.next_alive _ ar
  have a3 := w.next_alive _ a2
  have hr0 : (m.hRev he != 0) = true := by simpa using w.ne0 ar
  have hfound : circ ringStep (m.vHe (m.hSrc (m.hNext (m.hNext he)))) false (fun x _ => do
      let d ← getDst x
      pure (d == m.hSrc (m.hNext (m.hNext (m.hRev he))), d == m.hSrc (m.hNext (m.hNext (m.hRev he))))) m
      = .ok (m.adjB (m.hSrc (m.hNext (m.hNext he))) (m.hSrc (m.hNext (m.hNext (m.hRev he))))) m := by
    refine (w.circ_ring (w.src_alive _ a1) (fun x _ => (m.hSrc (m.hNext x) == m.hSrc (m.hNext (m.hNext (m.hRev he))),
        m.hSrc (m.hNext x) == m.hSrc (m.hNext (m.hNext (m.hRev he)))))
      (fun x hx b => by simp [getDst_ok hx (w.next_alive _ hx)]) _).trans ?_
    rw [foldPure_any]; rfl
  have v0 := w.src_alive _ a0
  have v2 := w.src_alive _ a2
  have f0 := w.face_alive _ a
  have f1 := w.face_alive _ ar
  unfold flipHE
  simp only [bind_apply, getRev_ok a, assert_true hr0, getSrc_ok a, w.getPrev_tri a t, getSrc_ok a1, getSrc_ok ar,
    w.getPrev_tri ar t', getSrc_ok a3, w.degree_ok (w.src_alive _ a)]
  by_cases h0 : m.outDeg (m.hSrc he) ≤ 4
  · simp [h0]
  simp only [h0, if_false, bind_apply, w.degree_ok (w.src_alive _ ar), false_or]
  by_cases h2 : m.outDeg (m.hSrc (m.hRev he)) ≤ 4
  · simp [h2]
  simp only [h2, if_false, bind_apply, getVHe_ok (w.src_alive _ a1), false_or]
  rw [hfound]
  by_cases h3 : m.adjB (m.hSrc (m.hNext (m.hNext he))) (m.hSrc (m.hNext (m.hNext (m.hRev he)))) = true
  · simp [h3]
  simp only [h3]
  simp [getNext_ok a, getNext_ok a0, getNext_ok ar, getNext_ok a2, getSrc_ok, getFace_ok, a, a0, a1, a2, a3, ar,
    setVHe, setSrc, setNext, setFHe, setFace, v0, v2, f0, f1, flipState]

/-- The six half-edges around an edge between two triangles. -/
structure Diamond (m : Mesh F) (he rev he0 he1 he2 he3 : Nat) : Prop where
  a : m.HA he
  ar : m.HA rev
  a0 : m.HA he0
  a1 : m.HA he1
  a2 : m.HA he2
  a3 : m.HA he3
  hrev : m.hRev he = rev
  hrev' : m.hRev rev = he
  n : m.hNext he = he0
  n0 : m.hNext he0 = he1
  n1 : m.hNext he1 = he
  nr : m.hNext rev = he2
  n2 : m.hNext he2 = he3
  n3 : m.hNext he3 = rev
  d1 : he ≠ rev
  d2 : he ≠ he0
  d3 : he ≠ he1
  d4 : he ≠ he2
  d5 : he ≠ he3
  d6 : rev ≠ he0
  d7 : rev ≠ he1
  d8 : rev ≠ he2
  d9 : rev ≠ he3
  d10 : he0 ≠ he1
  d11 : he0 ≠ he2
  d12 : he0 ≠ he3
  d13 : he1 ≠ he2
  d14 : he1 ≠ he3
  d15 : he2 ≠ he3
  dface : m.hFace he ≠ m.hFace rev

theorem Diamond.mk' (w : m.WF) (sm : m.Simple) {he : Nat} (a : m.HA he) (t : m.OnTri he)
    (t' : m.OnTri (m.hRev he)) :
    Diamond m he (m.hRev he) (m.hNext he) (m.hNext (m.hNext he)) (m.hNext (m.hRev he))
      (m.hNext (m.hNext (m.hRev he))) := by
  have ar := w.rev_alive _ a
  have a0 := w.next_alive _ a
  have a1 := w.next_alive _ a0
  have a2 := w.next_alive _ ar
  have a3 := w.next_alive _ a2
  have hl := sm.no_loop
  have hrr := w.rev_rev _ a
  have hne := w.rev_ne _ a
  have hsr := w.src_rev
  have hfn := w.face_next
  have hd := sm.no_dup
  have hf : m.hFace he ≠ m.hFace (m.hRev he) := by
    intro hf
    rcases w.tri_face a t ar hf.symm with hn | hn | hn
    all_goals unfold Mesh.OnTri at t t'
    · exact hne hn
    · have := hl _ a1; have := hsr _ ar; grind
    · have := hl _ a0; have := hsr _ a; grind
  have f0 := hfn _ a
  have f1 := hfn _ a0
  have f2 := hfn _ ar
  have f3 := hfn _ a2
  refine ⟨a, ar, a0, a1, a2, a3, rfl, hrr, rfl, rfl, t, rfl, rfl, t', ?_, ?_, ?_, ?_, ?_, ?_, ?_, ?_, ?_, ?_, ?_, ?_, ?_, ?_, ?_, hf⟩
  all_goals (intro h; apply hf; grind)

theorem flip_wf (w : m.WF) {he rev he0 he1 he2 he3 : Nat} (D : Diamond m he rev he0 he1 he2 he3)
    : (flipState m he).WF := by
  obtain ⟨a, ar, a0, a1, a2, a3, hrev, hrev', n, n0, n1, nr, n2, n3, d1, d2, d3, d4, d5, d6, d7, d8, d9, d10,
    d11, d12, d13, d14, d15, df⟩ := D
  have nA := w.next_alive
  have rA := w.rev_alive
  have sA := w.src_alive
  have fA := w.face_alive
  have rr := w.rev_rev
  have rne := w.rev_ne
  have sr := w.src_rev
  have ni := w.next_inj
  have fn := w.face_next
  have fh := w.fHe_ok
  have vh := w.vHe_ok
  simp only [flipState, hrev, n, n0, nr, n2]
  -- the new links as a table
  have cs : ∀ h, h = he ∨ h = rev ∨ h = he0 ∨ h = he1 ∨ h = he2 ∨ h = he3 ∨
      (h ≠ he ∧ h ≠ rev ∧ h ≠ he0 ∧ h ≠ he1 ∧ h ≠ he2 ∧ h ≠ he3) := fun h => cases6 h _ _ _ _ _ _
  obtain ⟨N, hN⟩ : ∃ N, N = upd (upd (upd (upd (upd (upd m.hNext he he1) he1 he2) he2 he) rev he3) he3 he0) he0 rev :=
    ⟨_, rfl⟩
  obtain ⟨Sr, hSr⟩ : ∃ N, N = upd (upd m.hSrc he (m.hSrc he3)) rev (m.hSrc he1) := ⟨_, rfl⟩
  obtain ⟨Fa, hFa⟩ : ∃ N, N = upd (upd (upd (upd (upd (upd m.hFace he (m.hFace he)) he1 (m.hFace he)) he2 (m.hFace he))
    rev (m.hFace rev)) he0 (m.hFace rev)) he3 (m.hFace rev) := ⟨_, rfl⟩
  rw [← hN, ← hSr, ← hFa]
  have N_ : N he = he1 := by rw [hN]; simp only [upd]; grind
  have Nr : N rev = he3 := by rw [hN]; simp only [upd]; grind
  have N0 : N he0 = rev := by rw [hN]; simp only [upd]; grind
  have N1 : N he1 = he2 := by rw [hN]; simp only [upd]; grind
  have N2 : N he2 = he := by rw [hN]; simp only [upd]; grind
  have N3 : N he3 = he0 := by rw [hN]; simp only [upd]; grind
  have NO : ∀ h, (h ≠ he ∧ h ≠ rev ∧ h ≠ he0 ∧ h ≠ he1 ∧ h ≠ he2 ∧ h ≠ he3) → N h = m.hNext h := by
    intro h hh; rw [hN]; simp [upd, hh]
  have S_ : Sr he = m.hSrc he3 := by rw [hSr]; simp only [upd]; grind
  have S_r : Sr rev = m.hSrc he1 := by rw [hSr]; simp only [upd]; grind
  have SO : ∀ h, h ≠ he → h ≠ rev → Sr h = m.hSrc h := by intro h h1 h2; rw [hSr]; simp [upd, h1, h2]
  have F_ : Fa he = m.hFace he := by rw [hFa]; simp only [upd]; grind
  have F1 : Fa he1 = m.hFace he := by rw [hFa]; simp only [upd]; grind
  have F2 : Fa he2 = m.hFace he := by rw [hFa]; simp only [upd]; grind
  have Fr : Fa rev = m.hFace rev := by rw [hFa]; simp only [upd]; grind
  have F0 : Fa he0 = m.hFace rev := by rw [hFa]; simp only [upd]; grind
  have F3 : Fa he3 = m.hFace rev := by rw [hFa]; simp only [upd]; grind
  have FO : ∀ h, (h ≠ he ∧ h ≠ rev ∧ h ≠ he0 ∧ h ≠ he1 ∧ h ≠ he2 ∧ h ≠ he3) → Fa h = m.hFace h := by
    intro h hh; rw [hFa]; simp [upd, hh]
  clear hN hSr hFa
  obtain ⟨P, hP⟩ := w.exists_prv
  have nA' : ∀ h, m.HA h → m.HA (N h) := by
    intro x hx
    rcases cs x with h | h | h | h | h | h | h <;> grind
  have permN : Perm N m.HA m.hFresh := by
    refine Perm.of_leftInv (g := fun x => if x = he1 then he else if x = he3 then rev else if x = rev then he0
      else if x = he2 then he1 else if x = he then he2 else if x = he0 then he3 else P x) nA' ?_
      (fun x hx => (w.hBound x hx).2)
    intro x hx
    have := hP x hx
    rcases cs x with h | h | h | h | h | h | h <;> grind
  have permSg : Perm (fun x => N (m.hRev x)) m.HA m.hFresh := by
    refine ⟨fun x hx => nA' _ (rA _ hx), ?_, fun x hx => (w.hBound x hx).2⟩
    intro x y hx hy h
    have := permN.inj _ _ (rA _ hx) (rA _ hy) h
    rw [← rr _ hx, this, rr _ hy]
  have fN : ∀ h, m.HA h → Fa (N h) = Fa h := by
    intro x hx
    have := hP x hx
    rcases cs x with h | h | h | h | h | h | h <;> grind
  have sN : ∀ h, m.HA h → Sr (m.hRev h) = Sr (N h) := by
    intro x hx
    have := hP x hx
    rcases cs x with h | h | h | h | h | h | h <;> grind
  have sA' : ∀ h, m.HA h → m.vAlive (Sr h) = true := by
    intro x hx
    rcases cs x with h | h | h | h | h | h | h <;> grind
  have fA' : ∀ h, m.HA h → m.fAlive (Fa h) = true := by
    intro x hx
    rcases cs x with h | h | h | h | h | h | h <;> grind
  refine ⟨w.hDense, w.vDense, w.fDense, w.hBound, w.vBound, w.fBound, nA', rA, sA', fA', rr, rne, sN, permN.inj, fN, ?_, ?_, ?_, ?_⟩
  · intro f hf
    simp only [upd]
    by_cases h1 : f = m.hFace rev
    · subst h1; simp [ar, Fr]
    · by_cases h0 : f = m.hFace he
      · subst h0; simp [h1, a, F_]
      · have := fh f hf
        simp only [h0, h1, if_false]
        refine ⟨this.1, ?_⟩
        have f0 := fn _ a
        have f1 := fn _ a0
        have f2 := fn _ ar
        have f3 := fn _ a2
        rcases cs (m.fHe f) with h | h | h | h | h | h | h <;> grind
  · intro v hv
    simp only [upd]
    grind
  · obtain ⟨φ, e1, e2, e0⟩ : ∃ φ : Nat → Nat, φ he0 = he ∧ φ he2 = rev ∧ ∀ x, x ≠ he0 → x ≠ he2 → φ x = x :=
      ⟨fun x => if x = he0 then he else if x = he2 then rev else x, by simp, by simp [d11.symm],
        fun x h1 h2 => by simp [h1, h2]⟩
    obtain ⟨ρ, r1, r2, r0⟩ : ∃ φ : Nat → Nat, φ he0 = rev ∧ φ he2 = he ∧ ∀ x, x ≠ he0 → x ≠ he2 → φ x = x :=
      ⟨fun x => if x = he0 then rev else if x = he2 then he else x, by simp, by simp [d11.symm],
        fun x h1 h2 => by simp [h1, h2]⟩
    have cs2 : ∀ x, x = he0 ∨ x = he2 ∨ (x ≠ he0 ∧ x ≠ he2) := by intro x; tauto
    refine conn_transfer (key' := Fa) w.faceConn permN φ ρ ?_ ?_ ?_ ?_
    · intro x hx
      rcases cs2 x with h | h | h
      · rw [h, r1]; exact ar
      · rw [h, r2]; exact a
      · rw [r0 x h.1 h.2]; exact hx
    · intro x y hx hy hxy
      right
      have key : ∀ z, m.HA z → m.hFace (ρ z) = Fa z := by
        intro z hz
        rcases cs2 z with h | h | h
        · rw [h, r1, F0]
        · rw [h, r2, F2]
        · rw [r0 z h.1 h.2]
          rcases cs z with h' | h' | h' | h' | h' | h' | h'
          · rw [h', F_]
          · rw [h', Fr]
          · exact absurd h' h.1
          · rw [h', F1, ← n0, fn _ a0, ← n, fn _ a]
          · exact absurd h' h.2
          · rw [h', F3, ← n2, fn _ a2, ← nr, fn _ ar]
          · rw [FO z h']
      exact (key x hx).trans (hxy.trans (key y hy).symm)
    · intro x hx
      rcases cs x with h | h | h | h | h | h | h
      · rw [h, n, e1, e0 he d2 d4]; exact Conn.refl _
      · rw [h, nr, e2, e0 rev d6 d8]; exact Conn.refl _
      · rw [h, n0, e1, e0 he1 d10.symm d13]; exact Conn.step' a N_
      · rw [h, n1, e0 he1 d10.symm d13, e0 he d2 d4]
        exact (Conn.step' a1 N1).trans (Conn.step' a2 N2)
      · rw [h, n2, e2, e0 he3 d12.symm d15.symm]; exact Conn.step' ar Nr
      · rw [h, n3, e0 he3 d12.symm d15.symm, e0 rev d6 d8]
        exact (Conn.step' a3 N3).trans (Conn.step' a0 N0)
      · have h0 : m.hNext x ≠ he0 := fun e => h.1 (ni _ _ hx a (e.trans n.symm))
        have h2 : m.hNext x ≠ he2 := fun e => h.2.1 (ni _ _ hx ar (e.trans nr.symm))
        rw [e0 x h.2.2.1 h.2.2.2.2.1, e0 _ h0 h2]
        exact Conn.step' hx (NO x h)
    · intro x hx
      rcases cs2 x with h | h | h
      · rw [h, r1, e0 rev d6 d8]; exact Conn.step' a0 N0
      · rw [h, r2, e0 he d2 d4]; exact Conn.step' a2 N2
      · rw [r0 x h.1 h.2, e0 x h.1 h.2]; exact Conn.refl _
  · obtain ⟨φ, e1, e2, e0⟩ : ∃ φ : Nat → Nat, φ he = he2 ∧ φ rev = he0 ∧ ∀ x, x ≠ he → x ≠ rev → φ x = x :=
      ⟨fun x => if x = he then he2 else if x = rev then he0 else x, by simp, by simp [d1.symm],
        fun x h1 h2 => by simp [h1, h2]⟩
    obtain ⟨ρ, r1, r2, r0⟩ : ∃ φ : Nat → Nat, φ he = he3 ∧ φ rev = he1 ∧ ∀ x, x ≠ he → x ≠ rev → φ x = x :=
      ⟨fun x => if x = he then he3 else if x = rev then he1 else x, by simp, by simp [d1.symm],
        fun x h1 h2 => by simp [h1, h2]⟩
    have cs2 : ∀ x, x = he ∨ x = rev ∨ (x ≠ he ∧ x ≠ rev) := by intro x; tauto
    refine conn_transfer (key' := Sr) w.ringConn permSg φ ρ ?_ ?_ ?_ ?_
    · intro x hx
      rcases cs2 x with h | h | h
      · rw [h, r1]; exact a3
      · rw [h, r2]; exact a1
      · rw [r0 x h.1 h.2]; exact hx
    · intro x y hx hy hxy
      right
      have key : ∀ z, m.HA z → m.hSrc (ρ z) = Sr z := by
        intro z hz
        rcases cs2 z with h | h | h
        · rw [h, r1, S_]
        · rw [h, r2, S_r]
        · rw [r0 z h.1 h.2, SO z h.1 h.2]
      exact (key x hx).trans (hxy.trans (key y hy).symm)
    · intro x hx
      unfold Mesh.sig
      rcases cs2 x with h | h | ⟨hx1, hx2⟩
      · rw [h, hrev, nr, e1, e0 he2 d4.symm d8.symm]; exact Conn.refl _
      · rw [h, hrev', n, e2, e0 he0 d2.symm d6.symm]; exact Conn.refl _
      rw [e0 x hx1 hx2]
      have hr := rA _ hx
      have hr1 : m.hRev x ≠ he := fun e => hx2 (by rw [← rr _ hx, e, hrev])
      have hr2 : m.hRev x ≠ rev := fun e => hx1 (by rw [← rr _ hx, e, hrev'])
      have hst : Conn (fun x => N (m.hRev x)) m.HA x (N (m.hRev x)) := Conn.step' hx rfl
      rcases cs (m.hRev x) with h | h | h | h | h | h | h
      · exact absurd h hr1
      · exact absurd h hr2
      · rw [h, N0] at hst; rw [h, n0, e0 he1 d3.symm d7.symm]
        exact hst.trans (Conn.step' ar (by rw [hrev', N_]))
      · rw [h, N1] at hst; rw [h, n1, e1]; exact hst
      · rw [h, N2] at hst; rw [h, n2, e0 he3 d5.symm d9.symm]
        exact hst.trans (Conn.step' a (by rw [hrev, Nr]))
      · rw [h, N3] at hst; rw [h, n3, e2]; exact hst
      · have h0 : m.hNext (m.hRev x) ≠ he := fun e => h.2.2.2.1 (ni _ _ hr a1 (e.trans n1.symm))
        have h2 : m.hNext (m.hRev x) ≠ rev := fun e => h.2.2.2.2.2 (ni _ _ hr a3 (e.trans n3.symm))
        rw [e0 _ h0 h2, ← NO _ h]
        exact hst
    · intro x hx
      rcases cs2 x with h | h | h
      · rw [h, r1, e0 he3 d5.symm d9.symm]; exact Conn.step' a (show N (m.hRev he) = he3 by rw [hrev, Nr])
      · rw [h, r2, e0 he1 d3.symm d7.symm]; exact Conn.step' ar (show N (m.hRev rev) = he1 by rw [hrev', N_])
      · rw [r0 x h.1 h.2, e0 x h.1 h.2]; exact Conn.refl _

theorem flip_simple (w : m.WF) (sm : m.Simple) {he rev he0 he1 he2 he3 : Nat}
    (D : Diamond m he rev he0 he1 he2 he3) (hd : 2 < m.outDeg (m.hSrc rev))
    (hadj : ¬ m.adjB (m.hSrc he1) (m.hSrc he3) = true) : (flipState m he).Simple := by
  have w' := flip_wf w D
  have t : m.OnTri he := by unfold Mesh.OnTri; rw [D.n, D.n0, D.n1]
  have t' : m.OnTri (m.hRev he) := by unfold Mesh.OnTri; rw [D.hrev, D.nr, D.n2, D.n3]
  have htips := w.tips_ne sm D.a t' (by rw [D.hrev]; exact hd)
  rw [D.hrev, D.n, D.n0, D.nr, D.n2] at htips
  have hno : ∀ x, m.HA x → m.hSrc x = m.hSrc he1 → m.hSrc (m.hNext x) = m.hSrc he3 → False := by
    intro x ax h1 h2
    exact hadj ((w.mem_adj (w.src_alive _ D.a1)).2 ⟨x, ax, h1, h2⟩)
  have hS : (flipState m he).hSrc = upd (upd m.hSrc he (m.hSrc he3)) rev (m.hSrc he1) := by
    simp only [flipState, D.hrev, D.n, D.n0, D.nr, D.n2]
  -- the end vertex of a half-edge is the start vertex of its reverse
  have hdst : ∀ h, m.HA h → (flipState m he).hSrc ((flipState m he).hNext h) = (flipState m he).hSrc (m.hRev h) :=
    fun h a => (w'.src_rev h a).symm
  have hr : ∀ h, m.HA h → (m.hRev h = he ↔ h = rev) := by
    intro h a
    constructor
    · intro e; rw [← w.rev_rev _ a, e, D.hrev]
    · intro e; rw [e, D.hrev']
  have hr' : ∀ h, m.HA h → (m.hRev h = rev ↔ h = he) := by
    intro h a
    constructor
    · intro e; rw [← w.rev_rev _ a, e, D.hrev']
    · intro e; rw [e, D.hrev]
  have d1 := D.d1
  have hrev := D.hrev
  have hrev' := D.hrev'
  have key : ∀ h, m.HA h → (h = he ∧ (flipState m he).hSrc h = m.hSrc he3 ∧ (flipState m he).hSrc (m.hRev h) = m.hSrc he1) ∨
      (h = rev ∧ (flipState m he).hSrc h = m.hSrc he1 ∧ (flipState m he).hSrc (m.hRev h) = m.hSrc he3) ∨
      (h ≠ he ∧ h ≠ rev ∧ (flipState m he).hSrc h = m.hSrc h ∧ (flipState m he).hSrc (m.hRev h) = m.hSrc (m.hNext h)) := by
    intro h a
    rw [hS]
    by_cases h1 : h = he
    · left; subst h1; rw [hrev]; simp [upd, d1]
    · by_cases h2 : h = rev
      · right; left; subst h2; rw [hrev']; simp [upd, d1]
      · right; right
        have h3 : ¬ m.hRev h = he := fun e => h2 ((hr h a).1 e)
        have h4 : ¬ m.hRev h = rev := fun e => h1 ((hr' h a).1 e)
        simp [upd, h1, h2, h3, h4, w.src_rev _ a]
  have hno' : ∀ x, m.HA x → m.hSrc x = m.hSrc he3 → m.hSrc (m.hNext x) = m.hSrc he1 → False := by
    intro x ax h1 h2
    refine hno (m.hRev x) (w.rev_alive _ ax) ((w.src_rev _ ax).trans h2) ?_
    rw [← w.src_rev _ (w.rev_alive _ ax), w.rev_rev _ ax, h1]
  refine ⟨?_, ?_⟩
  · intro h a
    rw [hdst h a]
    rcases key h a with ⟨_, h1, h2⟩ | ⟨_, h1, h2⟩ | ⟨_, _, h1, h2⟩
    · rw [h1, h2]; exact htips.symm
    · rw [h1, h2]; exact htips
    · rw [h1, h2]; exact sm.no_loop h a
  · intro h h' a a' e1 e2
    rw [hdst h a, hdst h' a'] at e2
    rcases key h a with ⟨e, h1, h2⟩ | ⟨e, h1, h2⟩ | ⟨_, _, h1, h2⟩ <;>
      rcases key h' a' with ⟨e', h3, h4⟩ | ⟨e', h3, h4⟩ | ⟨_, _, h3, h4⟩ <;> rw [h1, h3] at e1 <;> rw [h2, h4] at e2
    · rw [e, e']
    · exact absurd e2 htips
    · exact (hno' h' a' e1.symm e2.symm).elim
    · exact absurd e1 htips
    · rw [e, e']
    · exact (hno h' a' e1.symm e2.symm).elim
    · exact (hno' h a e1 e2).elim
    · exact (hno h a e1 e2).elim
    · exact sm.no_dup h h' a a' e1 e2

theorem flip_tri (w : m.WF) (tr : m.TriOrHole) {he rev he0 he1 he2 he3 : Nat}
    (D : Diamond m he rev he0 he1 he2 he3) : (flipState m he).TriOrHole := by
  obtain ⟨N, hN⟩ : ∃ N, N = (flipState m he).hNext := ⟨_, rfl⟩
  obtain ⟨Fa, hFa⟩ : ∃ N, N = (flipState m he).hFace := ⟨_, rfl⟩
  have cs : ∀ h, h = he ∨ h = rev ∨ h = he0 ∨ h = he1 ∨ h = he2 ∨ h = he3 ∨
      (h ≠ he ∧ h ≠ rev ∧ h ≠ he0 ∧ h ≠ he1 ∧ h ≠ he2 ∧ h ≠ he3) := fun h => cases6 h _ _ _ _ _ _
  obtain ⟨a, ar, a0, a1, a2, a3, hrev, hrev', n, n0, n1, nr, n2, n3, d1, d2, d3, d4, d5, d6, d7, d8, d9, d10,
    d11, d12, d13, d14, d15, df⟩ := D
  have ni := w.next_inj
  have t : m.OnTri he := by unfold Mesh.OnTri; rw [n, n0, n1]
  have t' : m.OnTri rev := by unfold Mesh.OnTri; rw [nr, n2, n3]
  have hN' : N = upd (upd (upd (upd (upd (upd m.hNext he he1) he1 he2) he2 he) rev he3) he3 he0) he0 rev := by
    rw [hN]; simp only [flipState, hrev, n, n0, nr, n2]
  have N_ : N he = he1 := by rw [hN']; simp only [upd]; grind
  have Nr : N rev = he3 := by rw [hN']; simp only [upd]; grind
  have N0 : N he0 = rev := by rw [hN']; simp only [upd]; grind
  have N1 : N he1 = he2 := by rw [hN']; simp only [upd]; grind
  have N2 : N he2 = he := by rw [hN']; simp only [upd]; grind
  have N3 : N he3 = he0 := by rw [hN']; simp only [upd]; grind
  have NO : ∀ h, (h ≠ he ∧ h ≠ rev ∧ h ≠ he0 ∧ h ≠ he1 ∧ h ≠ he2 ∧ h ≠ he3) → N h = m.hNext h := by
    intro h hh; rw [hN']; simp [upd, hh]
  have Fin : ∀ h, (h = he ∨ h = rev ∨ h = he0 ∨ h = he1 ∨ h = he2 ∨ h = he3) → Fa h = m.hFace he ∨ Fa h = m.hFace rev := by
    intro h hh
    rw [hFa]; simp only [flipState, hrev, n, n0, nr, n2]
    rcases hh with rfl | rfl | rfl | rfl | rfl | rfl <;> simp only [upd] <;> grind
  have FO : ∀ h, (h ≠ he ∧ h ≠ rev ∧ h ≠ he0 ∧ h ≠ he1 ∧ h ≠ he2 ∧ h ≠ he3) → Fa h = m.hFace h := by
    intro h hh; rw [hFa]; simp only [flipState, hrev, n, n0, nr, n2]; simp [upd, hh]
  have ho : ∀ z, m.HA z → (z ≠ he ∧ z ≠ rev ∧ z ≠ he0 ∧ z ≠ he1 ∧ z ≠ he2 ∧ z ≠ he3) →
      (m.hNext z ≠ he ∧ m.hNext z ≠ rev ∧ m.hNext z ≠ he0 ∧ m.hNext z ≠ he1 ∧ m.hNext z ≠ he2 ∧ m.hNext z ≠ he3) := by
    intro z hz hh
    refine ⟨?_, ?_, ?_, ?_, ?_, ?_⟩ <;> intro h1
    · exact hh.2.2.2.1 (ni _ _ hz a1 (h1.trans n1.symm))
    · exact hh.2.2.2.2.2 (ni _ _ hz a3 (h1.trans n3.symm))
    · exact hh.1 (ni _ _ hz a (h1.trans n.symm))
    · exact hh.2.2.1 (ni _ _ hz a0 (h1.trans n0.symm))
    · exact hh.2.1 (ni _ _ hz ar (h1.trans nr.symm))
    · exact hh.2.2.2.2.1 (ni _ _ hz a2 (h1.trans n2.symm))
  have hot : ∀ z, m.HA z → m.OnTri z → N (N (N z)) = z := by
    intro z hz tz
    rcases cs z with h | h | h | h | h | h | h
    · rw [h, N_, N1, N2]
    · rw [h, Nr, N3, N0]
    · rw [h, N0, Nr, N3]
    · rw [h, N1, N2, N_]
    · rw [h, N2, N_, N1]
    · rw [h, N3, N0, Nr]
    · have h1 := ho z hz h
      have h2 := ho _ (w.next_alive _ hz) h1
      rw [NO z h, NO _ h1, NO _ h2]; exact tz
  have hfo : ∀ z, m.HA z → (z ≠ he ∧ z ≠ rev ∧ z ≠ he0 ∧ z ≠ he1 ∧ z ≠ he2 ∧ z ≠ he3) →
      m.hFace z ≠ m.hFace he ∧ m.hFace z ≠ m.hFace rev := by
    intro z hz hh
    constructor <;> intro e
    · rcases w.tri_face a t hz e with h | h | h
      · exact hh.1 h
      · exact hh.2.2.1 (h.trans n)
      · exact hh.2.2.2.1 (h.trans (by rw [n, n0]))
    · rcases w.tri_face ar t' hz e with h | h | h
      · exact hh.2.1 h
      · exact hh.2.2.2.2.1 (h.trans nr)
      · exact hh.2.2.2.2.2 (h.trans (by rw [nr, n2]))
  have t0 := Mesh.WF.onTri_next t
  have t1 := Mesh.WF.onTri_next t0
  have t2 := Mesh.WF.onTri_next t'
  have t3 := Mesh.WF.onTri_next t2
  rw [n] at t0; rw [n, n0] at t1; rw [nr] at t2; rw [nr, n2] at t3
  refine ⟨fun h (ah : m.HA h) => ?_⟩
  unfold Mesh.OnTri
  rw [← hN, ← hFa]
  by_cases hs : m.OnTri h
  · exact Or.inl (hot h ah hs)
  · right
    have hh : h ≠ he ∧ h ≠ rev ∧ h ≠ he0 ∧ h ≠ he1 ∧ h ≠ he2 ∧ h ≠ he3 := by
      refine ⟨?_, ?_, ?_, ?_, ?_, ?_⟩ <;> (intro e; subst e; exact hs (by assumption))
    rcases tr.holds h ah with h1 | h1
    · exact absurd h1 hs
    · intro h' (ah' : m.HA h') e
      have e' : m.hFace h' = m.hFace h := by
        rw [FO h hh] at e
        have hne := hfo h ah hh
        rcases cs h' with k | k | k | k | k | k | k
        · rcases Fin h' (by tauto) with q | q <;> rw [e] at q <;> exact absurd q (by first | exact hne.1 | exact hne.2)
        · rcases Fin h' (by tauto) with q | q <;> rw [e] at q <;> exact absurd q (by first | exact hne.1 | exact hne.2)
        · rcases Fin h' (by tauto) with q | q <;> rw [e] at q <;> exact absurd q (by first | exact hne.1 | exact hne.2)
        · rcases Fin h' (by tauto) with q | q <;> rw [e] at q <;> exact absurd q (by first | exact hne.1 | exact hne.2)
        · rcases Fin h' (by tauto) with q | q <;> rw [e] at q <;> exact absurd q (by first | exact hne.1 | exact hne.2)
        · rcases Fin h' (by tauto) with q | q <;> rw [e] at q <;> exact absurd q (by first | exact hne.1 | exact hne.2)
        · rw [← FO h' k, e]
      have := h1 h' ah' e'
      exact ⟨this.1, this.2.1, hot _ (w.rev_alive _ ah') this.2.2⟩

end TinyMesh
