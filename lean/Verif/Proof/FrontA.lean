import Verif.Spec.WF
import Verif.Proof.Basic
/-
The links of a mesh without the arrays, and reachability along a step function.
-/
namespace TinyMesh
variable {F : Type}

/-- `h'` is reached from `h` -/
def Reach (s : Nat → Nat) (h h' : Nat) : Prop := ∃ n, s^[n] h = h'

theorem Reach.refl (s : Nat → Nat) (h : Nat) : Reach s h h := ⟨0, rfl⟩
theorem Reach.one {s : Nat → Nat} {h h' : Nat} (e : s h = h') : Reach s h h' := ⟨1, e⟩
theorem Reach.trans {s : Nat → Nat} {a b c : Nat} (h1 : Reach s a b) (h2 : Reach s b c) : Reach s a c := by
  obtain ⟨n, rfl⟩ := h1
  obtain ⟨k, rfl⟩ := h2
  exact ⟨k + n, by rw [Function.iterate_add_apply]⟩

/-- steps of `s` can be done with `s'` -/
theorem Reach.lift {s s' : Nat → Nat} {S : Nat → Prop} (st : ∀ h, S h → S (s h) ∧ Reach s' h (s h)) {h h' : Nat} (a : S h) (r : Reach s h h') :
    Reach s' h h' := by
  obtain ⟨n, e⟩ := r
  induction n generalizing h with
  | zero => exact ⟨0, e⟩
  | succ n ih => exact (st h a).2.trans (ih (st h a).1 e)

/-- connectedness of a larger set all of whose elements are connected with elements of a smaller one -/
theorem Reach.ext {s s' : Nat → Nat} {S S' : Nat → Prop} {k k' : Nat → Nat} (st : ∀ h, S h → S (s h) ∧ Reach s' h (s h))
    (conn : ∀ h h', S h → S h' → k h = k h' → Reach s h h')
    (rep : ∀ h, S' h → ∃ o, S o ∧ k o = k' h ∧ Reach s' h o ∧ Reach s' o h) {h h' : Nat} (a : S' h) (a' : S' h') (e : k' h = k' h') :
    Reach s' h h' := by
  obtain ⟨o, a1, e1, r1, -⟩ := rep h a
  obtain ⟨o', a2, e2, -, r2⟩ := rep h' a'
  exact (r1.trans (Reach.lift st a1 (conn o o' a1 a2 (by rw [e1, e2, e])))).trans r2

/-- a path from `h` to `h'` that stays in `S` except for steps into deleted elements, which are replaced by shortcuts -/
theorem Reach.bypass {s s' : Nat → Nat} {S D : Nat → Prop} {l : Nat} (hl : 0 < l) (inS : ∀ h, S h → S (s h))
    (st : ∀ h, S h → ¬D h → (¬D (s h) ∧ Reach s' h (s h)) ∨ ((∀ i, 0 < i → i < l → D (s^[i] h)) ∧ ¬D (s^[l] h) ∧ Reach s' h (s^[l] h))) :
    ∀ (n : Nat) {h h' : Nat}, S h → ¬D h → ¬D h' → s^[n] h = h' → Reach s' h h' := by
  intro n
  induction n using Nat.strong_induction_on with
  | _ n ih =>
    intro h h' a d d' e
    rcases n with - | n
    · exact ⟨0, e⟩
    · rcases st h a d with ⟨h1, h2⟩ | ⟨h1, h2, h3⟩
      · exact h2.trans (ih n (by omega) (inS h a) h1 d' e)
      · have hn : l ≤ n + 1 := by
          by_contra hh
          exact d' (e ▸ h1 (n + 1) (by omega) (by omega))
        have inl : ∀ i, S (s^[i] h) := by
          intro i
          induction i with
          | zero => exact a
          | succ i ih => rw [Function.iterate_succ_apply']; exact inS _ ih
        refine h3.trans (ih (n + 1 - l) (by omega) (inl l) h2 d' ?_)
        rw [← Function.iterate_add_apply, Nat.sub_add_cancel hn, e]

/-- a path from the successor of `c` that does not meet `c` again -/
theorem Reach.avoid {s : Nat → Nat} {c h : Nat} (r : Reach s (s c) h) (hc : h ≠ c) :
    ∃ n, s^[n] (s c) = h ∧ ∀ i, i ≤ n → s^[i] (s c) ≠ c := by
  classical
  have r' : ∃ n, s^[n] (s c) = h := r
  obtain ⟨n, h1, h2⟩ : ∃ n, s^[n] (s c) = h ∧ ∀ k, k < n → s^[k] (s c) ≠ h := ⟨Nat.find r', Nat.find_spec r', fun k hk => Nat.find_min r' hk⟩
  refine ⟨n, h1, fun i hi e => ?_⟩
  rcases Nat.lt_or_eq_of_le hi with h3 | h3
  · have h4 : s^[i + 1] (s c) = s c := by rw [Function.iterate_succ_apply', e]
    refine h2 (n - (i + 1)) (by omega) ?_
    have h5 : s^[n - (i + 1)] (s^[i + 1] (s c)) = h := by rw [← Function.iterate_add_apply, Nat.sub_add_cancel h3, h1]
    rwa [h4] at h5
  · rw [h3, h1] at e
    exact hc e

theorem Reach.path {s s' : Nat → Nat} : ∀ (n : Nat) {h : Nat}, (∀ i, i < n → s' (s^[i] h) = s (s^[i] h)) → Reach s' h (s^[n] h)
  | 0, h, _ => .refl _ h
  | n + 1, h, hh => (Reach.one (hh 0 (by omega))).trans (Reach.path n fun i hi => hh (i + 1) (by omega))

/-- the links of a mesh -/
structure Links where
  hA : Nat → Bool
  nx : Nat → Nat
  rv : Nat → Nat
  sr : Nat → Nat
  fc : Nat → Nat
  vA : Nat → Bool
  vh : Nat → Nat
  fA : Nat → Bool
  fh : Nat → Nat

/-- the conditions of `Mesh.WF` on the links -/
structure Links.Ok (L : Links) : Prop where
  next_alive : ∀ h, L.hA h = true → L.hA (L.nx h) = true
  rev_alive : ∀ h, L.hA h = true → L.hA (L.rv h) = true
  src_alive : ∀ h, L.hA h = true → L.vA (L.sr h) = true
  face_alive : ∀ h, L.hA h = true → L.fA (L.fc h) = true
  rev_rev : ∀ h, L.hA h = true → L.rv (L.rv h) = h
  rev_ne : ∀ h, L.hA h = true → L.rv h ≠ h
  src_rev : ∀ h, L.hA h = true → L.sr (L.rv h) = L.sr (L.nx h)
  next_inj : ∀ h h', L.hA h = true → L.hA h' = true → L.nx h = L.nx h' → h = h'
  face_next : ∀ h, L.hA h = true → L.fc (L.nx h) = L.fc h
  fHe_ok : ∀ f, L.fA f = true → L.hA (L.fh f) = true ∧ L.fc (L.fh f) = f
  vHe_ok : ∀ v, L.vA v = true → L.hA (L.vh v) = true ∧ L.sr (L.vh v) = v
  face_conn : ∀ h h', L.hA h = true → L.hA h' = true → L.fc h = L.fc h' → Reach L.nx h h'
  ring_conn : ∀ h h', L.hA h = true → L.hA h' = true → L.sr h = L.sr h' → Reach (fun x => L.nx (L.rv x)) h h'

def Mesh.links (m : Mesh F) : Links := ⟨m.hAlive, m.hNext, m.hRev, m.hSrc, m.hFace, m.vAlive, m.vHe, m.fAlive, m.fHe⟩

theorem Mesh.WF.links_ok {m : Mesh F} (w : m.WF) : m.links.Ok where
  next_alive := w.next_alive
  rev_alive := w.rev_alive
  src_alive := w.src_alive
  face_alive := w.face_alive
  rev_rev := w.rev_rev
  rev_ne := w.rev_ne
  src_rev := w.src_rev
  next_inj := w.next_inj
  face_next := w.face_next
  fHe_ok := w.fHe_ok
  vHe_ok := w.vHe_ok
  face_conn := w.face_conn
  ring_conn := w.ring_conn

/-- the links agree on all live elements -/
structure Links.Same (L L' : Links) : Prop where
  hA : ∀ h, L'.hA h = L.hA h
  nx : ∀ h, L.hA h = true → L'.nx h = L.nx h
  rv : ∀ h, L.hA h = true → L'.rv h = L.rv h
  sr : ∀ h, L.hA h = true → L'.sr h = L.sr h
  fc : ∀ h, L.hA h = true → L'.fc h = L.fc h
  vA : ∀ v, L'.vA v = L.vA v
  vh : ∀ v, L.vA v = true → L'.vh v = L.vh v
  fA : ∀ f, L'.fA f = L.fA f
  fh : ∀ f, L.fA f = true → L'.fh f = L.fh f

theorem Links.Ok.congr {L L' : Links} (K : L.Ok) (S : L.Same L') : L'.Ok := by
  have A : ∀ {h}, L'.hA h = true → L.hA h = true := fun {h} a => by rw [← S.hA]; exact a
  have st : ∀ h, L.hA h = true → L.hA (L.nx h) = true ∧ Reach L'.nx h (L.nx h) := fun h a => ⟨K.next_alive h a, .one (S.nx h a)⟩
  have st2 : ∀ h, L.hA h = true → L.hA (L.nx (L.rv h)) = true ∧ Reach (fun x => L'.nx (L'.rv x)) h (L.nx (L.rv h)) := fun h a =>
    ⟨K.next_alive _ (K.rev_alive h a), Reach.one (by rw [S.rv h a, S.nx _ (K.rev_alive h a)])⟩
  refine ⟨?_, ?_, ?_, ?_, ?_, ?_, ?_, ?_, ?_, ?_, ?_, ?_, ?_⟩
  · intro h a; rw [S.hA, S.nx h (A a)]; exact K.next_alive h (A a)
  · intro h a; rw [S.hA, S.rv h (A a)]; exact K.rev_alive h (A a)
  · intro h a; rw [S.vA, S.sr h (A a)]; exact K.src_alive h (A a)
  · intro h a; rw [S.fA, S.fc h (A a)]; exact K.face_alive h (A a)
  · intro h a; rw [S.rv h (A a), S.rv _ (K.rev_alive h (A a))]; exact K.rev_rev h (A a)
  · intro h a; rw [S.rv h (A a)]; exact K.rev_ne h (A a)
  · intro h a
    rw [S.rv h (A a), S.nx h (A a), S.sr _ (K.rev_alive h (A a)), S.sr _ (K.next_alive h (A a))]
    exact K.src_rev h (A a)
  · intro h h' a a' e
    rw [S.nx h (A a), S.nx h' (A a')] at e
    exact K.next_inj h h' (A a) (A a') e
  · intro h a
    rw [S.nx h (A a), S.fc h (A a), S.fc _ (K.next_alive h (A a))]
    exact K.face_next h (A a)
  · intro f a
    rw [S.fA] at a
    have := K.fHe_ok f a
    rw [S.fh f a, S.hA, S.fc _ this.1]
    exact this
  · intro v a
    rw [S.vA] at a
    have := K.vHe_ok v a
    rw [S.vh v a, S.hA, S.sr _ this.1]
    exact this
  · intro h h' a a' e
    rw [S.fc h (A a), S.fc h' (A a')] at e
    exact Reach.lift st (A a) (K.face_conn h h' (A a) (A a') e)
  · intro h h' a a' e
    rw [S.sr h (A a), S.sr h' (A a')] at e
    exact Reach.lift st2 (A a) (K.ring_conn h h' (A a) (A a') e)

theorem Links.Ok.wf {m : Mesh F} (K : m.links.Ok) (hd : Dense m.hAlive m.hIdx m.hes) (vd : Dense m.vAlive m.vIdx m.vs)
    (fd : Dense m.fAlive m.fIdx m.fs) (hb : ∀ h, m.hAlive h = true → 0 < h ∧ h < m.hFresh)
    (vb : ∀ v, m.vAlive v = true → 0 < v ∧ v < m.vFresh) (fb : ∀ f, m.fAlive f = true → 0 < f ∧ f < m.fFresh) : m.WF where
  hDense := hd
  vDense := vd
  fDense := fd
  hBound := hb
  vBound := vb
  fBound := fb
  next_alive := K.next_alive
  rev_alive := K.rev_alive
  src_alive := K.src_alive
  face_alive := K.face_alive
  rev_rev := K.rev_rev
  rev_ne := K.rev_ne
  src_rev := K.src_rev
  next_inj := K.next_inj
  face_next := K.face_next
  fHe_ok := K.fHe_ok
  vHe_ok := K.vHe_ok
  face_conn := K.face_conn
  ring_conn := K.ring_conn

end TinyMesh
