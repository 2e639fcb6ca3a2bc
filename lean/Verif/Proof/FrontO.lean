import Verif.Proof.FrontN
import Verif.Spec.Front
/-
The loop of rounds.
-/
namespace TinyMesh
open Orbit
variable {F : Type} [Scalar F] {m0 m m' : Mesh F} {f : Nat}

theorem closeAt_unlocked {avg : F} {b q : Nat} (c : m.closeAt avg b q = true) : m.vLock (m.hSrc b) = false := by
  unfold Mesh.closeAt at c
  cases h : m.vLock (m.hSrc b)
  · rfl
  · rw [h] at c; simp at c

theorem FrontStep.inv (S : FrontStart m0 f) (lk : ∀ h, m0.hAlive h = true → m0.hFace h = f → m0.vLock (m0.hSrc h) = true)
    (I : FrontInv m0 m f) (n4 : 4 ≤ (orbit m.hNext (m.fHe f)).length) {avg : F} {r : Bool} (s : FrontStep avg m f (.ok r m')) : FrontInv m0 m' f ∧ r = false := by
  generalize e : Out.ok r m' = o at s
  cases s with
  | merge C c s R =>
    injection e with e1 e2
    subst e2
    exact ⟨I.merge S lk n4 (closeAt_unlocked c) (I.behind S lk C (closeAt_unlocked c)) R, e1⟩
  | ear C => injection e with e1 e2; subst e2; exact ⟨I.ear S C n4, e1⟩
  | mid C => injection e with e1 e2; subst e2; exact ⟨I.mid S C n4, e1⟩
  | wide C => injection e with e1 e2; subst e2; exact ⟨I.wide S C n4, e1⟩
  | _ => exact absurd e (by simp)

/-- the mesh after the last round -/
noncomputable def Mesh.lastMesh (m : Mesh F) (f : Nat) : Mesh F := m.clearAll (orbit m.hNext (m.fHe f) ++ (orbit m.hNext (m.fHe f)).map m.hRev)

theorem frontRound_last (I : FrontInv m0 m f) (n3 : (orbit m.hNext (m.fHe f)).length = 3) (avg : F) : frontRound f avg m = .ok true (m.lastMesh f) := by
  have w := I.wf
  unfold frontRound
  rw [bind_apply, w.faceVerts_ok I.af]; dsimp only
  rw [bind_apply, w.faceList_ok I.af]; dsimp only
  rw [List.length_map, if_pos n3, bind_apply, frontFinish_ok w I.af]
  rfl

/-- every run of the loop: `P` is anything that rounds keep -/
theorem frontLoop_out (S : FrontStart m0 f) (lk : ∀ h, m0.hAlive h = true → m0.hFace h = f → m0.vLock (m0.hSrc h) = true) {avg : F} {P : Mesh F → Prop}
    (hP : ∀ m m', P m → FrontInv m0 m f → FrontInv m0 m' f → FrontStep avg m f (.ok false m') → P m') : ∀ (fuel : Nat) (m : Mesh F), FrontInv m0 m f → P m →
    (∃ m1, FrontInv m0 m1 f ∧ P m1 ∧ (orbit m1.hNext (m1.fHe f)).length = 3 ∧ frontLoop f avg fuel m = .ok () (m1.lastMesh f)) ∨
    ∃ e m1, FrontInv m0 m1 f ∧ P m1 ∧ frontLoop f avg fuel m = .err e ∧
      (e = .diverge ∨ (4 ≤ (orbit m1.hNext (m1.fHe f)).length ∧ FrontStep avg m1 f (.err e)))
  | 0, m, I, p => .inr ⟨.diverge, m, I, p, rfl, .inl rfl⟩
  | fuel + 1, m, I, p => by
    by_cases n3 : (orbit m.hNext (m.fHe f)).length = 3
    · refine .inl ⟨m, I, p, n3, ?_⟩
      unfold frontLoop
      rw [bind_apply, frontRound_last I n3]
      rfl
    · have n4 : 4 ≤ (orbit m.hNext (m.fHe f)).length := by have := I.n3; omega
      have s := frontRound_step I.wf I.af n4 (fun C ul => I.behind S lk C ul) avg
      unfold frontLoop
      rw [bind_apply]
      cases e : frontRound f avg m with
      | err e' =>
        rw [e] at s
        exact .inr ⟨e', m, I, p, rfl, .inr ⟨n4, s⟩⟩
      | ok r m' =>
        rw [e] at s
        obtain ⟨I', hr⟩ := s.inv S lk I n4
        subst hr
        exact frontLoop_out S lk hP fuel m' I' (hP m m' p I I' s)

/-! ### From the mesh the function is called with -/

theorem Mesh.WF.lockAll (w : m.WF) (vs : List Nat) : (m.lockAll vs).WF :=
  ⟨w.hDense, w.vDense, w.fDense, w.hBound, w.vBound, w.fBound, w.next_alive, w.rev_alive, w.src_alive, w.face_alive, w.rev_rev, w.rev_ne,
    w.src_rev, w.next_inj, w.face_next, w.fHe_ok, w.vHe_ok, w.face_conn, w.ring_conn⟩

theorem Mesh.WF.clearAll (w : m.WF) (hs : List Nat) : (m.clearAll hs).WF :=
  ⟨w.hDense, w.vDense, w.fDense, w.hBound, w.vBound, w.fBound, w.next_alive, w.rev_alive, w.src_alive, w.face_alive, w.rev_rev, w.rev_ne,
    w.src_rev, w.next_inj, w.face_next, w.fHe_ok, w.vHe_ok, w.face_conn, w.ring_conn⟩

/-- the mesh after the vertices of the hole have been locked -/
noncomputable def Mesh.lockHole (m : Mesh F) (f : Nat) : Mesh F := m.lockAll ((orbit m.hNext (m.fHe f)).map m.hSrc)

theorem lockHole_lock (w : m.WF) (af : m.fAlive f = true) (v : Nat) : (m.lockHole f).vLock v = true ↔ m.vLock v = true ∨ m.CornerOf f v := by
  have e : (m.lockHole f).vLock v = if v ∈ (orbit m.hNext (m.fHe f)).map m.hSrc then true else m.vLock v := rfl
  have c : v ∈ (orbit m.hNext (m.fHe f)).map m.hSrc ↔ m.CornerOf f v := by
    unfold Mesh.CornerOf
    rw [List.mem_map]
    constructor
    · rintro ⟨h, hh, e⟩
      have := ((w.faceLoop af).mem h).1 hh
      exact ⟨h, this.1, this.2, e⟩
    · rintro ⟨h, a, b, e⟩
      exact ⟨h, ((w.faceLoop af).mem h).2 ⟨a, b⟩, e⟩
  rw [e]
  split
  · next h => simp [c.1 h]
  · next h =>
    have : ¬ m.CornerOf f v := fun k => h (c.2 k)
    simp [this]

theorem lockHole_start (w : m.WF) (H : m.SimpleHole f) :
    FrontStart (m.lockHole f) f ∧
    ∀ h, (m.lockHole f).hAlive h = true → (m.lockHole f).hFace h = f → (m.lockHole f).vLock ((m.lockHole f).hSrc h) = true := by
  refine ⟨⟨w.lockAll _, H.alive, ?_, H.distinct⟩, ?_⟩
  · have := H.three
    rw [← w.loop_length H.alive] at this
    exact this
  · intro h a e
    exact (lockHole_lock w H.alive _).2 (.inr ⟨h, a, e, rfl⟩)

/-- a loop of three half-edges that is no loop of one is a triangle -/
theorem sides_three (w : m.WF) {g : Nat} (ag : m.fAlive g = true) (t : ∀ h, m.hAlive h = true → m.hFace h = g → m.OnTri h ∧ m.hNext h ≠ h) : m.sides g = 3 := by
  obtain ⟨a, e⟩ := w.fHe_ok g ag
  obtain ⟨t0, n0⟩ := t _ a e
  have l := w.faceLoop ag
  have a1 := w.next_alive _ a
  have a2 := w.next_alive _ a1
  have e1 : m.hFace (m.hNext (m.fHe g)) = g := by rw [w.face_next _ a, e]
  have e2 : m.hFace (m.hNext (m.hNext (m.fHe g))) = g := by rw [w.face_next _ a1, e1]
  have n1 := (t _ a1 e1).2
  have n2 := (t _ a2 e2).2
  unfold Mesh.OnTri at t0
  rw [t0] at n2
  rw [← w.loop_length ag]
  have p : (orbit m.hNext (m.fHe g)).Perm [m.fHe g, m.hNext (m.fHe g), m.hNext (m.hNext (m.fHe g))] := by
    rw [List.perm_ext_iff_of_nodup l.nodup]
    · intro h
      rw [l.mem]
      constructor
      · rintro ⟨ah, eh⟩
        obtain ⟨n, hn⟩ := w.face_conn _ h a ah (by rw [e, eh])
        have key : ∀ n, m.hNext^[n] (m.fHe g) ∈ [m.fHe g, m.hNext (m.fHe g), m.hNext (m.hNext (m.fHe g))] := by
          intro n
          induction n with
          | zero => simp
          | succ n ih =>
            rw [Function.iterate_succ_apply']
            simp only [List.mem_cons, List.not_mem_nil, or_false] at ih ⊢
            rcases ih with k | k | k <;> rw [k]
            · exact .inr (.inl rfl)
            · exact .inr (.inr rfl)
            · exact .inl t0
        rw [← hn]; exact key n
      · intro hh
        simp only [List.mem_cons, List.not_mem_nil, or_false] at hh
        rcases hh with k | k | k <;> rw [k]
        · exact ⟨a, e⟩
        · exact ⟨a1, e1⟩
        · exact ⟨a2, e2⟩
    · simp only [List.nodup_cons, List.mem_cons, List.not_mem_nil, or_false, not_or, List.nodup_nil, and_true, not_false_eq_true]
      exact ⟨⟨n0.symm, n2⟩, n1.symm⟩
  rw [p.length_eq]
  rfl

theorem FrontInv.filled (w : m.WF) (H : m.SimpleHole f) {m1 : Mesh F} (I : FrontInv (m.lockHole f) m1 f)
    (n3 : (orbit m1.hNext (m1.fHe f)).length = 3) : m.Filled (m1.lastMesh f) f := by
  have w1 := I.wf
  have wl : (m1.lastMesh f).WF := w1.clearAll _
  have l1 := w1.faceLoop I.af
  refine ⟨wl, ⟨I.af, ?_⟩, ?_, I.fold, ?_, ?_, fun v a => (I.vo v a).1, ?_, ?_, ?_, I.rev, I.border, ?_⟩
  · rw [← wl.loop_length I.af]; exact n3
  · intro g ag d
    refine sides_three wl ag fun h ah e => ?_
    exact I.tri h ah (by rw [show m1.hFace h = g from e]; exact d)
  · intro g ag gf h
    constructor
    · rintro ⟨ah, e⟩
      have e : m1.hFace h = g := e
      have := I.new h ah (by rw [e]; exact ag) (by rw [e]; exact gf)
      exact ⟨this.1, this.2.trans e⟩
    · rintro ⟨ah, e⟩
      have := I.out h ah (by rw [show (m.lockHole f).hFace h = g from e]; exact gf)
      exact ⟨this.1, this.2.2.2.trans e⟩
  · intro h ah e
    have := I.out h ah e
    exact ⟨this.2.2.1, this.2.1⟩
  · intro v av nc
    exact (I.vo v av).2.2 fun h a e s => nc ⟨h, a, e, s⟩
  · intro v av
    by_cases o : m.vAlive v = true
    · rw [show (m1.lastMesh f).vLock v = m1.vLock v from rfl, (I.vo v o).2.1, lockHole_lock w H.alive]
      simp [o]
    · have d : m.vAlive v = false := by simpa using o
      rw [show (m1.lastMesh f).vLock v = m1.vLock v from rfl, (I.vn v av d).1]
      simp [o]
  · intro h ah e
    have mem : h ∈ orbit m1.hNext (m1.fHe f) := (l1.mem h).2 ⟨ah, e⟩
    exact ⟨if_pos (List.mem_append_left _ mem), if_pos (List.mem_append_right _ (List.mem_map_of_mem (f := m1.hRev) mem))⟩
  · rintro h ah (e | e) o
    · exact I.front h ah e o
    · exact I.corner h ah e o

theorem advancingFront_eq (w : m.WF) (af : m.fAlive f = true) (fuel : Nat) :
    ∃ avg, meanEdgeLength m = .ok avg m ∧ advancingFront fuel f m = frontLoop f avg fuel (m.lockHole f) := by
  obtain ⟨avg, e⟩ := meanEdgeLength_ok w
  refine ⟨avg, e, ?_⟩
  unfold advancingFront
  rw [bind_apply, e]; dsimp only
  rw [bind_apply, frontLock_ok w af]
  rfl

/-- every run of the function -/
theorem advancingFront_out (w : m.WF) (H : m.SimpleHole f) {P : Mesh F → Prop} (p0 : P (m.lockHole f))
    (hP : ∀ avg m1 m2, P m1 → FrontInv (m.lockHole f) m1 f → FrontInv (m.lockHole f) m2 f → FrontStep avg m1 f (.ok false m2) → P m2) (fuel : Nat) :
    (∃ m1, FrontInv (m.lockHole f) m1 f ∧ P m1 ∧ (orbit m1.hNext (m1.fHe f)).length = 3 ∧ advancingFront fuel f m = .ok () (m1.lastMesh f)) ∨
    ∃ avg e m1, meanEdgeLength m = .ok avg m ∧ FrontInv (m.lockHole f) m1 f ∧ P m1 ∧ advancingFront fuel f m = .err e ∧
      (e = .diverge ∨ (4 ≤ (orbit m1.hNext (m1.fHe f)).length ∧ FrontStep avg m1 f (.err e))) := by
  obtain ⟨avg, e0, e⟩ := advancingFront_eq w H.alive fuel
  obtain ⟨S, lk⟩ := lockHole_start w H
  rw [e]
  rcases frontLoop_out S lk (hP avg) fuel _ S.inv p0 with k | ⟨e1, m1, k1, k2, k3, k4⟩
  · exact .inl k
  · exact .inr ⟨avg, e1, m1, e0, k1, k2, k3, k4⟩

end TinyMesh
