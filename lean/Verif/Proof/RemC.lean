import Verif.Proof.RemB
import Verif.Props.Smooth
/-
The whole of remeshing.
-/
namespace TinyMesh
open Orbit
variable {F : Type} [Scalar F] {m m' : Mesh F}

/-- what remeshing preserves -/
structure RemDone (m m' : Mesh F) : Prop where
  locked : KeepsLocked m m'
  euler : m'.euler2 = m.euler2
  reuse : NoReuse m m'
  pieces : Corresp m m'
  holes : KeepsHoles m m'

theorem RemDone.pre : Pre (F := F) RemDone where
  refl m := ⟨fun _ a l => ⟨a, l, rfl⟩, rfl, .refl m, .refl m, .refl m⟩
  trans h h' := ⟨fun v a l => by
    obtain ⟨a1, l1, p1⟩ := h.locked v a l
    obtain ⟨a2, l2, p2⟩ := h'.locked v a1 l1
    exact ⟨a2, l2, p2.trans p1⟩, h'.euler.trans h.euler, h.reuse.trans h'.reuse,
    h.pieces.trans h.reuse.vF h'.reuse.v h'.pieces, h.holes.trans h'.holes⟩

theorem SplitStep.remDone (g : m.Good) {h he : Nat} (S : SplitStep m m' h he) : m'.Good ∧ RemDone m m' := by
  have d := S.done g
  refine ⟨d.good, fun v a l => ⟨(d.keeps v a).1, (d.keeps v a).2.2.trans l, (d.keeps v a).2.1⟩, ?_, S.noReuse, S.corresp g,
    S.keepsHoles g⟩
  have := d.nv; have := d.nh; have := d.nf
  unfold Mesh.euler2; omega

theorem Collapsed.remDone (g : m.Good) {h p q : Nat} (S : Collapsed m m' h p q) (l : m.vLock q = false) : m'.Good ∧ RemDone m m' := by
  have d := S.done
  refine ⟨d.good, fun v a hl => ?_, ?_, S.noReuse, d.corresp g, d.keepsHoles g.wf S.bd S.flag⟩
  · have a' := (d.alive v).2 ⟨a, fun e => by rw [e, l] at hl; cases hl⟩
    exact ⟨a', (d.keeps v a').2.trans hl, (d.keeps v a').1⟩
  · have := d.nv; have := d.nh; have := d.nf
    unfold Mesh.euler2; omega

theorem Flipped.remDone (g : m.Good) {p q r s : Nat} (S : Flipped m m' p q r s) : m'.Good ∧ RemDone m m' := by
  have d := S.done
  refine ⟨d.good, fun v a hl => ?_, ?_, S.noReuse, d.corresp g.wf S.tris.1 S.tris.2, S.holes⟩
  · rw [d.vAlive, d.lock, d.pos]; exact ⟨a, hl, rfl⟩
  · unfold Mesh.euler2; rw [d.hes, d.vs, d.fs]

theorem Mesh.SameButPos.remDone (g : m.Good) (s : m.SameButPos m') (h : ∀ v, m.Pinned v → m'.vPos v = m.vPos v) :
    m'.Good ∧ RemDone m m' :=
  ⟨s.good g, fun v a hl => ⟨by rw [s]; exact a, by rw [s]; exact hl, h v (Or.inr hl)⟩, s.euler, s.noReuse, s.corresp, s.keepsHoles⟩

/-- What has to be known about an extra invariant `J` of the positions, and the errors that may then occur. -/
structure Caps (J : Mesh F → Prop) (E : Err → Prop) : Prop where
  split : ∀ {m m' h he}, m.Good → J m → SplitStep m m' h he → J m'
  flip : ∀ {m m' : Mesh F}, J m → m'.vAlive = m.vAlive → m'.vPos = m.vPos → J m'
  collapse : ∀ {m m' p q}, J m → CollapseDone m m' p q → J m'
  nan : E .abort ∨ ∀ m, J m → ∀ v, m.vAlive v = true → (m.vPos v).eq (m.vPos v) = true
  taubin : ∀ m, m.Good → J m → (E .throw ∨ smoothTaubinDefault m ≠ .err .throw) ∧ ∀ m', smoothTaubinDefault m = .ok () m' → J m'

variable {J : Mesh F → Prop} {E : Err → Prop}

/-- the invariant of the loops -/
def GoodAnd (J : Mesh F → Prop) (m : Mesh F) : Prop := m.Good ∧ J m

theorem splitOne_runs (C : Caps J E) (lim : F) (i : Nat) : Runs (GoodAnd J) E RemDone (splitOne lim i) := by
  rintro m ⟨g, j⟩
  rcases splitOne_cases g lim i with e | ⟨m', h, he, e, S⟩
  · exact Or.inl ⟨_, _, e, ⟨g, j⟩, RemDone.pre.refl m⟩
  · exact Or.inl ⟨_, _, e, ⟨(S.remDone g).1, C.split g j S⟩, (S.remDone g).2⟩

theorem collapseOne_runs (C : Caps J E) (lo lim : F) (i : Nat) : Runs (GoodAnd J) E RemDone (collapseOne lo lim i) := by
  rintro m ⟨g, j⟩
  rcases collapseOne_cases g lo lim i with e | ⟨m', h, p, q, e, S, l⟩ | ⟨e, v, a, hv⟩
  · exact Or.inl ⟨_, _, e, ⟨g, j⟩, RemDone.pre.refl m⟩
  · exact Or.inl ⟨_, _, e, ⟨(S.remDone g l).1, C.collapse j S.done⟩, (S.remDone g l).2⟩
  · rcases C.nan with h | h
    · exact Or.inr ⟨_, h, e⟩
    · exact absurd (h m j v a) hv

theorem flip_runs (C : Caps J E) {body : Nat → M F Unit} (hb : ∀ {m : Mesh F} {i : Nat}, m.Good → i < m.hes.length →
      body i m = .ok () m ∨ ∃ m' p q r s, body i m = .ok () m' ∧ Flipped m m' p q r s) :
    Runs (GoodAnd J) E RemDone (forHalfedges body) := by
  refine Runs.forHalfedges RemDone.pre fun i m h c => ?_
  obtain ⟨g, j⟩ := h
  rcases hb g c with e | ⟨m', p, q, r, s, e, S⟩
  · exact Or.inl ⟨_, _, e, ⟨⟨g, j⟩, RemDone.pre.refl m⟩, rfl⟩
  · exact Or.inl ⟨_, _, e, ⟨⟨(S.remDone g).1, C.flip j S.done.vAlive S.done.pos⟩, (S.remDone g).2⟩, by rw [S.done.hes]⟩

theorem taubin_runs (C : Caps J E) : Runs (GoodAnd J) E RemDone (smoothTaubinDefault (F := F)) := by
  rintro m ⟨g, j⟩
  have k := c27_taubin (Scalar.lit 1 2 : F) (Scalar.lit 53 100) (n := 3) (by decide) g.wf
  rcases k with k | ⟨m', k, s, hp⟩
  · rcases (C.taubin m g j).1 with h | h
    · exact Or.inr ⟨_, h, k⟩
    · exact absurd k h
  · exact Or.inl ⟨_, _, k, ⟨(s.remDone g hp).1, (C.taubin m g j).2 m' k⟩, (s.remDone g hp).2⟩

theorem verify_runs : Runs (GoodAnd J) E RemDone (verify (F := F)) := fun m h =>
  Or.inl ⟨_, _, h.1.wf.verify_ok, h, RemDone.pre.refl m⟩

theorem round_runs (C : Caps J E) (lo lim : F) (s1 s2 : Nat → List Nat) :
    Runs (GoodAnd J) E RemDone (remeshRound lo lim s1 s2) := by
  unfold remeshRound
  refine .look RemDone.pre (fun m _ => ⟨_, rfl⟩) fun n => ?_
  refine .bind RemDone.pre (.forAll RemDone.pre (fun i => splitOne_runs C lim i) _) fun _ => ?_
  refine .bind RemDone.pre verify_runs fun _ => ?_
  refine .look RemDone.pre (fun m _ => ⟨_, rfl⟩) fun n' => ?_
  refine .bind RemDone.pre (.forAll RemDone.pre (fun i => collapseOne_runs C lo lim i) _) fun _ => ?_
  exact .bind RemDone.pre (flip_runs C fun g c => flipOne_cases g c) fun _ => taubin_runs C

theorem remeshLoop_runs (C : Caps J E) (lo lim : F) (sh : Nat → Bool → Nat → List Nat) : ∀ (n k : Nat),
    Runs (GoodAnd J) E RemDone (remeshLoop lo lim sh k n)
  | 0, _ => .pure RemDone.pre ()
  | n + 1, k => .bind RemDone.pre (round_runs C lo lim _ _) fun _ => remeshLoop_runs C lo lim sh n (k + 1)

/-! Before the loop -/

omit [Scalar F] in
theorem Mesh.WF.setLocks (w : m.WF) (l : Nat → Bool) : ({ m with vLock := l } : Mesh F).WF :=
  ⟨w.hDense, w.vDense, w.fDense, w.hBound, w.vBound, w.fBound, w.next_alive, w.rev_alive, w.src_alive, w.face_alive,
    w.rev_rev, w.rev_ne, w.src_rev, w.next_inj, w.face_next, w.fHe_ok, w.vHe_ok, w.face_conn, w.ring_conn⟩

omit [Scalar F] in
theorem Mesh.Good.setLocks (g : m.Good) (l : Nat → Bool) : ({ m with vLock := l } : Mesh F).Good :=
  ⟨g.wf.setLocks l, ⟨g.tri.holds⟩, ⟨g.simple.no_loop, g.simple.no_dup⟩⟩

theorem heLength_ok (w : m.WF) {h : Nat} (a : m.hAlive h = true) :
    heLength h m = .ok (Vec3.length ((m.vPos (m.hSrc h)).sub (m.vPos (m.hSrc (m.hNext h))))) m := by
  simp [heLength, getSrc_ok a, getPos_ok (w.src_alive _ a), getDst_ok a (w.next_alive _ a),
      getPos_ok (w.src_alive _ (w.next_alive _ a))]

theorem lengthSum_ok (w : m.WF) : ∀ (l : List Nat) (s : F), (∀ h ∈ l, m.hAlive h = true) → lengthSum l s m =
    .ok (l.foldl (fun s h => s + Vec3.length ((m.vPos (m.hSrc h)).sub (m.vPos (m.hSrc (m.hNext h))))) s) m
  | [], _, _ => rfl
  | h :: l, s, hl => by
    simp [lengthSum, heLength_ok w (hl h (by simp)), lengthSum_ok w l _ (fun x hx => hl x (by simp [hx]))]

theorem avgLength_ok (w : m.WF) : ∃ avg, avgLength m = .ok avg m := by
  unfold avgLength
  simp [lengthSum_ok w m.hes _ (fun h hh => (w.hDense.mem h).1 hh)]

/-- the smallest dihedral angle at a vertex, as computed from its ring -/
noncomputable def ringAngle (m : Mesh F) (v : Nat) : F :=
  minDihedral (m.vPos v) ((orbit m.sig (m.vHe v)).map fun h => m.vPos (m.hSrc (m.hNext h)))

theorem lockLoop_ok (keep : F) : ∀ (l : List Nat) (lk : Nat → Bool), m.WF → (∀ v ∈ l, m.vAlive v = true) →
    lockLoop keep l { m with vLock := lk } =
      .ok () { m with vLock := fun v => lk v || (l.contains v && Scalar.lt (ringAngle m v) keep) }
  | [], lk, _, _ => by simp [lockLoop]
  | v :: l, lk, w, h => by
    have a := h v (by simp)
    have w' := w.setLocks lk
    have e1 := w'.ringVerts_ok a
    have e2 : getPosList ((orbit m.sig (m.vHe v)).map fun h => m.hSrc (m.hNext h)) ({ m with vLock := lk } : Mesh F) =
        .ok (((orbit m.sig (m.vHe v)).map fun h => m.hSrc (m.hNext h)).map m.vPos) { m with vLock := lk } :=
      getPosList_ok _ fun x hx => by
        obtain ⟨y, hy, rfl⟩ := List.mem_map.1 hx
        exact w.src_alive _ (w.next_alive _ ((w.mem_ring a).1 hy).1)
    unfold lockLoop
    rw [bind_apply, e1]
    dsimp only
    rw [bind_apply, show (orbit ({ m with vLock := lk } : Mesh F).sig (m.vHe v)) = orbit m.sig (m.vHe v) from rfl, e2]
    dsimp only
    rw [bind_apply, getPos_ok (m := ({ m with vLock := lk } : Mesh F)) a]
    dsimp only
    rw [List.map_map]
    change (if Scalar.lt (ringAngle m v) keep = true then (setLock v true >>= fun _ => lockLoop keep l) else lockLoop keep l) _ = _
    by_cases c : Scalar.lt (ringAngle m v) keep = true
    · rw [if_pos c, bind_apply]
      have e3 : setLock v true ({ m with vLock := lk } : Mesh F) = .ok () { m with vLock := upd lk v true } := by
        simp [setLock, a]
      rw [e3]
      dsimp only
      rw [lockLoop_ok keep l _ w fun x hx => h x (by simp [hx])]
      congr 2
      funext x
      by_cases hx : x = v
      · subst hx; simp [upd, c]
      · simp [upd, hx]
    · rw [if_neg c]
      rw [lockLoop_ok keep l _ w fun x hx => h x (by simp [hx])]
      congr 2
      funext x
      by_cases hx : x = v
      · subst hx; simp [c]
      · simp [hx]

theorem lockFeatures_ok (w : m.WF) (keep : F) : lockFeatures keep m =
    .ok () { m with vLock := fun v => m.vLock v || (m.vAlive v && Scalar.lt (ringAngle m v) keep) } := by
  unfold lockFeatures
  rw [bind_apply, read_apply]
  refine (lockLoop_ok keep m.vs m.vLock w fun v hv => (w.vDense.mem v).1 hv).trans ?_
  congr 2
  funext v
  congr 2
  rw [Bool.eq_iff_iff]
  simp [w.vDense.mem v]

/-- everything that `remesh` can do -/
theorem remesh_outcome (C : Caps J E) (g : m.Good) (j : J m) (sh : Nat → Bool → Nat → List Nat) (short long keep : F) (n : Nat) :
    (remesh sh short long keep n m = .err .abort ∧ ∃ v, m.vAlive v = true ∧ (m.vPos v).finite = false) ∨
    ∃ m1, lockFeatures keep m = .ok () m1 ∧
      ((∃ m', remesh sh short long keep n m = .ok () m' ∧ GoodAnd J m' ∧ RemDone m m' ∧ RemDone m1 m') ∨
       ∃ e, E e ∧ remesh sh short long keep n m = .err e) := by
  have w := g.wf
  unfold remesh
  rw [bind_apply, w.verify_ok]
  dsimp only
  by_cases c : m.vs.all (fun v => (m.vPos v).finite) = true
  · right
    refine ⟨_, lockFeatures_ok w keep, ?_⟩
    rw [bind_apply]
    have e1 : M.assert (m.vs.all fun v => (m.vPos v).finite) m = .ok () m := by simp [M.assert, c]
    obtain ⟨avg, ha⟩ := avgLength_ok w
    rw [e1]
    dsimp only
    rw [bind_apply, ha]
    dsimp only
    rw [bind_apply, lockFeatures_ok w keep]
    dsimp only
    set lk : Nat → Bool := fun v => m.vLock v || (m.vAlive v && Scalar.lt (ringAngle m v) keep) with hlk
    rcases remeshLoop_runs C (avg * short) (avg * long) sh n 0 { m with vLock := lk }
      ⟨g.setLocks lk, C.flip j rfl rfl⟩ with ⟨⟨⟩, m', e, i, r⟩ | h
    · have r0 : RemDone m { m with vLock := lk } :=
        ⟨fun v a l => ⟨a, by simp [hlk, l], rfl⟩, rfl, ⟨fun _ h _ => h, fun _ h _ => h, fun _ h _ => h, Nat.le_refl _, Nat.le_refl _,
          Nat.le_refl _⟩, .of_eq rfl rfl rfl rfl, .of_eq rfl rfl rfl rfl rfl⟩
      exact Or.inl ⟨m', e, i, RemDone.pre.trans r0 r, r⟩
    · exact Or.inr h
  · left
    have c' : (m.vs.all fun v => (m.vPos v).finite) = false := by simpa using c
    refine ⟨by rw [c']; rfl, ?_⟩
    obtain ⟨v, hv, h⟩ := List.all_eq_false.1 c'
    exact ⟨v, (w.vDense.mem v).1 hv, by simpa using h⟩

/-! The two instances -/

theorem caps_any : Caps (F := F) (fun _ => True) (fun e => e = .abort ∨ e = .throw) where
  split _ _ _ := trivial
  flip _ _ _ := trivial
  collapse _ _ := trivial
  nan := Or.inl (Or.inl rfl)
  taubin _ _ _ := ⟨Or.inl (Or.inr rfl), fun _ _ => trivial⟩

/-- all positions are finite, in exact arithmetic -/
def FinPos (m : Mesh XR) : Prop := ∃ p, m.AtE p

theorem caps_exact : Caps FinPos (fun _ => False) where
  split {m m' h he} g j S := by
    obtain ⟨p, A⟩ := j
    have d := S.done g
    have k : ∀ v, m'.vAlive v = true → ∃ x, (m'.vPos v).Is x := by
      intro v a
      rcases d.only v a with h1 | rfl
      · rw [(d.keeps v h1).2.1]; exact ⟨_, A v h1⟩
      · rw [d.pos]
        have := ((A _ (g.wf.src_alive _ S.D.a)).add (A _ (g.wf.src_alive _ S.D.ar))).smul (Scalar.lit 1 2 : ℝ)
        exact ⟨_, this⟩
    choose! q hq using k
    exact ⟨q, hq⟩
  flip {m m'} j h1 h2 := by
    obtain ⟨p, A⟩ := j
    exact ⟨p, fun v a => by rw [h2]; exact A v (by rw [← h1]; exact a)⟩
  collapse {m m' p q} j d := by
    obtain ⟨p, A⟩ := j
    exact ⟨p, fun v a => by rw [(d.keeps v a).1]; exact A v ((d.alive v).1 a).1⟩
  nan := Or.inr fun m ⟨p, A⟩ v a => by
    obtain ⟨w, hw, -⟩ := A v a
    rw [hw]
    simp [Vec3.eq, Vec3.fin, R_eq]
  taubin m g j := by
    obtain ⟨p, A⟩ := j
    obtain ⟨m', e, -, A'⟩ := c29_taubin_formula g.wf A (Scalar.lit 1 2 : ℝ) (Scalar.lit 53 100 : ℝ) (n := 3) (by decide)
    have e' : smoothTaubinDefault m = .ok () m' := e
    refine ⟨Or.inr (by rw [e']; simp), fun m2 h => ?_⟩
    rw [e'] at h; cases h
    exact ⟨_, A'⟩

end TinyMesh
