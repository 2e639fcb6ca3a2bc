import Verif.Proof.CtxG
/-
The four stages of the repair of context coherent completion.
-/
namespace TinyMesh
open Orbit

section
variable {m m' : Mesh XR} {p : Nat → E3}

theorem Mesh.Grows.size {lim : ℝ} (h : m.Grows lim m') : m.vs.length ≤ m'.vs.length := by
  obtain ⟨l, e, -⟩ := h.vs
  rw [e, List.length_append]; omega

theorem splitLoop_ends (s : m.Sound) {lim : ℝ} (hl : 0 < lim) (t : Nat) : ∃ N b m', (∀ k, N ≤ k → repairLoop (splitLong (XR.fin lim)) t k m = .ok b m') ∧
    m'.Sound ∧ m.Grows lim m' ∧ (∀ v, m'.vs[t]? = some v → m'.ShortAt m'.placed lim v) ∧ (b = false → m' = m) ∧
    (b = true → m.vs.length < m'.vs.length) := by
  rcases repairLoop_ends (step := splitLong (XR.fin lim)) (t := t) (I := Mesh.Sound) (fun m => m.pieces lim (m.vs[t]?.getD 0)) (R := Mesh.Grows lim)
    (Q := fun v m => m.ShortAt m.placed lim v) (E := fun _ _ _ => False) (T := fun m m' => m.vs.length < m'.vs.length)
    (Mesh.Grows.refl lim) Mesh.Grows.trans (fun h h' => h.trans_le h'.size) (fun m v s hv => by
      have av : m.vAlive v = true := (s.shut.good.wf.vDense.mem v).1 (List.mem_of_getElem? hv)
      rcases splitLong_step s hl av with h | ⟨m', e, s', r, l⟩
      · exact Or.inl h
      · obtain ⟨l', e', c⟩ := r.vs
        refine Or.inr (Or.inl ⟨m', e, s', r, ?_, ?_⟩)
        · rcases c with rfl | c
          · exact absurd l (lt_irrefl _)
          · rw [e', List.length_append]
            have := List.length_pos_iff.2 c
            omega
        have : m'.vs[t]? = some v := by
          rw [e', List.getElem?_append_left (List.getElem?_eq_some_iff.1 hv).1, hv]
        rw [this, hv]
        exact l) _ m le_rfl s with ⟨b, m', h⟩ | ⟨_, _, _, _, _, _, _, h⟩
  · exact ⟨_, b, m', h⟩
  · exact h.elim

theorem splitAll_ends (s : m.Sound) {lim : ℝ} (hl : 0 < lim) (ts : List Nat) : ∃ N b m', (∀ k, N ≤ k → repairAll (splitLong (XR.fin lim)) k ts m = .ok b m') ∧
    m'.Sound ∧ m.Grows lim m' ∧ (b = false → m' = m) ∧ (b = true → m.vs.length < m'.vs.length) ∧
    ∀ t ∈ ts, ∀ v, m.vs[t]? = some v → m'.ShortAt m'.placed lim v := by
  rcases repairAll_ends (step := splitLong (XR.fin lim)) (I := Mesh.Sound) (R := Mesh.Grows lim)
    (Q := fun t m => ∀ v, m.vs[t]? = some v → m.ShortAt m.placed lim v) (E := fun _ _ => False) (T := fun m m' => m.vs.length < m'.vs.length)
    (Mesh.Grows.refl lim) Mesh.Grows.trans (fun h h' => h.trans_le h'.size) (fun h h' => h.size.trans_lt h') (fun t m s => by
      obtain ⟨N, b, m', h⟩ := splitLoop_ends s hl t
      exact ⟨N, Or.inl ⟨b, m', h⟩⟩) ts m s with ⟨N, b, m', h1, h2, h3, h4, h6, h5⟩ | ⟨_, _, _, _, _, _, h⟩
  · refine ⟨N, b, m', h1, h2, h3, h4, h6, fun t ht v hv => ?_⟩
    obtain ⟨m1, s1, r1, r2, q⟩ := h5 t ht
    obtain ⟨l, e, -⟩ := r1.vs
    have e1 : m1.vs[t]? = some v := by rw [e, List.getElem?_append_left (List.getElem?_eq_some_iff.1 hv).1, hv]
    exact r2.short v ((s1.shut.good.wf.vDense.mem v).1 (List.mem_of_getElem? e1)) (q v e1)
  · exact h.elim

/-! ### Flips -/

/-- the same vertices -/
structure Mesh.SameVerts (m m' : Mesh XR) : Prop where
  vs : m'.vs = m.vs
  alive : m'.vAlive = m.vAlive
  pos : m'.vPos = m.vPos
  lock : m'.vLock = m.vLock

theorem Mesh.SameVerts.refl (m : Mesh XR) : m.SameVerts m := ⟨rfl, rfl, rfl, rfl⟩
theorem Mesh.SameVerts.trans {m1 m2 m3 : Mesh XR} (h : m1.SameVerts m2) (h' : m2.SameVerts m3) : m1.SameVerts m3 :=
  ⟨h'.vs.trans h.vs, h'.alive.trans h.alive, h'.pos.trans h.pos, h'.lock.trans h.lock⟩

theorem Mesh.SameVerts.placed (h : m.SameVerts m') : m'.placed = m.placed := by
  funext v; unfold Mesh.placed; rw [h.pos]

/-- what the other loops keep -/
structure Mesh.Kept (m : Mesh XR) : Prop where
  shut : m.Shut
  at_ : m.AtE m.placed

theorem flipLoop_ends (s : m.Kept) (t : Nat) : ∃ N b m', (∀ k, N ≤ k → repairLoop flipWide t k m = .ok b m') ∧
    m'.Kept ∧ m.SameVerts m' ∧ (∀ v, m'.vs[t]? = some v → ∀ x, m'.hAlive x = true → m'.hSrc x = v → m'.Wide m'.placed x → flipHE x m' = .ok false m') ∧
    (b = false → m' = m) := by
  rcases repairLoop_ends (step := flipWide) (t := t) (I := Mesh.Kept) (fun m : Mesh XR => m.outDeg (m.vs[t]?.getD 0)) (R := Mesh.SameVerts)
    (Q := fun v m => ∀ x, m.hAlive x = true → m.hSrc x = v → m.Wide m.placed x → flipHE x m = .ok false m) (E := fun _ _ _ => False)
    (T := fun _ _ => True) Mesh.SameVerts.refl Mesh.SameVerts.trans (fun _ _ => trivial) (fun m v s hv => by
      have av : m.vAlive v = true := (s.shut.good.wf.vDense.mem v).1 (List.mem_of_getElem? hv)
      rcases flipWide_cases s.shut s.at_ av with h | ⟨x, m', ax, sx, -, -, e, D⟩
      · exact Or.inl h
      · have sv : m.SameVerts m' := ⟨D.vs, D.vAlive, D.pos, D.lock⟩
        refine Or.inr (Or.inl ⟨m', e, ⟨.of D.good fun h a => ?_, ?_⟩, sv, trivial, ?_⟩)
        · rw [D.bd]; rw [D.hAlive] at a; exact s.shut.noFlag h a
        · rw [sv.placed]
          intro u au
          rw [D.pos]; rw [D.vAlive] at au
          exact s.at_ u au
        · rw [D.vs, hv]
          have := D.degP
          rw [sx] at this
          simp only [Option.getD_some]
          omega) _ m le_rfl s with ⟨b, m', h1, h2, h3, h4, h5, -⟩ | ⟨_, _, _, _, _, _, _, h⟩
  · exact ⟨_, b, m', h1, h2, h3, h4, h5⟩
  · exact h.elim

theorem flipAll_ends (s : m.Kept) (ts : List Nat) : ∃ N b m', (∀ k, N ≤ k → repairAll flipWide k ts m = .ok b m') ∧
    m'.Kept ∧ m.SameVerts m' ∧ (b = false → m' = m) := by
  rcases repairAll_ends (step := flipWide) (I := Mesh.Kept) (R := Mesh.SameVerts) (Q := fun _ _ => True) (E := fun _ _ => False)
    (T := fun _ _ => True) Mesh.SameVerts.refl Mesh.SameVerts.trans (fun _ _ => trivial) (fun _ _ => trivial) (fun t m s => by
      obtain ⟨N, b, m', h1, h2, h3, -, h4⟩ := flipLoop_ends s t
      exact ⟨N, Or.inl ⟨b, m', h1, h2, h3, trivial, h4, fun _ => trivial⟩⟩) ts m s with ⟨N, b, m', h1, h2, h3, h4, -, -⟩ | ⟨_, _, _, _, _, _, h⟩
  · exact ⟨N, b, m', h1, h2, h3, h4⟩
  · exact h.elim

/-! ### Collapses -/

/-- some vertices are gone, the others are as before -/
structure Mesh.Shrinks (m m' : Mesh XR) : Prop where
  old : ∀ v, m'.vAlive v = true → m.vAlive v = true ∧ m'.vPos v = m.vPos v ∧ m'.vLock v = m.vLock v
  size : m' = m ∨ m'.vs.length < m.vs.length

theorem Mesh.Shrinks.refl (m : Mesh XR) : m.Shrinks m := ⟨fun v a => ⟨a, rfl, rfl⟩, Or.inl rfl⟩
theorem Mesh.Shrinks.trans {m1 m2 m3 : Mesh XR} (h : m1.Shrinks m2) (h' : m2.Shrinks m3) : m1.Shrinks m3 := by
  refine ⟨fun v a => ?_, ?_⟩
  · obtain ⟨b1, b2, b3⟩ := h'.old v a
    obtain ⟨c1, c2, c3⟩ := h.old v b1
    exact ⟨c1, b2.trans c2, b3.trans c3⟩
  · rcases h.size with rfl | c
    · exact h'.size
    · rcases h'.size with rfl | c'
      · exact Or.inr c
      · exact Or.inr (c'.trans c)

theorem Mesh.Shrinks.le (h : m.Shrinks m') : m'.vs.length ≤ m.vs.length := by
  rcases h.size with rfl | h
  · exact le_rfl
  · exact h.le

theorem Mesh.Shrinks.kept (h : m.Shrinks m') (s : m.Kept) (g : m'.Good) (nf : ∀ h, m'.hAlive h = true → m'.hBd h = false) : m'.Kept := by
  refine ⟨.of g nf, ?_⟩
  have : m'.AtE m.placed := fun v a => by rw [(h.old v a).2.1]; exact s.at_ v (h.old v a).1
  exact this.placed

/-- a collapse -/
theorem collapse_kept (s : m.Kept) {x : Nat} (ax : m.hAlive x = true) (run : collapseHE x m = .ok true m') :
    m'.Kept ∧ m.Shrinks m' ∧ m'.vs.length < m.vs.length := by
  have bd := collapse_bd s.shut.good ax run
  rcases collapseHE_outcome s.shut.good ax with h | ⟨m2, a, b, h, -, D, -⟩ | ⟨h, -⟩
  · rw [run] at h; cases h
  · rw [run] at h; cases h
    have lt : m'.vs.length < m.vs.length := by have := D.nv; omega
    have sh : m.Shrinks m' := ⟨fun v av => ⟨((D.alive v).1 av).1, D.keeps v av⟩, Or.inr lt⟩
    refine ⟨sh.kept s D.good fun h a => ?_, sh, lt⟩
    rw [bd]; exact s.shut.noFlag h (D.hOld h a)
  · rw [run] at h; cases h

theorem thinLoop_ends (s : m.Kept) (t : Nat) : ∃ N b m', (∀ k, N ≤ k → repairLoop collapseThin t k m = .ok b m') ∧
    m'.Kept ∧ m.Shrinks m' ∧ (∀ v, m'.vs[t]? = some v → ∀ x, m'.hAlive x = true → m'.hSrc x = v → m'.Thin m'.placed x → collapseHE x m' = .ok false m') ∧
    (b = false → m' = m) ∧ (b = true → m'.vs.length < m.vs.length) := by
  rcases repairLoop_ends (step := collapseThin) (t := t) (I := Mesh.Kept) (fun m : Mesh XR => m.vs.length) (R := Mesh.Shrinks)
    (Q := fun v m => ∀ x, m.hAlive x = true → m.hSrc x = v → m.Thin m.placed x → collapseHE x m = .ok false m) (E := fun _ _ _ => False)
    (T := fun m m' => m'.vs.length < m.vs.length) Mesh.Shrinks.refl Mesh.Shrinks.trans (fun h h' => h'.le.trans_lt h) (fun m v s hv => by
      have av : m.vAlive v = true := (s.shut.good.wf.vDense.mem v).1 (List.mem_of_getElem? hv)
      rcases collapseThin_cases s.shut s.at_ av with h | ⟨x, m', ax, sx, -, run, e⟩
      · exact Or.inl h
      · obtain ⟨h1, h2, h3⟩ := collapse_kept s ax run
        exact Or.inr (Or.inl ⟨m', e, h1, h2, h3, h3⟩)) _ m le_rfl s with ⟨b, m', h⟩ | ⟨_, _, _, _, _, _, _, h⟩
  · exact ⟨_, b, m', h⟩
  · exact h.elim

theorem thinAll_ends (s : m.Kept) (ts : List Nat) : ∃ N b m', (∀ k, N ≤ k → repairAll collapseThin k ts m = .ok b m') ∧
    m'.Kept ∧ m.Shrinks m' ∧ (b = false → m' = m) ∧ (b = true → m'.vs.length < m.vs.length) := by
  rcases repairAll_ends (step := collapseThin) (I := Mesh.Kept) (R := Mesh.Shrinks) (Q := fun _ _ => True) (E := fun _ _ => False)
    (T := fun m m' => m'.vs.length < m.vs.length) Mesh.Shrinks.refl Mesh.Shrinks.trans (fun h h' => h'.le.trans_lt h) (fun h h' => h'.trans_le h.le)
    (fun t m s => by
      obtain ⟨N, b, m', h1, h2, h3, -, h4⟩ := thinLoop_ends s t
      exact ⟨N, Or.inl ⟨b, m', h1, h2, h3, trivial, h4⟩⟩) ts m s with ⟨N, b, m', h1, h2, h3, h4, h5, -⟩ | ⟨_, _, _, _, _, _, h⟩
  · exact ⟨N, b, m', h1, h2, h3, h4, h5⟩
  · exact h.elim

/-- the two collapses of `collapseFace` -/
theorem collapseFace_run (s : m.Kept) {f : Nat} (af : m.fAlive f = true) {b1 b2 : Bool} {m1 m2 : Mesh XR} (e1 : collapseHE (m.fHe f) m = .ok b1 m1)
    (e2 : collapseHE (m.hRev (m.hNext (m.fHe f))) m1 = .ok b2 m2) : collapseFace f m = .ok (b1 && b2) m2 := by
  have g := s.shut.good
  have w := g.wf
  obtain ⟨ah, fh⟩ := w.fHe_ok f af
  have an := w.next_alive _ ah
  have ar := w.rev_alive _ an
  have hd : (orbit m.hNext (m.fHe f)).headD 0 = m.fHe f := by rw [List.headD_eq_head?_getD, w.permNext.orbit_head ah]; rfl
  have sd : (orbit m.hNext (m.fHe f)).length = 3 := by
    have := sides_three w af fun y ay _ => ⟨s.shut.tri y ay, fun h => g.simple.no_loop y ay (by rw [h])⟩
    rw [(w.loop_perm af).length_eq, ← List.countP_eq_length_filter]
    exact this
  obtain ⟨b1', m1', e1', -, g1, -, a1⟩ := collapsedIf_ok g s.at_.refl_eq ah
  rw [e1] at e1'
  cases e1'
  obtain ⟨i1, i2⟩ := g1.wf.hDense.idx_lt a1
  have ix : (decide (0 ≤ m1.hIdx (m.hRev (m.hNext (m.fHe f)))) && decide (m1.hIdx (m.hRev (m.hNext (m.fHe f))) < (m1.hes.length : Int))) = true := by
    simp [i1, i2]
  unfold collapseFace
  simp only [bind_apply, w.faceList_ok af, sd, hd, getNext_ok ah, getRev_ok an, assert_true (p := ((3 : Nat) == 3)) rfl, e1, getHIdx_ok a1,
    read_apply, assert_true ix, e2]
  rfl

/-- a collapsed face -/
theorem face_kept (s : m.Kept) {f : Nat} (af : m.fAlive f = true) {b : Bool} (run : collapseFace f m = .ok b m') :
    m'.Kept ∧ m.Shrinks m' ∧ (b = true → m'.vs.length < m.vs.length) := by
  have g := s.shut.good
  have w := g.wf
  obtain ⟨ah, fh⟩ := w.fHe_ok f af
  have an := w.next_alive _ ah
  have ar := w.rev_alive _ an
  unfold collapseFace at run
  simp only [bind_apply, w.faceList_ok af] at run
  have hd : (orbit m.hNext (m.fHe f)).headD 0 = m.fHe f := by rw [List.headD_eq_head?_getD, w.permNext.orbit_head ah]; rfl
  have sd : (orbit m.hNext (m.fHe f)).length = 3 := by
    have := sides_three w af fun y ay _ => ⟨s.shut.tri y ay, fun h => g.simple.no_loop y ay (by rw [h])⟩
    rw [(w.loop_perm af).length_eq, ← List.countP_eq_length_filter]
    exact this
  rw [sd] at run
  simp only [hd, getNext_ok ah, getRev_ok an, assert_true (p := ((3 : Nat) == 3)) rfl] at run
  obtain ⟨b1, m1, e1, c1, g1, hn1, a1⟩ := collapsedIf_ok g s.at_.refl_eq ah
  rw [e1] at run
  have k1 : m1.Kept ∧ m.Shrinks m1 ∧ (b1 = true → m1.vs.length < m.vs.length) := by
    cases b1 with
    | false =>
      rcases c1 with ⟨-, rfl⟩ | ⟨h, -⟩
      · exact ⟨s, .refl _, fun h => (by cases h)⟩
      · cases h
    | true =>
      obtain ⟨h1, h2, h3⟩ := collapse_kept s ah e1
      exact ⟨h1, h2, fun _ => h3⟩
  obtain ⟨b2, m2, e2, c2, g2, -⟩ := collapsedIf_ok g1 hn1 a1
  have k2 : m2.Kept ∧ m1.Shrinks m2 := by
    cases b2 with
    | false =>
      rcases c2 with ⟨-, rfl⟩ | ⟨h, -⟩
      · exact ⟨k1.1, .refl _⟩
      · cases h
    | true =>
      obtain ⟨h1, h2, h3⟩ := collapse_kept k1.1 a1 e2
      exact ⟨h1, h2⟩
  obtain ⟨i1, i2⟩ := g1.wf.hDense.idx_lt a1
  have ix : (decide (0 ≤ m1.hIdx (m.hRev (m.hNext (m.fHe f)))) && decide (m1.hIdx (m.hRev (m.hNext (m.fHe f))) < (m1.hes.length : Int))) = true := by
    simp [i1, i2]
  simp only [getHIdx_ok a1, read_apply, assert_true ix, e2] at run
  cases run
  refine ⟨k2.1, k1.2.1.trans k2.2, fun h => ?_⟩
  rw [Bool.and_eq_true] at h
  have := k1.2.2 h.1
  rcases k2.2.size with e | e
  · rw [e]; exact this
  · exact e.trans this

/-- the outcome of the last loop in which the program is undefined: a face is only half collapsed -/
def Mesh.HalfDone (lim : ℝ) (m : Mesh XR) : Prop :=
  ∃ x m', m.hAlive x = true ∧ m.areaOf m.placed (m.fHe (m.hFace x)) < lim ∧ collapseFace (m.hFace x) m = .ok false m' ∧ m' ≠ m

theorem smallLoop_ends (s : m.Kept) (lim : ℝ) (t : Nat) : ∃ N, (∃ b m', (∀ k, N ≤ k → repairLoop (collapseSmall (XR.fin lim)) t k m = .ok b m') ∧
    m'.Kept ∧ m.Shrinks m' ∧ (∀ v, m'.vs[t]? = some v → ∀ x, m'.hAlive x = true → m'.hSrc x = v → m'.areaOf m'.placed (m'.fHe (m'.hFace x)) < lim →
      collapseFace (m'.hFace x) m' = .ok false m') ∧ (b = false → m' = m) ∧ (b = true → m'.vs.length < m.vs.length)) ∨
    ∃ e m1, (∀ k, N ≤ k → repairLoop (collapseSmall (XR.fin lim)) t k m = .err e) ∧ m1.Kept ∧ m.Shrinks m1 ∧ e = .ub ∧ m1.HalfDone lim := by
  rcases repairLoop_ends (step := collapseSmall (XR.fin lim)) (t := t) (I := Mesh.Kept) (fun m : Mesh XR => m.vs.length) (R := Mesh.Shrinks)
    (Q := fun v m => ∀ x, m.hAlive x = true → m.hSrc x = v → m.areaOf m.placed (m.fHe (m.hFace x)) < lim → collapseFace (m.hFace x) m = .ok false m)
    (E := fun _ m e => e = .ub ∧ m.HalfDone lim) (T := fun m m' => m'.vs.length < m.vs.length)
    Mesh.Shrinks.refl Mesh.Shrinks.trans (fun h h' => h'.le.trans_lt h) (fun m v s hv => by
      have av : m.vAlive v = true := (s.shut.good.wf.vDense.mem v).1 (List.mem_of_getElem? hv)
      rcases collapseSmall_cases s.shut s.at_ av lim with h | ⟨x, m', ax, sx, -, run, e⟩ | ⟨x, m', ax, sx, l, run, ne, e⟩
      · exact Or.inl h
      · obtain ⟨h1, h2, h3⟩ := face_kept s (s.shut.good.wf.face_alive _ ax) run
        exact Or.inr (Or.inl ⟨m', e, h1, h2, h3 rfl, h3 rfl⟩)
      · exact Or.inr (Or.inr ⟨.ub, e, rfl, x, m', ax, l, run, ne⟩)) _ m le_rfl s with ⟨b, m', h⟩ | ⟨e, m1, v, h1, h2, h3, -, h4⟩
  · exact ⟨_, Or.inl ⟨b, m', h⟩⟩
  · exact ⟨_, Or.inr ⟨e, m1, h1, h2, h3, h4⟩⟩

theorem smallAll_ends (s : m.Kept) (lim : ℝ) (ts : List Nat) :
    (∃ N b m', (∀ k, N ≤ k → repairAll (collapseSmall (XR.fin lim)) k ts m = .ok b m') ∧ m'.Kept ∧ m.Shrinks m' ∧ (b = false → m' = m) ∧
      (b = true → m'.vs.length < m.vs.length)) ∨
    ∃ N e m1, (∀ k, N ≤ k → repairAll (collapseSmall (XR.fin lim)) k ts m = .err e) ∧ m1.Kept ∧ m.Shrinks m1 ∧ e = .ub ∧ m1.HalfDone lim := by
  rcases repairAll_ends (step := collapseSmall (XR.fin lim)) (I := Mesh.Kept) (R := Mesh.Shrinks) (Q := fun _ _ => True) (E := fun m e => e = .ub ∧ m.HalfDone lim)
    (T := fun m m' => m'.vs.length < m.vs.length) Mesh.Shrinks.refl Mesh.Shrinks.trans (fun h h' => h'.le.trans_lt h) (fun h h' => h'.trans_le h.le)
    (fun t m s => by
      obtain ⟨N, ⟨b, m', h1, h2, h3, -, h4⟩ | h⟩ := smallLoop_ends s lim t
      · exact ⟨N, Or.inl ⟨b, m', h1, h2, h3, trivial, h4⟩⟩
      · exact ⟨N, Or.inr h⟩) ts m s with ⟨N, b, m', h1, h2, h3, h4, h5, -⟩ | h
  · exact Or.inl ⟨N, b, m', h1, h2, h3, h4, h5⟩
  · exact Or.inr h

/-! ### Together -/

/-- vertices that are left are as before, new ones are unlocked and between the old ones -/
structure Mesh.Repaired (m m' : Mesh XR) : Prop where
  old : ∀ v, m.vAlive v = true → m'.vAlive v = true → m'.vPos v = m.vPos v ∧ m'.vLock v = m.vLock v
  fresh : ∀ v, m'.vAlive v = true → m.vAlive v = true ∨ m'.vLock v = false
  hull : ∀ v, m'.vAlive v = true → m'.placed v ∈ convexHull ℝ {x | ∃ u, m.vAlive u = true ∧ m.placed u = x}

theorem Mesh.Repaired.of {m1 m2 m3 : Mesh XR} {lim : ℝ} (h1 : m.Grows lim m1) (h2 : m1.SameVerts m2) (h3 : m2.Shrinks m3) : m.Repaired m3 := by
  have b : ∀ v, m3.vAlive v = true → m1.vAlive v = true ∧ m3.vPos v = m1.vPos v ∧ m3.vLock v = m1.vLock v := fun v a => by
    obtain ⟨c1, c2, c3⟩ := h3.old v a
    rw [h2.pos] at c2; rw [h2.lock] at c3; rw [h2.alive] at c1
    exact ⟨c1, c2, c3⟩
  refine ⟨fun v a a' => ?_, fun v a => ?_, fun v a => ?_⟩
  · obtain ⟨-, c2, c3⟩ := b v a'
    obtain ⟨-, d2, d3⟩ := h1.keeps v a
    exact ⟨c2.trans d2, c3.trans d3⟩
  · obtain ⟨c1, -, c3⟩ := b v a
    rcases h1.fresh v c1 with d | d
    · exact Or.inl d
    · exact Or.inr (c3.trans d)
  · obtain ⟨c1, c2, -⟩ := b v a
    have : m3.placed v = m1.placed v := by unfold Mesh.placed; rw [c2]
    rw [this]
    exact h1.hull v c1

theorem repair_ends (s : m.Sound) {al : ℝ} (hl : 0 < al) (aa : ℝ) (ts : List Nat) :
    (∃ N b m', (∀ k, N ≤ k → repair (XR.fin al) (XR.fin aa) k ts m = .ok b m') ∧ m'.Kept ∧ m.Repaired m' ∧ (b = false → m' = m)) ∨
    ∃ N m1, (∀ k, N ≤ k → repair (XR.fin al) (XR.fin aa) k ts m = .err .ub) ∧ m1.Kept ∧ m.Repaired m1 ∧ m1.HalfDone (1 / 100 * aa) := by
  have e1 : (Scalar.lit 3 2 * XR.fin al : XR) = XR.fin (3 / 2 * al) := by rw [X_lit, R_lit, X_mul]; norm_num
  have e2 : (Scalar.lit 1 100 * XR.fin aa : XR) = XR.fin (1 / 100 * aa) := by rw [X_lit, R_lit, X_mul]; norm_num
  obtain ⟨N1, b1, m1, h1, s1, r1, c1, -, -⟩ := splitAll_ends s (lim := 3 / 2 * al) (by linarith) ts
  obtain ⟨N2, b2, m2, h2, s2, r2, c2⟩ := flipAll_ends ⟨s1.shut, s1.at_⟩ ts
  obtain ⟨N3, b3, m3, h3, s3, r3, c3, -⟩ := thinAll_ends s2 ts
  rcases smallAll_ends s3 (1 / 100 * aa) ts with ⟨N4, b4, m4, h4, s4, r4, c4, -⟩ | ⟨N4, e, m4, h4, s4, r4, rfl, x4⟩
  · left
    refine ⟨max (max N1 N2) (max N3 N4), b1 || b2 || b3 || b4, m4, fun k hk => ?_, s4, .of r1 r2 (r3.trans r4), fun h => ?_⟩
    · unfold repair
      rw [e1, e2, bind_apply, h1 k (by omega)]
      dsimp only
      rw [bind_apply, h2 k (by omega)]
      dsimp only
      rw [bind_apply, h3 k (by omega)]
      dsimp only
      rw [bind_apply, h4 k (by omega)]
      rfl
    · simp only [Bool.or_eq_false_iff] at h
      rw [c4 h.2, c3 h.1.2, c2 h.1.1.2, c1 h.1.1.1]
  · right
    refine ⟨max (max N1 N2) (max N3 N4), m4, fun k hk => ?_, s4, .of r1 r2 (r3.trans r4), x4⟩
    unfold repair
    rw [e1, e2, bind_apply, h1 k (by omega)]
    dsimp only
    rw [bind_apply, h2 k (by omega)]
    dsimp only
    rw [bind_apply, h3 k (by omega)]
    dsimp only
    rw [bind_apply, h4 k (by omega)]

end

end TinyMesh
