import Verif.Proof.Split
/-
Consistency of the mesh after `splitHE`.
-/
namespace TinyMesh
open Orbit
variable {F : Type} {m m' : Mesh F}

set_option maxHeartbeats 1000000 in
/-- the inverse of the new `next` -/
theorem split_leftInv (P : Nat → Nat) {he rev he0 he1 he2 he3 H : Nat} (d1 : he ≠ rev) (d2 : he ≠ he0) (d3 : he ≠ he1)
    (d4 : he ≠ he2) (d5 : he ≠ he3) (d6 : rev ≠ he0) (d7 : rev ≠ he1) (d8 : rev ≠ he2) (d9 : rev ≠ he3)
    (d10 : he0 ≠ he1) (d11 : he0 ≠ he2) (d12 : he0 ≠ he3) (d13 : he1 ≠ he2) (d14 : he1 ≠ he3) (d15 : he2 ≠ he3)
    (l : he < H) (lr : rev < H) (l0 : he0 < H) (l1 : he1 < H) (l2 : he2 < H) (l3 : he3 < H) :
    ∃ g : Nat → Nat, g he0 = he ∧ g (H + 1) = he0 ∧ g he = H + 1 ∧ g (H + 2) = H ∧ g he1 = H + 2 ∧ g H = he1 ∧
      g (H + 4) = rev ∧ g he3 = H + 4 ∧ g rev = he3 ∧ g he2 = H + 3 ∧ g (H + 5) = he2 ∧ g (H + 3) = H + 5 ∧
      ∀ x, x < H → (x ≠ he ∧ x ≠ rev ∧ x ≠ he0 ∧ x ≠ he1 ∧ x ≠ he2 ∧ x ≠ he3) → g x = P x := by
  refine ⟨fun x => if x = he0 then he else if x = H + 1 then he0 else if x = he then H + 1
      else if x = H + 2 then H else if x = he1 then H + 2 else if x = H then he1 else if x = H + 4 then rev
      else if x = he3 then H + 4 else if x = rev then he3 else if x = he2 then H + 3 else if x = H + 5 then he2
      else if x = H + 3 then H + 5 else P x, ?_, ?_, ?_, ?_, ?_, ?_, ?_, ?_, ?_, ?_, ?_, ?_, ?_⟩
  case refine_13 =>
    intro x hx g
    have q : ∀ i, x ≠ H + i := fun i => by omega
    have q' : x ≠ H := by omega
    simp [g, q, q']
  all_goals
    have r : ∀ i, he ≠ H + i := fun i => by clear * - l; omega
    have rr : ∀ i, rev ≠ H + i := fun i => by clear * - lr; omega
    have r0 : ∀ i, he0 ≠ H + i := fun i => by clear * - l0; omega
    have r1 : ∀ i, he1 ≠ H + i := fun i => by clear * - l1; omega
    have r2 : ∀ i, he2 ≠ H + i := fun i => by clear * - l2; omega
    have r3 : ∀ i, he3 ≠ H + i := fun i => by clear * - l3; omega
    simp [r, rr, r0, r1, r2, r3, fun i => (r i).symm, fun i => (rr i).symm, fun i => (r0 i).symm, fun i => (r1 i).symm,
      fun i => (r2 i).symm, fun i => (r3 i).symm, l.ne, lr.ne, l0.ne, l1.ne, l2.ne, l3.ne, l.ne', lr.ne', l0.ne', l1.ne',
      l2.ne', l3.ne', d1, d1.symm, d2, d2.symm, d3, d3.symm, d4, d4.symm, d5, d5.symm, d6, d6.symm, d7, d7.symm, d8, d8.symm, d9, d9.symm, d10, d10.symm, d11, d11.symm, d12, d12.symm, d13, d13.symm, d14, d14.symm, d15, d15.symm]

set_option maxHeartbeats 1000000 in
theorem split_wf [Scalar F] (w : m.WF) {he rev he0 he1 he2 he3 : Nat} (D : Diamond m he rev he0 he1 he2 he3)
    (R : SplitRel m m' he rev he0 he1 he2 he3) (vv : m.hSrc he ≠ m.hSrc rev) : m'.WF := by
  obtain ⟨a, ar, a0, a1, a2, a3, hrev, hrev', n, n0, n1, nr, n2, n3, d1, d2, d3, d4, d5, d6, d7, d8, d9, d10,
    d11, d12, d13, d14, d15, df⟩ := D
  obtain ⟨H, hH⟩ : ∃ H, H = m.hFresh := ⟨_, rfl⟩
  obtain ⟨V, hV⟩ : ∃ H, H = m.vFresh := ⟨_, rfl⟩
  obtain ⟨G, hG⟩ : ∃ H, H = m.fFresh := ⟨_, rfl⟩
  obtain ⟨hal, val, fal, hfr, vfr, ffr, hd, vd, fd, hes, vs, fs, N_, N0, N01, Nn, N02, N1, Nr, N11, N3, Nrn, N2, N12, NO,
    Rn, R1, R2, R3, R4, R5, RO, F_, F0, F01, Fn, F02, F1, Fr, F11, F3, Frn, F2, F12, FO, S_, S01, Sn, S02, S11, Srn, S12,
    SO, B, BN, FH0, FH1, FHn, FHr, FHO, VH0, VH1, VHn, VHO, posN, pos, lockN, lock⟩ := R
  have lt := w.hBound
  have vlt := w.vBound
  have flt := w.fBound
  rw [← hH] at *
  rw [← hV] at *
  rw [← hG] at *
  have nA := w.next_alive
  have rA := w.rev_alive
  have sA := w.src_alive
  have fA := w.face_alive
  have rr := w.rev_rev
  have rne := w.rev_ne
  have sr := w.src_rev
  have ni := w.next_inj
  have fn := w.face_next
  have fh := w.fHe_ok
  have vh := w.vHe_ok
  have lH := lt _ a
  have lr := lt _ ar
  have l0 := lt _ a0
  have l1 := lt _ a1
  have l2 := lt _ a2
  have l3 := lt _ a3
  have cs : ∀ h, m'.hAlive h = true → h = he ∨ h = rev ∨ h = he0 ∨ h = he1 ∨ h = he2 ∨ h = he3 ∨
      (m.hAlive h = true ∧ h ≠ he ∧ h ≠ rev ∧ h ≠ he0 ∧ h ≠ he1 ∧ h ≠ he2 ∧ h ≠ he3) ∨
      h = H ∨ h = H + 1 ∨ h = H + 2 ∨ h = H + 3 ∨ h = H + 4 ∨ h = H + 5 := by
    intro h ah
    rw [hal] at ah
    rcases cases6 h he rev he0 he1 he2 he3 with g | g | g | g | g | g | g
    · exact Or.inl g
    · exact Or.inr (Or.inl g)
    · exact Or.inr (Or.inr (Or.inl g))
    · exact Or.inr (Or.inr (Or.inr (Or.inl g)))
    · exact Or.inr (Or.inr (Or.inr (Or.inr (Or.inl g))))
    · exact Or.inr (Or.inr (Or.inr (Or.inr (Or.inr (Or.inl g)))))
    · refine Or.inr (Or.inr (Or.inr (Or.inr (Or.inr (Or.inr ?_)))))
      rcases ah with ah | ah
      · exact Or.inl ⟨ah, g⟩
      · exact Or.inr ah
  have old : ∀ h, m.hAlive h = true → m'.hAlive h = true := fun h a => (hal h).2 (Or.inl a)
  have aH : m'.hAlive H = true := (hal _).2 (by simp)
  have aH1 : m'.hAlive (H + 1) = true := (hal _).2 (by simp)
  have aH2 : m'.hAlive (H + 2) = true := (hal _).2 (by simp)
  have aH3 : m'.hAlive (H + 3) = true := (hal _).2 (by simp)
  have aH4 : m'.hAlive (H + 4) = true := (hal _).2 (by simp)
  have aH5 : m'.hAlive (H + 5) = true := (hal _).2 (by simp)
  have ho : ∀ z, m.hAlive z = true → (z ≠ he ∧ z ≠ rev ∧ z ≠ he0 ∧ z ≠ he1 ∧ z ≠ he2 ∧ z ≠ he3) →
      (m.hNext z ≠ he ∧ m.hNext z ≠ rev ∧ m.hNext z ≠ he0 ∧ m.hNext z ≠ he1 ∧ m.hNext z ≠ he2 ∧ m.hNext z ≠ he3) := by
    intro z hz hh
    refine ⟨?_, ?_, ?_, ?_, ?_, ?_⟩ <;> intro h1
    · exact hh.2.2.2.1 (ni _ _ hz a1 (h1.trans n1.symm))
    · exact hh.2.2.2.2.2 (ni _ _ hz a3 (h1.trans n3.symm))
    · exact hh.1 (ni _ _ hz a (h1.trans n.symm))
    · exact hh.2.2.1 (ni _ _ hz a0 (h1.trans n0.symm))
    · exact hh.2.1 (ni _ _ hz ar (h1.trans nr.symm))
    · exact hh.2.2.2.2.1 (ni _ _ hz a2 (h1.trans n2.symm))
  have NO' : ∀ h, (m.hAlive h = true ∧ h ≠ he ∧ h ≠ rev ∧ h ≠ he0 ∧ h ≠ he1 ∧ h ≠ he2 ∧ h ≠ he3) → m'.hNext h = m.hNext h :=
    fun h ⟨p, q1, q2, q3, q4, q5, q6⟩ => NO h p q1 q2 q3 q4 q5 q6
  have FO' : ∀ h, (m.hAlive h = true ∧ h ≠ he ∧ h ≠ rev ∧ h ≠ he0 ∧ h ≠ he1 ∧ h ≠ he2 ∧ h ≠ he3) → m'.hFace h = m.hFace h :=
    fun h ⟨p, q1, q2, q3, q4, q5, q6⟩ => FO h p q1 q2 q3 q4 q5 q6
  have nA' : ∀ h, m'.hAlive h = true → m'.hAlive (m'.hNext h) = true := by
    intro h ah
    rcases cs h ah with h | h | h | h | h | h | h | h | h | h | h | h | h
    · rw [h, N_]; exact old _ a0
    · rw [h, Nr]; exact aH4
    · rw [h, N0]; exact aH1
    · rw [h, N1]; exact aH
    · rw [h, N2]; exact aH5
    · rw [h, N3]; exact old _ ar
    · rw [NO' _ h]; exact old _ (nA _ h.1)
    · rw [h, Nn]; exact aH2
    · rw [h, N01]; exact old _ a
    · rw [h, N02]; exact old _ a1
    · rw [h, Nrn]; exact old _ a2
    · rw [h, N11]; exact old _ a3
    · rw [h, N12]; exact aH3
  have rA' : ∀ h, m'.hAlive h = true → m'.hAlive (m'.hRev h) = true := by
    intro h ah
    rcases (hal h).1 ah with h | h | h | h | h | h | h
    · rw [RO _ h]; exact old _ (rA _ h)
    all_goals rw [h]
    · rw [Rn]; exact aH3
    · rw [R1]; exact aH2
    · rw [R2]; exact aH1
    · rw [R3]; exact aH
    · rw [R4]; exact aH5
    · rw [R5]; exact aH4
  have rr' : ∀ h, m'.hAlive h = true → m'.hRev (m'.hRev h) = h := by
    intro h ah
    rcases (hal h).1 ah with h | h | h | h | h | h | h
    · rw [RO _ h, RO _ (rA _ h)]; exact rr _ h
    all_goals rw [h]
    · rw [Rn, R3]
    · rw [R1, R2]
    · rw [R2, R1]
    · rw [R3, Rn]
    · rw [R4, R5]
    · rw [R5, R4]
  have rne' : ∀ h, m'.hAlive h = true → m'.hRev h ≠ h := by
    intro h ah
    rcases (hal h).1 ah with h | h | h | h | h | h | h
    · rw [RO _ h]; exact rne _ h
    all_goals rw [h]
    · rw [Rn]; clear * -; omega
    · rw [R1]; clear * -; omega
    · rw [R2]; clear * -; omega
    · rw [R3]; clear * -; omega
    · rw [R4]; clear * -; omega
    · rw [R5]; clear * -; omega
  have sA' : ∀ h, m'.hAlive h = true → m'.vAlive (m'.hSrc h) = true := by
    intro x ah
    have oldv : ∀ v, m.vAlive v = true → m'.vAlive v = true := fun h a => (val h).2 (Or.inl a)
    have aV : m'.vAlive V = true := (val _).2 (by simp)
    rcases (hal x).1 ah with h | h | h | h | h | h | h
    · by_cases g : x = he
      · rw [g, S_]; exact aV
      · rw [SO _ h g]; exact oldv _ (sA _ h)
    all_goals rw [h]
    · rw [Sn]; exact oldv _ (sA _ a)
    · rw [S01]; exact oldv _ (sA _ a1)
    · rw [S02]; exact aV
    · rw [Srn]; exact aV
    · rw [S11]; exact aV
    · rw [S12]; exact oldv _ (sA _ a3)
  have fA' : ∀ h, m'.hAlive h = true → m'.fAlive (m'.hFace h) = true := by
    intro h ah
    have oldf : ∀ v, m.fAlive v = true → m'.fAlive v = true := fun h a => (fal h).2 (Or.inl a)
    have aG : m'.fAlive G = true := (fal _).2 (by simp)
    have aG1 : m'.fAlive (G + 1) = true := (fal _).2 (by simp)
    rcases cs h ah with h | h | h | h | h | h | h | h | h | h | h | h | h
    · rw [h, F_]; exact oldf _ (fA _ a)
    · rw [h, Fr]; exact oldf _ (fA _ ar)
    · rw [h, F0]; exact oldf _ (fA _ a)
    · rw [h, F1]; exact aG
    · rw [h, F2]; exact aG1
    · rw [h, F3]; exact oldf _ (fA _ ar)
    · rw [FO' _ h]; exact oldf _ (fA _ h.1)
    · rw [h, Fn]; exact aG
    · rw [h, F01]; exact oldf _ (fA _ a)
    · rw [h, F02]; exact aG
    · rw [h, Frn]; exact aG1
    · rw [h, F11]; exact oldf _ (fA _ ar)
    · rw [h, F12]; exact aG1
  have fN : ∀ h, m'.hAlive h = true → m'.hFace (m'.hNext h) = m'.hFace h := by
    intro h ah
    rcases cs h ah with h | h | h | h | h | h | h | h | h | h | h | h | h
    · rw [h, N_, F_, F0]
    · rw [h, Nr, F11, Fr]
    · rw [h, N0, F01, F0]
    · rw [h, N1, Fn, F1]
    · rw [h, N2, F12, F2]
    · rw [h, N3, Fr, F3]
    · rw [NO' _ h, FO' _ h, FO' _ ⟨nA _ h.1, ho _ h.1 h.2⟩, fn _ h.1]
    · rw [h, Nn, F02, Fn]
    · rw [h, N01, F_, F01]
    · rw [h, N02, F1, F02]
    · rw [h, Nrn, F2, Frn]
    · rw [h, N11, F3, F11]
    · rw [h, N12, Frn, F12]
  -- start vertices of the half-edges of the two triangles
  have s0 : m.hSrc he0 = m.hSrc rev := by rw [← n, ← sr _ a, hrev]
  have s2 : m.hSrc he2 = m.hSrc he := by rw [← nr, ← sr _ ar, hrev']
  have rvne : ∀ z, m.hAlive z = true → z ≠ rev → m.hRev z ≠ he := by
    intro z hz hne e; apply hne; rw [← rr _ hz, e, hrev]
  have sN : ∀ h, m'.hAlive h = true → m'.hSrc (m'.hRev h) = m'.hSrc (m'.hNext h) := by
    intro h ah
    rcases cs h ah with h | h | h | h | h | h | h | h | h | h | h | h | h
    · rw [h, N_, RO _ a, hrev, SO _ ar d1.symm, SO _ a0 d2.symm, s0]
    · rw [h, Nr, RO _ ar, hrev', S_, S11]
    · rw [h, N0, RO _ a0, SO _ (rA _ a0) (rvne _ a0 d6.symm), sr _ a0, S01, n0]
    · rw [h, N1, RO _ a1, SO _ (rA _ a1) (rvne _ a1 d7.symm), sr _ a1, Sn, n1]
    · rw [h, N2, RO _ a2, SO _ (rA _ a2) (rvne _ a2 d8.symm), sr _ a2, S12, n2]
    · rw [h, N3, RO _ a3, SO _ (rA _ a3) (rvne _ a3 d9.symm), sr _ a3, n3, SO _ ar d1.symm]
    · rw [NO' _ h, RO _ h.1, SO _ (rA _ h.1) (rvne _ h.1 h.2.2.1), SO _ (nA _ h.1) (ho _ h.1 h.2).1, sr _ h.1]
    · rw [h, Nn, Rn, Srn, S02]
    · rw [h, N01, R1, S02, S_]
    · rw [h, N02, R2, S01, SO _ a1 d3.symm]
    · rw [h, Nrn, R3, Sn, SO _ a2 d4.symm, s2]
    · rw [h, N11, R4, S12, SO _ a3 d5.symm]
    · rw [h, N12, R5, S11, Srn]
  have permN : Perm m'.hNext m'.HA m'.hFresh := by
    obtain ⟨P, hP⟩ := w.exists_prv
    obtain ⟨g, g1, g2, g3, g4, g5, g6, g7, g8, g9, g10, g11, g12, g13⟩ := split_leftInv P d1 d2 d3 d4 d5 d6 d7 d8 d9 d10
      d11 d12 d13 d14 d15 lH.2 lr.2 l0.2 l1.2 l2.2 l3.2
    refine Perm.of_leftInv (g := g) nA' ?_ ?_
    · intro h ah
      rcases cs h ah with h | h | h | h | h | h | h | h | h | h | h | h | h
      · rw [h, N_, g1]
      · rw [h, Nr, g7]
      · rw [h, N0, g2]
      · rw [h, N1, g6]
      · rw [h, N2, g11]
      · rw [h, N3, g9]
      · rw [NO' _ h, g13 _ (lt _ (nA _ h.1)).2 (ho _ h.1 h.2)]
        exact (hP _ h.1).1
      · rw [h, Nn, g4]
      · rw [h, N01, g3]
      · rw [h, N02, g5]
      · rw [h, Nrn, g10]
      · rw [h, N11, g8]
      · rw [h, N12, g12]
    · intro h ah
      rw [hfr]
      have := (hal h).1 ah
      clear * - this lt
      rcases this with h | h | h | h | h | h | h
      · have := lt _ h; omega
      all_goals omega
  have permSg : Perm m'.sig m'.HA m'.hFresh := by
    refine ⟨fun x hx => nA' _ (rA' _ hx), ?_, permN.bound⟩
    intro x y hx hy h
    have := permN.inj _ _ (rA' _ hx) (rA' _ hy) h
    rw [← rr' _ hx, this, rr' _ hy]
  refine ⟨hd, vd, fd, ?_, ?_, ?_, nA', rA', sA', fA', rr', rne', sN, permN.inj, fN, ?_, ?_, ?_, ?_⟩
  · intro h ah
    refine ⟨?_, permN.bound _ ah⟩
    have := (hal h).1 ah
    have la := lt _ a
    clear * - this lt la
    rcases this with h | h | h | h | h | h | h
    · exact (lt _ h).1
    all_goals omega
  · intro v av
    rw [vfr]
    have h1 := (val v).1 av
    have h2 := vlt _ (sA _ a)
    clear * - h1 h2 vlt
    rcases h1 with h | h
    · have := vlt _ h; omega
    · omega
  · intro f af
    rw [ffr]
    have h1 := (fal f).1 af
    have h2 := flt _ (fA _ a)
    clear * - h1 h2 flt
    rcases h1 with h | h | h
    · have := flt _ h; omega
    · omega
    · omega
  · intro f af
    rcases (fal f).1 af with h | h | h
    · by_cases g0 : f = m.hFace he
      · rw [g0, FH0]; exact ⟨old _ a, F_⟩
      by_cases g1 : f = m.hFace rev
      · rw [g1, FH1]; exact ⟨old _ ar, Fr⟩
      rw [FHO _ h g0 g1]
      have := fh f h
      refine ⟨old _ this.1, ?_⟩
      have f0 := fn _ a
      have f1 := fn _ a0
      have f2 := fn _ ar
      have f3 := fn _ a2
      rw [n] at f0; rw [n0] at f1; rw [nr] at f2; rw [n2] at f3
      rw [FO' _ ⟨this.1, ?_⟩, this.2]
      refine ⟨?_, ?_, ?_, ?_, ?_, ?_⟩ <;> intro e <;> rw [e] at this
      · exact g0 this.2.symm
      · exact g1 this.2.symm
      · exact g0 (this.2.symm.trans f0)
      · exact g0 (this.2.symm.trans (f1.trans f0))
      · exact g1 (this.2.symm.trans f2)
      · exact g1 (this.2.symm.trans (f3.trans f2))
    · rw [h, FHn]; exact ⟨aH, Fn⟩
    · rw [h, FHr]; exact ⟨aH3, Frn⟩
  · intro v av
    rcases (val v).1 av with h | h
    · by_cases g0 : v = m.hSrc he
      · rw [g0, VH0]; exact ⟨old _ a2, by rw [SO _ a2 d4.symm, s2]⟩
      by_cases g1 : v = m.hSrc rev
      · rw [g1, VH1]; exact ⟨old _ a0, by rw [SO _ a0 d2.symm, s0]⟩
      rw [VHO _ h g0 g1]
      have := vh v h
      refine ⟨old _ this.1, ?_⟩
      rw [SO _ this.1 ?_, this.2]
      intro e; rw [e] at this; exact g0 this.2.symm
    · rw [h, VHn]; exact ⟨old _ a, S_⟩
  · -- faces
    have ft : ∀ z, m.hAlive z = true → (z ≠ he ∧ z ≠ rev ∧ z ≠ he0 ∧ z ≠ he1 ∧ z ≠ he2 ∧ z ≠ he3) →
        m.hFace z ≠ m.hFace he ∧ m.hFace z ≠ m.hFace rev := by
      intro z hz hh
      constructor <;> intro e
      · rcases w.tri_face a (by unfold Mesh.OnTri; rw [n, n0, n1]) hz e with h | h | h
        · exact hh.1 h
        · exact hh.2.2.1 (h.trans n)
        · exact hh.2.2.2.1 (h.trans (by rw [n, n0]))
      · rcases w.tri_face ar (by unfold Mesh.OnTri; rw [nr, n2, n3]) hz e with h | h | h
        · exact hh.2.1 h
        · exact hh.2.2.2.2.1 (h.trans nr)
        · exact hh.2.2.2.2.2 (h.trans (by rw [nr, n2]))
    have gA := flt _ (fA _ a)
    have gR := flt _ (fA _ ar)
    have c01 : Conn m'.hNext m'.HA he he0 := Conn.step' (old _ a) N_
    have c02 : Conn m'.hNext m'.HA he (H + 1) := c01.trans (Conn.step' (old _ a0) N0)
    have cn1 : Conn m'.hNext m'.HA H (H + 2) := Conn.step' aH Nn
    have cn2 : Conn m'.hNext m'.HA H he1 := cn1.trans (Conn.step' aH2 N02)
    have cr1 : Conn m'.hNext m'.HA rev (H + 4) := Conn.step' (old _ ar) Nr
    have cr2 : Conn m'.hNext m'.HA rev he3 := cr1.trans (Conn.step' aH4 N11)
    have cq1 : Conn m'.hNext m'.HA (H + 3) he2 := Conn.step' aH3 Nrn
    have cq2 : Conn m'.hNext m'.HA (H + 3) (H + 5) := cq1.trans (Conn.step' (old _ a2) N2)
    -- each half-edge is in one of the four triangles or old
    have cls : ∀ h, m'.hAlive h = true →
        (Conn m'.hNext m'.HA he h ∧ m'.hFace h = m.hFace he) ∨
        (Conn m'.hNext m'.HA H h ∧ m'.hFace h = G) ∨
        (Conn m'.hNext m'.HA rev h ∧ m'.hFace h = m.hFace rev) ∨
        (Conn m'.hNext m'.HA (H + 3) h ∧ m'.hFace h = G + 1) ∨
        ((m.hAlive h = true ∧ h ≠ he ∧ h ≠ rev ∧ h ≠ he0 ∧ h ≠ he1 ∧ h ≠ he2 ∧ h ≠ he3) ∧
          m'.hFace h = m.hFace h ∧ m.hFace h ≠ m.hFace he ∧ m.hFace h ≠ m.hFace rev ∧ m.hFace h < G) := by
      intro h ah
      rcases cs h ah with h | h | h | h | h | h | h | h | h | h | h | h | h
      · left; rw [h]; exact ⟨Conn.refl _, F_⟩
      · right; right; left; rw [h]; exact ⟨Conn.refl _, Fr⟩
      · left; rw [h]; exact ⟨c01, F0⟩
      · right; left; rw [h]; exact ⟨cn2, F1⟩
      · right; right; right; left; rw [h]; exact ⟨cq1, F2⟩
      · right; right; left; rw [h]; exact ⟨cr2, F3⟩
      · right; right; right; right
        exact ⟨h, FO' _ h, (ft _ h.1 h.2).1, (ft _ h.1 h.2).2, (flt _ (fA _ h.1)).2⟩
      · right; left; rw [h]; exact ⟨Conn.refl _, Fn⟩
      · left; rw [h]; exact ⟨c02, F01⟩
      · right; left; rw [h]; exact ⟨cn1, F02⟩
      · right; right; right; left; rw [h]; exact ⟨Conn.refl _, Frn⟩
      · right; right; left; rw [h]; exact ⟨cr1, F11⟩
      · right; right; right; left; rw [h]; exact ⟨cq2, F12⟩
    obtain ⟨φ, e1, e2, e0⟩ : ∃ φ : Nat → Nat, (φ he = he ∧ φ he0 = he ∧ φ he1 = he) ∧ (φ rev = rev ∧ φ he2 = rev ∧ φ he3 = rev) ∧
        ∀ x, (x ≠ he ∧ x ≠ rev ∧ x ≠ he0 ∧ x ≠ he1 ∧ x ≠ he2 ∧ x ≠ he3) → φ x = x :=
      ⟨fun x => if x = he ∨ x = he0 ∨ x = he1 then he else if x = rev ∨ x = he2 ∨ x = he3 then rev else x,
        by simp, by simp [d1.symm, d6, d7, d4.symm, d11.symm, d13.symm, d5.symm, d12.symm, d14.symm],
        fun x hx => by simp [hx]⟩
    refine conn_transfer' (key' := m'.hFace) w.faceConn permN φ id ?_ ?_
    · clear * - cls e0 gA gR df
      intro x y ax ay e
      rcases cls x ax with ⟨c, f⟩ | ⟨c, f⟩ | ⟨c, f⟩ | ⟨c, f⟩ | ⟨g, f, f1, f2, f3⟩ <;>
        rcases cls y ay with ⟨c', f'⟩ | ⟨c', f'⟩ | ⟨c', f'⟩ | ⟨c', f'⟩ | ⟨g', f', f1', f2', f3'⟩ <;>
        rw [f, f'] at e
      all_goals first
        | exact Or.inl (c.symm.trans c')
        | (exfalso; clear cls e0; omega)
        | (right; refine ⟨e, ⟨g.1, ?_⟩, ⟨g'.1, ?_⟩⟩ <;> simp only [id] <;> rw [e0 _ (by first | exact g.2 | exact g'.2)] <;> exact Conn.refl _)
    · intro x ax
      rcases cases6 x he rev he0 he1 he2 he3 with h | h | h | h | h | h | h
      · rw [h, n, e1.1, e1.2.1]; exact Conn.refl _
      · rw [h, nr, e2.1, e2.2.1]; exact Conn.refl _
      · rw [h, n0, e1.2.1, e1.2.2]; exact Conn.refl _
      · rw [h, n1, e1.1, e1.2.2]; exact Conn.refl _
      · rw [h, n2, e2.2.1, e2.2.2]; exact Conn.refl _
      · rw [h, n3, e2.1, e2.2.2]; exact Conn.refl _
      · rw [e0 x h, e0 _ (ho x ax h)]
        exact Conn.step' (old _ ax) (NO' x ⟨ax, h⟩)
  · -- rings
    have st : ∀ x y z, m'.hAlive x = true → m'.hRev x = y → m'.hNext y = z → Conn m'.sig m'.HA x z := by
      intro x y z ax h1 h2
      exact Conn.step' ax (by unfold Mesh.sig; rw [h1, h2])
    have k1 : Conn m'.sig m'.HA he (H + 4) := st _ _ _ (old _ a) (by rw [RO _ a, hrev]) Nr
    have k2 : Conn m'.sig m'.HA he (H + 3) := k1.trans (st _ _ _ aH4 R4 N12)
    have k3 : Conn m'.sig m'.HA he (H + 2) := k2.trans (st _ _ _ aH3 R3 Nn)
    have kH : Conn m'.sig m'.HA H he2 := st _ _ _ aH Rn Nrn
    have k01 : Conn m'.sig m'.HA (H + 1) he1 := st _ _ _ aH1 R1 N02
    have k12 : Conn m'.sig m'.HA (H + 5) he3 := st _ _ _ aH5 R5 N11
    obtain ⟨φ, e1, e0⟩ : ∃ φ : Nat → Nat, φ he = H ∧ ∀ x, x ≠ he → φ x = x :=
      ⟨fun x => if x = he then H else x, by simp, fun x hx => by simp [hx]⟩
    obtain ⟨ρ, r1, r2, r3, r0⟩ : ∃ ρ : Nat → Nat, ρ H = he ∧ ρ (H + 1) = he1 ∧ ρ (H + 5) = he3 ∧ ∀ x, x < H → ρ x = x :=
      ⟨fun x => if x = H then he else if x = H + 1 then he1 else if x = H + 5 then he3 else x, by simp, by simp, by simp,
        fun x hx => by clear * - hx; dsimp only; rw [if_neg (by omega), if_neg (by omega), if_neg (by omega)]⟩
    have cls : ∀ h, m'.hAlive h = true →
        (Conn m'.sig m'.HA he h ∧ m'.hSrc h = V) ∨
        (m'.hSrc h = m.hSrc (ρ h) ∧ m.hSrc (ρ h) < V ∧ m.hAlive (ρ h) = true ∧ Conn m'.sig m'.HA h (φ (ρ h))) := by
      intro x ah
      rcases (hal x).1 ah with h | h | h | h | h | h | h
      · by_cases g : x = he
        · left; rw [g]; exact ⟨Conn.refl _, S_⟩
        · right; rw [r0 _ (lt _ h).2, e0 _ g]; exact ⟨SO _ h g, (vlt _ (sA _ h)).2, h, Conn.refl _⟩
      · right; rw [h, r1, e1]; exact ⟨Sn, (vlt _ (sA _ a)).2, a, Conn.refl _⟩
      · right; rw [h, r2, e0 _ d3.symm]; exact ⟨S01, (vlt _ (sA _ a1)).2, a1, k01⟩
      · left; rw [h]; exact ⟨k3, S02⟩
      · left; rw [h]; exact ⟨k2, Srn⟩
      · left; rw [h]; exact ⟨k1, S11⟩
      · right; rw [h, r3, e0 _ d5.symm]; exact ⟨S12, (vlt _ (sA _ a3)).2, a3, k12⟩
    refine conn_transfer' (σ' := m'.sig) (key' := m'.hSrc) w.ringConn permSg φ ρ ?_ ?_
    · clear * - cls
      intro x y ax ay e
      rcases cls x ax with ⟨c, f⟩ | ⟨f, l, al, c⟩ <;> rcases cls y ay with ⟨c', f'⟩ | ⟨f', l', al', c'⟩ <;> rw [f, f'] at e
      · left; exact c.symm.trans c'
      · omega
      · omega
      · right; exact ⟨e, ⟨al, c⟩, ⟨al', c'⟩⟩
    · intro x ax
      unfold Mesh.sig
      by_cases hx1 : x = he
      · rw [hx1, hrev, nr, e1, e0 _ d4.symm]; exact kH
      rw [e0 _ hx1]
      have hr := rA _ ax
      have hr1 : m.hRev x ≠ rev := fun e => hx1 (by rw [← rr _ ax, e, hrev'])
      have hst : Conn m'.sig m'.HA x (m'.hNext (m.hRev x)) := st _ _ _ (old _ ax) (RO _ ax) rfl
      rcases cs _ (old _ hr) with h | h | h | h | h | h | h | h | h | h | h | h | h
      · rw [h, N_] at hst; rw [h, n, e0 _ d2.symm]; exact hst
      · exact absurd h hr1
      · rw [h, N0] at hst; rw [h, n0, e0 _ d3.symm]; exact hst.trans k01
      · rw [h, N1] at hst; rw [h, n1, e1]; exact hst
      · rw [h, N2] at hst; rw [h, n2, e0 _ d5.symm]; exact hst.trans k12
      · rw [h, N3] at hst; rw [h, n3, e0 _ d1.symm]; exact hst
      · rw [NO' _ h] at hst; rw [e0 _ (ho _ h.1 h.2).1]; exact hst
      all_goals (have := lt _ hr; clear * - this h; omega)

theorem split_simple [Scalar F] (w : m.WF) (sm : m.Simple) {he rev he0 he1 he2 he3 : Nat}
    (D : Diamond m he rev he0 he1 he2 he3) (R : SplitRel m m' he rev he0 he1 he2 he3)
    (hd : 2 < m.outDeg (m.hSrc rev)) : m'.Simple := by
  have vv : m.hSrc he ≠ m.hSrc rev := by
    have := sm.no_loop _ D.a; rw [← w.src_rev _ D.a, D.hrev] at this; exact this
  have w' := split_wf w D R vv
  have htips := w.tips_ne sm D.a (by unfold Mesh.OnTri; rw [D.hrev, D.nr, D.n2, D.n3]) (by rw [D.hrev]; exact hd)
  rw [D.hrev, D.n, D.n0, D.nr, D.n2] at htips
  have s0 : m.hSrc he0 = m.hSrc rev := by rw [← D.n, ← w.src_rev _ D.a, D.hrev]
  have s2 : m.hSrc he2 = m.hSrc he := by rw [← D.nr, ← w.src_rev _ D.ar, D.hrev']
  have e10 : m.hSrc rev ≠ m.hSrc he1 := by have := sm.no_loop _ D.a0; rw [D.n0, s0] at this; exact this
  have e11 : m.hSrc he1 ≠ m.hSrc he := by have := sm.no_loop _ D.a1; rw [D.n1] at this; exact this
  have e23 : m.hSrc he ≠ m.hSrc he3 := by have := sm.no_loop _ D.a2; rw [D.n2, s2] at this; exact this
  have e33 : m.hSrc he3 ≠ m.hSrc rev := by have := sm.no_loop _ D.a3; rw [D.n3] at this; exact this
  have vlt : ∀ h, m.hAlive h = true → m.hSrc h < m.vFresh := fun h a => (w.vBound _ (w.src_alive _ a)).2
  have key : ∀ h, m'.hAlive h = true →
      (h = he ∧ m'.hSrc h = m.vFresh ∧ m'.hSrc (m'.hNext h) = m.hSrc rev) ∨
      (h = rev ∧ m'.hSrc h = m.hSrc rev ∧ m'.hSrc (m'.hNext h) = m.vFresh) ∨
      (h = m.hFresh ∧ m'.hSrc h = m.hSrc he ∧ m'.hSrc (m'.hNext h) = m.vFresh) ∨
      (h = m.hFresh + 3 ∧ m'.hSrc h = m.vFresh ∧ m'.hSrc (m'.hNext h) = m.hSrc he) ∨
      (h = m.hFresh + 1 ∧ m'.hSrc h = m.hSrc he1 ∧ m'.hSrc (m'.hNext h) = m.vFresh) ∨
      (h = m.hFresh + 2 ∧ m'.hSrc h = m.vFresh ∧ m'.hSrc (m'.hNext h) = m.hSrc he1) ∨
      (h = m.hFresh + 4 ∧ m'.hSrc h = m.vFresh ∧ m'.hSrc (m'.hNext h) = m.hSrc he3) ∨
      (h = m.hFresh + 5 ∧ m'.hSrc h = m.hSrc he3 ∧ m'.hSrc (m'.hNext h) = m.vFresh) ∨
      (m.hAlive h = true ∧ m.hSrc h < m.vFresh ∧ m.hSrc (m.hNext h) < m.vFresh ∧
        m'.hSrc h = m.hSrc h ∧ m'.hSrc (m'.hNext h) = m.hSrc (m.hNext h)) := by
    intro x ax
    rw [← w'.src_rev x ax]
    rcases (R.hal x).1 ax with h | h | h | h | h | h | h
    · by_cases g : x = he
      · left; refine ⟨g, ?_, ?_⟩
        · rw [g, R.S_]
        · rw [g, R.RO _ D.a, D.hrev, R.SO _ D.ar D.d1.symm]
      by_cases g2 : x = rev
      · right; left; refine ⟨g2, ?_, ?_⟩
        · rw [g2, R.SO _ D.ar D.d1.symm]
        · rw [g2, R.RO _ D.ar, D.hrev', R.S_]
      · iterate 8 right
        refine ⟨h, vlt _ h, vlt _ (w.next_alive _ h), R.SO _ h g, ?_⟩
        rw [R.RO _ h, R.SO _ (w.rev_alive _ h) ?_, w.src_rev _ h]
        intro e; apply g2; rw [← w.rev_rev _ h, e, D.hrev]
    · iterate 2 right
      left; exact ⟨h, by rw [h, R.Sn], by rw [h, R.Rn, R.Srn]⟩
    · iterate 4 right
      left; exact ⟨h, by rw [h, R.S01], by rw [h, R.R1, R.S02]⟩
    · iterate 5 right
      left; exact ⟨h, by rw [h, R.S02], by rw [h, R.R2, R.S01]⟩
    · iterate 3 right
      left; exact ⟨h, by rw [h, R.Srn], by rw [h, R.R3, R.Sn]⟩
    · iterate 6 right
      left; exact ⟨h, by rw [h, R.S11], by rw [h, R.R4, R.S12]⟩
    · iterate 7 right
      left; exact ⟨h, by rw [h, R.S12], by rw [h, R.R5, R.S11]⟩
  have b0 := vlt _ D.a
  have b1 := vlt _ D.ar
  have b2 := vlt _ D.a1
  have b3 := vlt _ D.a3
  have nl := sm.no_loop
  have nd := sm.no_dup
  clear * - key b0 b1 b2 b3 vv htips e10 e11 e23 e33 nl nd
  refine ⟨?_, ?_⟩
  · intro h a
    rcases key h a with ⟨_, h1, h2⟩ | ⟨_, h1, h2⟩ | ⟨_, h1, h2⟩ | ⟨_, h1, h2⟩ | ⟨_, h1, h2⟩ | ⟨_, h1, h2⟩ | ⟨_, h1, h2⟩ |
      ⟨_, h1, h2⟩ | ⟨h0, _, _, h1, h2⟩
    case inr.inr.inr.inr.inr.inr.inr.inr => rw [h1, h2]; exact nl _ h0
    all_goals (rw [h1, h2]; clear * - b0 b1 b2 b3; omega)
  · intro h h' a a' e1 e2
    rcases key h a with ⟨e, h1, h2⟩ | ⟨e, h1, h2⟩ | ⟨e, h1, h2⟩ | ⟨e, h1, h2⟩ | ⟨e, h1, h2⟩ | ⟨e, h1, h2⟩ | ⟨e, h1, h2⟩ |
      ⟨e, h1, h2⟩ | ⟨e, l1, l2, h1, h2⟩ <;>
    rcases key h' a' with ⟨f, k1, k2⟩ | ⟨f, k1, k2⟩ | ⟨f, k1, k2⟩ | ⟨f, k1, k2⟩ | ⟨f, k1, k2⟩ | ⟨f, k1, k2⟩ | ⟨f, k1, k2⟩ |
      ⟨f, k1, k2⟩ | ⟨f, l1', l2', k1, k2⟩ <;> rw [h1, k1] at e1 <;> rw [h2, k2] at e2
    all_goals first
      | exact e.trans f.symm
      | exact nd _ _ e f e1 e2
      | (exfalso; clear key nl nd e f h1 h2 k1 k2 a a'; omega)

theorem split_tri [Scalar F] (w : m.WF) (tr : m.TriOrHole) {he rev he0 he1 he2 he3 : Nat}
    (D : Diamond m he rev he0 he1 he2 he3) (R : SplitRel m m' he rev he0 he1 he2 he3) : m'.TriOrHole := by
  obtain ⟨a, ar, a0, a1, a2, a3, hrev, hrev', n, n0, n1, nr, n2, n3, d1, d2, d3, d4, d5, d6, d7, d8, d9, d10,
    d11, d12, d13, d14, d15, df⟩ := D
  have ni := w.next_inj
  have ho : ∀ z, m.hAlive z = true → (z ≠ he ∧ z ≠ rev ∧ z ≠ he0 ∧ z ≠ he1 ∧ z ≠ he2 ∧ z ≠ he3) →
      (m.hNext z ≠ he ∧ m.hNext z ≠ rev ∧ m.hNext z ≠ he0 ∧ m.hNext z ≠ he1 ∧ m.hNext z ≠ he2 ∧ m.hNext z ≠ he3) := by
    intro z hz hh
    refine ⟨?_, ?_, ?_, ?_, ?_, ?_⟩ <;> intro h1
    · exact hh.2.2.2.1 (ni _ _ hz a1 (h1.trans n1.symm))
    · exact hh.2.2.2.2.2 (ni _ _ hz a3 (h1.trans n3.symm))
    · exact hh.1 (ni _ _ hz a (h1.trans n.symm))
    · exact hh.2.2.1 (ni _ _ hz a0 (h1.trans n0.symm))
    · exact hh.2.1 (ni _ _ hz ar (h1.trans nr.symm))
    · exact hh.2.2.2.2.1 (ni _ _ hz a2 (h1.trans n2.symm))
  have t : m.OnTri he := by unfold Mesh.OnTri; rw [n, n0, n1]
  have t' : m.OnTri rev := by unfold Mesh.OnTri; rw [nr, n2, n3]
  have NO' : ∀ h, m.hAlive h = true → (h ≠ he ∧ h ≠ rev ∧ h ≠ he0 ∧ h ≠ he1 ∧ h ≠ he2 ∧ h ≠ he3) → m'.hNext h = m.hNext h :=
    fun h p ⟨q1, q2, q3, q4, q5, q6⟩ => R.NO h p q1 q2 q3 q4 q5 q6
  have FO' : ∀ h, m.hAlive h = true → (h ≠ he ∧ h ≠ rev ∧ h ≠ he0 ∧ h ≠ he1 ∧ h ≠ he2 ∧ h ≠ he3) → m'.hFace h = m.hFace h :=
    fun h p ⟨q1, q2, q3, q4, q5, q6⟩ => R.FO h p q1 q2 q3 q4 q5 q6
  have hot : ∀ z, m.hAlive z = true → m.OnTri z → m'.OnTri z := by
    intro z hz tz
    unfold Mesh.OnTri at *
    rcases cases6 z he rev he0 he1 he2 he3 with h | h | h | h | h | h | h
    · rw [h, R.N_, R.N0, R.N01]
    · rw [h, R.Nr, R.N11, R.N3]
    · rw [h, R.N0, R.N01, R.N_]
    · rw [h, R.N1, R.Nn, R.N02]
    · rw [h, R.N2, R.N12, R.Nrn]
    · rw [h, R.N3, R.Nr, R.N11]
    · have h1 := ho z hz h
      have h2 := ho _ (w.next_alive _ hz) h1
      rw [NO' z hz h, NO' _ (w.next_alive _ hz) h1, NO' _ (w.next_alive _ (w.next_alive _ hz)) h2]; exact tz
  have hfo : ∀ z, m.hAlive z = true → (z ≠ he ∧ z ≠ rev ∧ z ≠ he0 ∧ z ≠ he1 ∧ z ≠ he2 ∧ z ≠ he3) →
      m.hFace z ≠ m.hFace he ∧ m.hFace z ≠ m.hFace rev := by
    intro z hz hh
    constructor <;> intro e
    · rcases w.tri_face a t hz e with h | h | h
      · exact hh.1 h
      · exact hh.2.2.1 (h.trans n)
      · exact hh.2.2.2.1 (h.trans (by rw [n, n0]))
    · rcases w.tri_face ar t' hz e with h | h | h
      · exact hh.2.1 h
      · exact hh.2.2.2.2.1 (h.trans nr)
      · exact hh.2.2.2.2.2 (h.trans (by rw [nr, n2]))
  have t0 := Mesh.WF.onTri_next t
  have t1 := Mesh.WF.onTri_next t0
  have t2 := Mesh.WF.onTri_next t'
  have t3 := Mesh.WF.onTri_next t2
  rw [n] at t0; rw [n, n0] at t1; rw [nr] at t2; rw [nr, n2] at t3
  refine ⟨fun h ah => ?_⟩
  rcases (R.hal h).1 ah with g | g | g | g | g | g | g
  · by_cases hs : m.OnTri h
    · exact Or.inl (hot h g hs)
    · right
      have hh : h ≠ he ∧ h ≠ rev ∧ h ≠ he0 ∧ h ≠ he1 ∧ h ≠ he2 ∧ h ≠ he3 := by
        refine ⟨?_, ?_, ?_, ?_, ?_, ?_⟩ <;> (intro e; subst e; exact hs (by assumption))
      have hfa := hfo h g hh
      have hlt := (w.fBound _ (w.face_alive _ g)).2
      rcases tr.holds h g with h1 | h1
      · exact absurd h1 hs
      · intro h' ah' e
        rw [FO' h g hh] at e
        have hh' : m.hAlive h' = true ∧ m.hFace h' = m.hFace h := by
          rcases (R.hal h').1 ah' with k | k | k | k | k | k | k
          · rcases cases6 h' he rev he0 he1 he2 he3 with q | q | q | q | q | q | q
            · rw [q, R.F_] at e; exact absurd e.symm hfa.1
            · rw [q, R.Fr] at e; exact absurd e.symm hfa.2
            · rw [q, R.F0] at e; exact absurd e.symm hfa.1
            · rw [q, R.F1] at e; clear * - e hlt; omega
            · rw [q, R.F2] at e; clear * - e hlt; omega
            · rw [q, R.F3] at e; exact absurd e.symm hfa.2
            · rw [FO' h' k q] at e; exact ⟨k, e⟩
          · rw [k, R.Fn] at e; clear * - e hlt; omega
          · rw [k, R.F01] at e; exact absurd e.symm hfa.1
          · rw [k, R.F02] at e; clear * - e hlt; omega
          · rw [k, R.Frn] at e; clear * - e hlt; omega
          · rw [k, R.F11] at e; exact absurd e.symm hfa.2
          · rw [k, R.F12] at e; clear * - e hlt; omega
        have := h1 h' hh'.1 hh'.2
        rw [R.RO _ hh'.1, R.B _ hh'.1, R.B _ (w.rev_alive _ hh'.1)]
        exact ⟨this.1, this.2.1, hot _ (w.rev_alive _ hh'.1) this.2.2⟩
  all_goals (left; unfold Mesh.OnTri; rw [g])
  · rw [R.Nn, R.N02, R.N1]
  · rw [R.N01, R.N_, R.N0]
  · rw [R.N02, R.N1, R.Nn]
  · rw [R.Nrn, R.N2, R.N12]
  · rw [R.N11, R.N3, R.Nr]
  · rw [R.N12, R.Nrn, R.N2]

end TinyMesh
