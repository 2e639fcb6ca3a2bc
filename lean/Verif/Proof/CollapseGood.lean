import Verif.Proof.CollapseExec
/-
`collapseHE`: the state after a successful collapse is consistent.
-/
set_option linter.unusedSimpArgs false
namespace TinyMesh
open Orbit
variable {F : Type} {m m' : Mesh F}

theorem cases4 (h x0 x1 x2 x3 : Nat) : h = x0 ∨ h = x1 ∨ h = x2 ∨ h = x3 ∨
    (h ≠ x0 ∧ h ≠ x1 ∧ h ≠ x2 ∧ h ≠ x3) := by omega

/-- One ring loses some consecutive elements (`del`); what remains is still connected. -/
theorem conn_arc {σ σ' : Nat → Nat} {S S' : Nat → Prop} {base : Nat} (del X : Nat → Prop)
    (hX : ∀ x, S x → X x → S (σ x) ∧ X (σ x))
    (hdel : ∀ x, S x → X x → del x → del (σ x) ∨ σ x = base)
    (hkeep : ∀ x, S x → X x → ¬ del x → del (σ x) ∨ Conn σ' S' x (σ x))
    (hb : S base) (hbX : X base) (n : Nat) : (S (σ^[n] base) ∧ X (σ^[n] base)) ∧
      (del (σ^[n] base) ∨ Conn σ' S' base (σ^[n] base)) := by
  induction n with
  | zero => exact ⟨⟨hb, hbX⟩, Or.inr (Conn.refl _)⟩
  | succ n ih =>
    rw [Function.iterate_succ_apply']
    obtain ⟨⟨h1, h2⟩, h3⟩ := ih
    refine ⟨hX _ h1 h2, ?_⟩
    by_cases hd : del (σ^[n] base)
    · rcases hdel _ h1 h2 hd with h | h
      · exact Or.inl h
      · rw [h]; exact Or.inr (Conn.refl _)
    · rcases h3 with h3 | h3
      · exact absurd h3 hd
      · rcases hkeep _ h1 h2 hd with h | h
        · exact Or.inl h
        · exact Or.inr (h3.trans h)

theorem collapse_wf (w : m.WF) {he rev a b c d o0 o1 o2 o3 v0 v1 v2 v3 : Nat}
    (D : Diamond m he rev a b c d) (W : Wings m he rev a b c d o0 o1 o2 o3 v0 v1 v2 v3)
    (R : CollapseRel m m' he rev a b c d o0 o1 o2 o3 v0 v1 v2 v3) : m'.WF := by
  have S1 : ∀ x, m'.hAlive x = true → m.HA x := fun x h => ((R.hal x).1 h).1
  have So0 : m'.hAlive o0 = true := (R.hal _).2 ⟨W.a0, W.q0⟩
  have So1 : m'.hAlive o1 = true := (R.hal _).2 ⟨W.a1, W.q1⟩
  have So2 : m'.hAlive o2 = true := (R.hal _).2 ⟨W.a2, W.q2⟩
  have So3 : m'.hAlive o3 = true := (R.hal _).2 ⟨W.a3, W.q3⟩
  have nA : ∀ x, m'.hAlive x = true → m'.hAlive (m.hNext x) = true := by
    intro x hx
    obtain ⟨h0, h1, h2, h3, h4, h5, h6⟩ := (R.hal x).1 hx
    refine (R.hal _).2 ⟨w.next_alive _ h0, ?_, ?_, ?_, ?_, ?_, ?_⟩ <;> intro e
    · exact h4 (w.next_inj _ _ h0 D.a1 (e.trans D.n1.symm))
    · exact h6 (w.next_inj _ _ h0 D.a3 (e.trans D.n3.symm))
    · exact h1 (w.next_inj _ _ h0 D.a (e.trans D.n.symm))
    · exact h3 (w.next_inj _ _ h0 D.a0 (e.trans D.n0.symm))
    · exact h2 (w.next_inj _ _ h0 D.ar (e.trans D.nr.symm))
    · exact h5 (w.next_inj _ _ h0 D.a2 (e.trans D.n2.symm))
  have rO : ∀ x, m'.hAlive x = true → (x ≠ o0 ∧ x ≠ o1 ∧ x ≠ o2 ∧ x ≠ o3) →
      m'.hRev x = m.hRev x ∧ m'.hAlive (m.hRev x) = true := by
    intro x hx hh
    obtain ⟨h0, h1, h2, h3, h4, h5, h6⟩ := (R.hal x).1 hx
    refine ⟨R.RO x hh.1 hh.2.1 hh.2.2.1 hh.2.2.2, ?_⟩
    refine (R.hal _).2 ⟨w.rev_alive _ h0, ?_, ?_, ?_, ?_, ?_, ?_⟩ <;> intro e
    · exact h2 (by rw [← w.rev_rev _ h0, e, D.hrev])
    · exact h1 (by rw [← w.rev_rev _ h0, e, D.hrev'])
    · exact hh.2.1 (by rw [← w.rev_rev _ h0, e, W.r1])
    · exact hh.1 (by rw [← w.rev_rev _ h0, e, W.r0])
    · exact hh.2.2.2 (by rw [← w.rev_rev _ h0, e, W.r3])
    · exact hh.2.2.1 (by rw [← w.rev_rev _ h0, e, W.r2])
  have rO' : ∀ x, m'.hAlive x = true → (x ≠ o0 ∧ x ≠ o1 ∧ x ≠ o2 ∧ x ≠ o3) →
      (m.hRev x ≠ o0 ∧ m.hRev x ≠ o1 ∧ m.hRev x ≠ o2 ∧ m.hRev x ≠ o3) := by
    intro x hx hh
    obtain ⟨h0, h1, h2, h3, h4, h5, h6⟩ := (R.hal x).1 hx
    refine ⟨?_, ?_, ?_, ?_⟩ <;> intro e
    · exact h4 (by rw [← w.rev_rev _ h0, e, W.x0])
    · exact h3 (by rw [← w.rev_rev _ h0, e, W.x1])
    · exact h6 (by rw [← w.rev_rev _ h0, e, W.x2])
    · exact h5 (by rw [← w.rev_rev _ h0, e, W.x3])
  have rA : ∀ x, m'.hAlive x = true → m'.hAlive (m'.hRev x) = true := by
    intro x hx
    rcases cases4 x o0 o1 o2 o3 with h | h | h | h | h
    · rw [h, R.R0]; exact So1
    · rw [h, R.R1]; exact So0
    · rw [h, R.R2]; exact So3
    · rw [h, R.R3]; exact So2
    · rw [(rO x hx h).1]; exact (rO x hx h).2
  have rr : ∀ x, m'.hAlive x = true → m'.hRev (m'.hRev x) = x := by
    intro x hx
    rcases cases4 x o0 o1 o2 o3 with h | h | h | h | h
    · rw [h, R.R0, R.R1]
    · rw [h, R.R1, R.R0]
    · rw [h, R.R2, R.R3]
    · rw [h, R.R3, R.R2]
    · have h' := rO' x hx h
      rw [(rO x hx h).1, R.RO _ h'.1 h'.2.1 h'.2.2.1 h'.2.2.2, w.rev_rev _ (S1 x hx)]
  have rne : ∀ x, m'.hAlive x = true → m'.hRev x ≠ x := by
    intro x hx
    rcases cases4 x o0 o1 o2 o3 with h | h | h | h | h
    · rw [h, R.R0]; exact W.p01.symm
    · rw [h, R.R1]; exact W.p01
    · rw [h, R.R2]; exact W.p23.symm
    · rw [h, R.R3]; exact W.p23
    · rw [(rO x hx h).1]; exact w.rev_ne _ (S1 x hx)
  have A0 : m.vAlive v0 = true := by rw [← W.s]; exact w.src_alive _ D.a
  have A1 : m.vAlive v1 = true := by rw [← W.sb]; exact w.src_alive _ D.a1
  have A3 : m.vAlive v3 = true := by rw [← W.sd]; exact w.src_alive _ D.a3
  have sA : ∀ x, m'.hAlive x = true → m'.vAlive (m'.hSrc x) = true := by
    intro x hx
    rw [R.src x (S1 x hx)]
    by_cases h : m.hSrc x = v2
    · rw [if_pos h]; exact (R.val _).2 ⟨A0, W.v02⟩
    · rw [if_neg h]; exact (R.val _).2 ⟨w.src_alive _ (S1 x hx), h⟩
  have fA : ∀ x, m'.hAlive x = true → m'.fAlive (m.hFace x) = true := by
    intro x hx
    obtain ⟨h0, h1, h2, h3, h4, h5, h6⟩ := (R.hal x).1 hx
    refine (R.fal _).2 ⟨w.face_alive _ h0, ?_, ?_⟩ <;> intro e
    · rcases w.tri_face D.a (by unfold Mesh.OnTri; rw [D.n, D.n0, D.n1]) h0 e with h | h | h
      · exact h1 h
      · exact h3 (h.trans D.n)
      · exact h4 (h.trans (by rw [D.n, D.n0]))
    · rcases w.tri_face D.ar (by unfold Mesh.OnTri; rw [D.nr, D.n2, D.n3]) h0 e with h | h | h
      · exact h2 h
      · exact h5 (h.trans D.nr)
      · exact h6 (h.trans (by rw [D.nr, D.n2]))
  have So : ∀ x, m.HA x → m.hSrc x ≠ v2 → m'.hSrc x = m.hSrc x := fun x hx h => by rw [R.src x hx, if_neg h]
  have S2 : ∀ x, m.HA x → m.hSrc x = v2 → m'.hSrc x = v0 := fun x hx h => by rw [R.src x hx, if_pos h]
  have s'0 : m'.hSrc o0 = v0 := by rw [So _ W.a0 (by rw [W.so0]; exact W.v02), W.so0]
  have s'1 : m'.hSrc o1 = v1 := by rw [So _ W.a1 (by rw [W.so1]; exact W.v12), W.so1]
  have s'2 : m'.hSrc o2 = v0 := S2 _ W.a2 W.so2
  have s'3 : m'.hSrc o3 = v3 := by rw [So _ W.a3 (by rw [W.so3]; exact W.v23.symm), W.so3]
  have srcR : ∀ x, m'.hAlive x = true → m'.hSrc (m'.hRev x) = m'.hSrc (m.hNext x) := by
    intro x hx
    have hn := w.next_alive _ (S1 x hx)
    rcases cases4 x o0 o1 o2 o3 with h | h | h | h | h
    · subst h; rw [R.R0, s'1, So _ hn (by rw [W.t0]; exact W.v12), W.t0]
    · subst h; rw [R.R1, s'0, S2 _ hn W.t1]
    · subst h; rw [R.R2, s'3, So _ hn (by rw [W.t2]; exact W.v23.symm), W.t2]
    · subst h; rw [R.R3, s'2, So _ hn (by rw [W.t3]; exact W.v02), W.t3]
    · rw [(rO x hx h).1, R.src _ hn, R.src _ (w.rev_alive _ (S1 x hx)), w.src_rev _ (S1 x hx)]
  have permN : Perm m.hNext (fun x => m'.hAlive x = true) m.hFresh :=
    ⟨nA, fun x y hx hy h => w.next_inj _ _ (S1 x hx) (S1 y hy) h, fun x hx => (w.hBound x (S1 x hx)).2⟩
  have permS : Perm (fun x => m.hNext (m'.hRev x)) (fun x => m'.hAlive x = true) m.hFresh := by
    refine ⟨fun x hx => nA _ (rA _ hx), ?_, fun x hx => (w.hBound x (S1 x hx)).2⟩
    intro x y hx hy h
    have := permN.inj _ _ (rA _ hx) (rA _ hy) h
    rw [← rr x hx, this, rr y hy]
  -- connectedness of the rings
  let σ' := fun x => m.hNext (m'.hRev x)
  let S' := fun x => m'.hAlive x = true
  have stepO : ∀ x, S' x → (x ≠ o0 ∧ x ≠ o1 ∧ x ≠ o2 ∧ x ≠ o3) → Conn σ' S' x (m.sig x) := by
    intro x hx h
    refine Conn.step' hx ?_
    show m.hNext (m'.hRev x) = m.hNext (m.hRev x)
    rw [(rO x hx h).1]
  have sg0 : m.sig o0 = he := by unfold Mesh.sig; rw [W.x0, D.n1]
  have sgh : m.sig he = c := by unfold Mesh.sig; rw [D.hrev, D.nr]
  have sgc : m.sig c = m.hNext o3 := by unfold Mesh.sig; rw [W.r3]
  have sg2 : m.sig o2 = rev := by unfold Mesh.sig; rw [W.x2, D.n3]
  have sgr : m.sig rev = a := by unfold Mesh.sig; rw [D.hrev', D.n]
  have sga : m.sig a = m.hNext o1 := by unfold Mesh.sig; rw [W.r1]
  have sg1 : m.sig o1 = b := by unfold Mesh.sig; rw [W.x1, D.n0]
  have sgb : m.sig b = m.hNext o0 := by unfold Mesh.sig; rw [W.r0]
  have sg3 : m.sig o3 = d := by unfold Mesh.sig; rw [W.x3, D.n2]
  have sgd : m.sig d = m.hNext o2 := by unfold Mesh.sig; rw [W.r2]
  have n0' : S' (m.hNext o0) := nA _ So0
  have n1' : S' (m.hNext o1) := nA _ So1
  have n2' : S' (m.hNext o2) := nA _ So2
  have n3' : S' (m.hNext o3) := nA _ So3
  have alive_of : ∀ x, m.HA x → (x ≠ he ∧ x ≠ rev ∧ x ≠ a ∧ x ≠ b ∧ x ≠ c ∧ x ≠ d) → S' x :=
    fun x hx h => (R.hal x).2 ⟨hx, h⟩
  have sh : m.hSrc he = v0 := W.s
  have ring0 : ∀ x, S' x → m.hSrc x = v0 → Conn σ' S' (m.hNext o3) x := by
    intro x hx e
    obtain ⟨n, hn⟩ := (w.ringConn _ _ (S1 _ n3') (S1 x hx) (W.t3.trans e.symm)).exists_iter w.permSig (S1 _ n3')
    have k := conn_arc (σ := m.sig) (σ' := σ') (S := m.HA) (S' := S') (base := m.hNext o3)
      (fun z => z = he ∨ z = c) (fun z => m.hSrc z = v0)
      (fun z hz hs => ⟨w.sig_alive hz, (w.sig_src hz).trans hs⟩)
      (fun z _ _ hd => by
        rcases hd with h | h
        · left; right; rw [h, sgh]
        · right; rw [h, sgc])
      (fun z hz hs hd => by
        have hz' : S' z := alive_of z hz ⟨fun h => hd (Or.inl h), fun h => W.v02 (by rw [← hs, h, W.sr]),
          fun h => W.v02 (by rw [← hs, h, W.sa]), fun h => W.v01 (by rw [← hs, h, W.sb]),
          fun h => hd (Or.inr h), fun h => W.v03 (by rw [← hs, h, W.sd])⟩
        by_cases h0 : z = o0
        · left; left; rw [h0, sg0]
        · right
          exact stepO z hz' ⟨h0, fun h => W.v01 (by rw [← hs, h, W.so1]), fun h => W.v02 (by rw [← hs, h, W.so2]),
            fun h => W.v03 (by rw [← hs, h, W.so3])⟩)
      (S1 _ n3') W.t3 n
    rw [hn] at k
    rcases k.2 with (h | h) | h
    · exact absurd h ((R.hal x).1 hx).2.1
    · exact absurd h ((R.hal x).1 hx).2.2.2.2.2.1
    · exact h
  have ring2 : ∀ x, S' x → m.hSrc x = v2 → Conn σ' S' (m.hNext o1) x := by
    intro x hx e
    obtain ⟨n, hn⟩ := (w.ringConn _ _ (S1 _ n1') (S1 x hx) (W.t1.trans e.symm)).exists_iter w.permSig (S1 _ n1')
    have k := conn_arc (σ := m.sig) (σ' := σ') (S := m.HA) (S' := S') (base := m.hNext o1)
      (fun z => z = rev ∨ z = a) (fun z => m.hSrc z = v2)
      (fun z hz hs => ⟨w.sig_alive hz, (w.sig_src hz).trans hs⟩)
      (fun z _ _ hd => by
        rcases hd with h | h
        · left; right; rw [h, sgr]
        · right; rw [h, sga])
      (fun z hz hs hd => by
        have hz' : S' z := alive_of z hz ⟨fun h => W.v02 (by rw [← hs, h, W.s]), fun h => hd (Or.inl h),
          fun h => hd (Or.inr h), fun h => W.v12 (by rw [← hs, h, W.sb]),
          fun h => W.v02 (by rw [← hs, h, W.sc]), fun h => W.v23 (by rw [← hs, h, W.sd])⟩
        by_cases h0 : z = o2
        · left; left; rw [h0, sg2]
        · right
          exact stepO z hz' ⟨fun h => W.v02 (by rw [← hs, h, W.so0]), fun h => W.v12 (by rw [← hs, h, W.so1]), h0,
            fun h => W.v23 (by rw [← hs, h, W.so3])⟩)
      (S1 _ n1') W.t1 n
    rw [hn] at k
    rcases k.2 with (h | h) | h
    · exact absurd h ((R.hal x).1 hx).2.2.1
    · exact absurd h ((R.hal x).1 hx).2.2.2.1
    · exact h
  have ring1 : ∀ x, S' x → m.hSrc x = v1 → Conn σ' S' (m.hNext o0) x := by
    intro x hx e
    obtain ⟨n, hn⟩ := (w.ringConn _ _ (S1 _ n0') (S1 x hx) (W.t0.trans e.symm)).exists_iter w.permSig (S1 _ n0')
    have k := conn_arc (σ := m.sig) (σ' := σ') (S := m.HA) (S' := S') (base := m.hNext o0)
      (fun z => z = b) (fun z => m.hSrc z = v1)
      (fun z hz hs => ⟨w.sig_alive hz, (w.sig_src hz).trans hs⟩)
      (fun z _ _ hd => by right; rw [hd, sgb])
      (fun z hz hs hd => by
        have hz' : S' z := alive_of z hz ⟨fun h => W.v01 (by rw [← hs, h, W.s]), fun h => W.v12 (by rw [← hs, h, W.sr]),
          fun h => W.v12 (by rw [← hs, h, W.sa]), hd,
          fun h => W.v01 (by rw [← hs, h, W.sc]), fun h => W.v13 (by rw [← hs, h, W.sd])⟩
        by_cases h0 : z = o1
        · left; rw [h0, sg1]
        · right
          exact stepO z hz' ⟨fun h => W.v01 (by rw [← hs, h, W.so0]), h0, fun h => W.v12 (by rw [← hs, h, W.so2]),
            fun h => W.v13 (by rw [← hs, h, W.so3])⟩)
      (S1 _ n0') W.t0 n
    rw [hn] at k
    rcases k.2 with h | h
    · exact absurd h ((R.hal x).1 hx).2.2.2.2.1
    · exact h
  have ring3 : ∀ x, S' x → m.hSrc x = v3 → Conn σ' S' (m.hNext o2) x := by
    intro x hx e
    obtain ⟨n, hn⟩ := (w.ringConn _ _ (S1 _ n2') (S1 x hx) (W.t2.trans e.symm)).exists_iter w.permSig (S1 _ n2')
    have k := conn_arc (σ := m.sig) (σ' := σ') (S := m.HA) (S' := S') (base := m.hNext o2)
      (fun z => z = d) (fun z => m.hSrc z = v3)
      (fun z hz hs => ⟨w.sig_alive hz, (w.sig_src hz).trans hs⟩)
      (fun z _ _ hd => by right; rw [hd, sgd])
      (fun z hz hs hd => by
        have hz' : S' z := alive_of z hz ⟨fun h => W.v03 (by rw [← hs, h, W.s]), fun h => W.v23 (by rw [← hs, h, W.sr]),
          fun h => W.v23 (by rw [← hs, h, W.sa]), fun h => W.v13 (by rw [← hs, h, W.sb]),
          fun h => W.v03 (by rw [← hs, h, W.sc]), hd⟩
        by_cases h0 : z = o3
        · left; rw [h0, sg3]
        · right
          exact stepO z hz' ⟨fun h => W.v03 (by rw [← hs, h, W.so0]), fun h => W.v13 (by rw [← hs, h, W.so1]),
            fun h => W.v23 (by rw [← hs, h, W.so2]), h0⟩)
      (S1 _ n2') W.t2 n
    rw [hn] at k
    rcases k.2 with h | h
    · exact absurd h ((R.hal x).1 hx).2.2.2.2.2.2
    · exact h
  have ringO : ∀ x y, S' x → S' y → m.hSrc x = m.hSrc y → m.hSrc x ≠ v0 → m.hSrc x ≠ v1 → m.hSrc x ≠ v2 →
      m.hSrc x ≠ v3 → Conn σ' S' x y := by
    intro x y hx hy e h0 h1 h2 h3
    obtain ⟨n, hn⟩ := (w.ringConn _ _ (S1 x hx) (S1 y hy) e).exists_iter w.permSig (S1 x hx)
    have k := conn_arc (σ := m.sig) (σ' := σ') (S := m.HA) (S' := S') (base := x)
      (fun _ => False) (fun z => m.hSrc z = m.hSrc x)
      (fun z hz hs => ⟨w.sig_alive hz, (w.sig_src hz).trans hs⟩)
      (fun z _ _ hd => hd.elim)
      (fun z hz hs hd => by
        have hz' : S' z := alive_of z hz ⟨fun h => h0 (by rw [← hs, h, W.s]), fun h => h2 (by rw [← hs, h, W.sr]),
          fun h => h2 (by rw [← hs, h, W.sa]), fun h => h1 (by rw [← hs, h, W.sb]),
          fun h => h0 (by rw [← hs, h, W.sc]), fun h => h3 (by rw [← hs, h, W.sd])⟩
        right
        exact stepO z hz' ⟨fun h => h0 (by rw [← hs, h, W.so0]), fun h => h1 (by rw [← hs, h, W.so1]),
            fun h => h2 (by rw [← hs, h, W.so2]), fun h => h3 (by rw [← hs, h, W.so3])⟩)
      (S1 _ hx) rfl n
    rw [hn] at k
    rcases k.2 with h | h
    · exact h.elim
    · exact h
  have merge : Conn σ' S' (m.hNext o3) (m.hNext o1) := by
    refine (ring0 o0 So0 W.so0).trans (Conn.step' So0 ?_)
    show m.hNext (m'.hRev o0) = _
    rw [R.R0]
  have toBase : ∀ x, S' x → m'.hSrc x = v0 → Conn σ' S' (m.hNext o3) x := by
    intro x hx e
    rw [R.src x (S1 x hx)] at e
    by_cases h : m.hSrc x = v2
    · exact merge.trans (ring2 x hx h)
    · rw [if_neg h] at e; exact ring0 x hx e
  refine ⟨R.hd, R.vd, R.fd, ?_, ?_, ?_, ?_, rA, sA, ?_, rr, rne, ?_, ?_, ?_, ?_, ?_, ?_, ?_⟩
  · intro h ah; rw [R.hfr]; exact w.hBound h (S1 h ah)
  · intro v av; rw [R.vfr]; exact w.vBound v ((R.val v).1 av).1
  · intro f af; rw [R.ffr]; exact w.fBound f ((R.fal f).1 af).1
  · rw [R.nx]; exact nA
  · rw [R.fc]; exact fA
  · rw [R.nx]; exact srcR
  · rw [R.nx]; exact permN.inj
  · rw [R.nx, R.fc]; exact fun h ah => w.face_next h (S1 h ah)
  · intro f af
    rw [R.fh, R.fc]
    obtain ⟨h0, h1, h2⟩ := (R.fal f).1 af
    have k := w.fHe_ok f h0
    have ea : m.hFace a = m.hFace he := by rw [← D.n]; exact w.face_next _ D.a
    have eb : m.hFace b = m.hFace he := by rw [← D.n0, w.face_next _ D.a0, ea]
    have ec : m.hFace c = m.hFace rev := by rw [← D.nr]; exact w.face_next _ D.ar
    have ed : m.hFace d = m.hFace rev := by rw [← D.n2, w.face_next _ D.a2, ec]
    refine ⟨(R.hal _).2 ⟨k.1, ?_, ?_, ?_, ?_, ?_, ?_⟩, k.2⟩ <;> intro e <;> rw [e] at k
    · exact h1 k.2.symm
    · exact h2 k.2.symm
    · exact h1 (k.2.symm.trans ea)
    · exact h1 (k.2.symm.trans eb)
    · exact h2 (k.2.symm.trans ec)
    · exact h2 (k.2.symm.trans ed)
  · intro v av
    obtain ⟨h0, h2⟩ := (R.val v).1 av
    by_cases e0 : v = v0
    · rw [e0, R.V0]; exact ⟨So0, s'0⟩
    by_cases e1 : v = v1
    · rw [e1, R.V1]; exact ⟨So1, s'1⟩
    by_cases e3 : v = v3
    · rw [e3, R.V3]; exact ⟨So3, s'3⟩
    have k := w.vHe_ok v h0
    rw [R.VO v e0 e1 h2 e3, So _ k.1 (by rw [k.2]; exact h2)]
    refine ⟨(R.hal _).2 ⟨k.1, ?_, ?_, ?_, ?_, ?_, ?_⟩, k.2⟩ <;> intro e <;> rw [e] at k
    · exact e0 (k.2.symm.trans W.s)
    · exact h2 (k.2.symm.trans W.sr)
    · exact h2 (k.2.symm.trans W.sa)
    · exact e1 (k.2.symm.trans W.sb)
    · exact e0 (k.2.symm.trans W.sc)
    · exact e3 (k.2.symm.trans W.sd)
  · rw [R.nx, R.fc]
    intro h h' ah ah' e
    exact w.face_conn h h' (S1 h ah) (S1 h' ah') e
  · rw [R.nx]
    intro h h' ah ah' e
    refine Conn.exists_iter permS ?_ ah
    show Conn σ' S' h h'
    by_cases e0 : m'.hSrc h = v0
    · exact (toBase h ah e0).symm.trans (toBase h' ah' (e.symm.trans e0))
    have f0 : m'.hSrc h' ≠ v0 := fun k => e0 (e.trans k)
    have g : ∀ x, S' x → m'.hSrc x ≠ v0 → m.hSrc x = m'.hSrc x ∧ m.hSrc x ≠ v2 := by
      intro x hx hne
      have k : m.hSrc x ≠ v2 := fun k => hne (S2 x (S1 x hx) k)
      exact ⟨(So x (S1 x hx) k).symm, k⟩
    have gh := g h ah e0
    have gh' := g h' ah' f0
    by_cases e1 : m'.hSrc h = v1
    · exact (ring1 h ah (gh.1.trans e1)).symm.trans (ring1 h' ah' (gh'.1.trans (e.symm.trans e1)))
    by_cases e3 : m'.hSrc h = v3
    · exact (ring3 h ah (gh.1.trans e3)).symm.trans (ring3 h' ah' (gh'.1.trans (e.symm.trans e3)))
    exact ringO h h' ah ah' (gh.1.trans (e.trans gh'.1.symm)) (by rw [gh.1]; exact e0) (by rw [gh.1]; exact e1)
      gh.2 (by rw [gh.1]; exact e3)

theorem collapse_tri (w : m.WF) (tr : m.TriOrHole) {he rev a b c d o0 o1 o2 o3 v0 v1 v2 v3 : Nat}
    (D : Diamond m he rev a b c d) (W : Wings m he rev a b c d o0 o1 o2 o3 v0 v1 v2 v3)
    (R : CollapseRel m m' he rev a b c d o0 o1 o2 o3 v0 v1 v2 v3)
    (hb0 : ∀ x, m.HA x → m.hFace x = m.hFace he → m.hBd x = false)
    (hb1 : ∀ x, m.HA x → m.hFace x = m.hFace rev → m.hBd x = false) : m'.TriOrHole := by
  have ea : m.hFace a = m.hFace he := by rw [← D.n]; exact w.face_next _ D.a
  have eb : m.hFace b = m.hFace he := by rw [← D.n0, w.face_next _ D.a0, ea]
  have ec : m.hFace c = m.hFace rev := by rw [← D.nr]; exact w.face_next _ D.ar
  have ed : m.hFace d = m.hFace rev := by rw [← D.n2, w.face_next _ D.a2, ec]
  have ht : ∀ x, m'.OnTri x ↔ m.OnTri x := by intro x; unfold Mesh.OnTri; rw [R.nx]
  refine ⟨fun h ah => ?_⟩
  have h0 := ((R.hal h).1 ah).1
  rw [ht]
  rcases tr.holds h h0 with h1 | h1
  · exact Or.inl h1
  · right
    intro h' ah' e
    rw [R.fc] at e
    have k := h1 h' ((R.hal h').1 ah').1 e
    have hn : h' ≠ o0 ∧ h' ≠ o1 ∧ h' ≠ o2 ∧ h' ≠ o3 := by
      refine ⟨?_, ?_, ?_, ?_⟩ <;> intro q <;> rw [q] at k
      · rw [W.x0, hb0 b D.a1 eb] at k; exact absurd k.2.1 (by simp)
      · rw [W.x1, hb0 a D.a0 ea] at k; exact absurd k.2.1 (by simp)
      · rw [W.x2, hb1 d D.a3 ed] at k; exact absurd k.2.1 (by simp)
      · rw [W.x3, hb1 c D.a2 ec] at k; exact absurd k.2.1 (by simp)
    rw [R.RO h' hn.1 hn.2.1 hn.2.2.1 hn.2.2.2, R.bd, ht]
    exact k

theorem Mesh.WF.mem_nbrs (w : m.WF) {v u : Nat} (a : m.vAlive v = true) :
    u ∈ m.nbrs v ↔ ∃ x, m.HA x ∧ m.hSrc x = v ∧ m.hSrc (m.hNext x) = u := by
  unfold Mesh.nbrs
  rw [List.mem_map]
  constructor
  · rintro ⟨x, hx, e⟩
    have := (w.mem_ring a).1 hx
    exact ⟨x, this.1, this.2, e⟩
  · rintro ⟨x, h1, h2, e⟩
    exact ⟨x, (w.mem_ring a).2 ⟨h1, h2⟩, e⟩

theorem Mesh.WF.nodup_nbrs (w : m.WF) (sm : m.Simple) {v : Nat} (a : m.vAlive v = true) : (m.nbrs v).Nodup := by
  unfold Mesh.nbrs
  refine (List.nodup_map_iff_inj_on (w.permSig.nodup_orbit (w.vHe_ok v a).1)).2 ?_
  intro x hx y hy e
  have hx' := (w.mem_ring a).1 hx
  have hy' := (w.mem_ring a).1 hy
  exact sm.no_dup x y hx'.1 hy'.1 (hx'.2.trans hy'.2.symm) e

/-- Only the tips of the two triangles are adjacent to both end points. -/
theorem link_two (w : m.WF) (sm : m.Simple) {v0 v2 p q u : Nat} (A0 : m.vAlive v0 = true) (A2 : m.vAlive v2 = true)
    (hl : ((m.nbrs v0).filter (fun d => (m.nbrs v2).contains d)).length = 2) (hpq : p ≠ q)
    (hp : p ∈ m.nbrs v0 ∧ p ∈ m.nbrs v2) (hq : q ∈ m.nbrs v0 ∧ q ∈ m.nbrs v2) (hu : u ∈ m.nbrs v0 ∧ u ∈ m.nbrs v2) :
    u = p ∨ u = q := by
  by_contra hne
  push Not at hne
  have hnd : ((m.nbrs v0).filter (fun d => (m.nbrs v2).contains d)).Nodup := (w.nodup_nbrs sm A0).filter _
  have hsub : [p, q, u] ⊆ (m.nbrs v0).filter (fun d => (m.nbrs v2).contains d) := by
    intro z hz
    simp only [List.mem_cons, List.not_mem_nil, or_false] at hz
    rw [List.mem_filter]
    rcases hz with rfl | rfl | rfl
    · exact ⟨hp.1, by simpa using hp.2⟩
    · exact ⟨hq.1, by simpa using hq.2⟩
    · exact ⟨hu.1, by simpa using hu.2⟩
  have h3 : [p, q, u].Nodup := by
    simp [hpq, hne.1.symm, hne.2.symm]
  have := (List.subperm_of_subset h3 hsub).length_le
  rw [hl] at this
  simp at this

theorem collapse_simple (w : m.WF) (sm : m.Simple) {he rev a b c d o0 o1 o2 o3 v0 v1 v2 v3 : Nat}
    (D : Diamond m he rev a b c d) (W : Wings m he rev a b c d o0 o1 o2 o3 v0 v1 v2 v3)
    (R : CollapseRel m m' he rev a b c d o0 o1 o2 o3 v0 v1 v2 v3)
    (hl : ((m.nbrs v0).filter (fun d => (m.nbrs v2).contains d)).length = 2) : m'.Simple := by
  have A0 : m.vAlive v0 = true := by rw [← W.s]; exact w.src_alive _ D.a
  have A2 : m.vAlive v2 = true := by rw [← W.sr]; exact w.src_alive _ D.ar
  have th : m.hSrc (m.hNext he) = v2 := by rw [D.n, W.sa]
  have tr : m.hSrc (m.hNext rev) = v0 := by rw [D.nr, W.sc]
  have ta : m.hSrc (m.hNext a) = v1 := by rw [D.n0, W.sb]
  have tb : m.hSrc (m.hNext b) = v0 := by rw [D.n1, W.s]
  have tc : m.hSrc (m.hNext c) = v3 := by rw [D.n2, W.sd]
  have td : m.hSrc (m.hNext d) = v2 := by rw [D.n3, W.sr]
  have P1 : v1 ∈ m.nbrs v0 ∧ v1 ∈ m.nbrs v2 :=
    ⟨(w.mem_nbrs A0).2 ⟨o0, W.a0, W.so0, W.t0⟩, (w.mem_nbrs A2).2 ⟨a, D.a0, W.sa, ta⟩⟩
  have P3 : v3 ∈ m.nbrs v0 ∧ v3 ∈ m.nbrs v2 :=
    ⟨(w.mem_nbrs A0).2 ⟨c, D.a2, W.sc, tc⟩, (w.mem_nbrs A2).2 ⟨o2, W.a2, W.so2, W.t2⟩⟩
  -- no surviving half-edges from both old vertices to a common one
  have key : ∀ x y, m'.hAlive x = true → m'.hAlive y = true → m.hSrc x = v0 → m.hSrc y = v2 →
      m.hSrc (m.hNext x) = m.hSrc (m.hNext y) → False := by
    intro x y hx hy e1 e2 e3
    obtain ⟨x0, x1, x2, x3, x4, x5, x6⟩ := (R.hal x).1 hx
    obtain ⟨y0, y1, y2, y3, y4, y5, y6⟩ := (R.hal y).1 hy
    rcases link_two w sm A0 A2 hl W.v13 P1 P3 (u := m.hSrc (m.hNext x))
      ⟨(w.mem_nbrs A0).2 ⟨x, x0, e1, rfl⟩, (w.mem_nbrs A2).2 ⟨y, y0, e2, e3.symm⟩⟩ with h | h
    · exact y3 (sm.no_dup y a y0 D.a0 (e2.trans W.sa.symm) (by rw [← e3, h, ta]))
    · exact x5 (sm.no_dup x c x0 D.a2 (e1.trans W.sc.symm) (by rw [h, tc]))
  have key' : ∀ x y, m'.hAlive x = true → m'.hAlive y = true → m.hSrc (m.hNext x) = v0 → m.hSrc (m.hNext y) = v2 →
      m.hSrc x = m.hSrc y → False := by
    intro x y hx hy e1 e2 e3
    obtain ⟨x0, x1, x2, x3, x4, x5, x6⟩ := (R.hal x).1 hx
    obtain ⟨y0, y1, y2, y3, y4, y5, y6⟩ := (R.hal y).1 hy
    have rx : m.hSrc (m.hNext (m.hRev x)) = m.hSrc x := by rw [← w.src_rev _ (w.rev_alive _ x0), w.rev_rev _ x0]
    have ry : m.hSrc (m.hNext (m.hRev y)) = m.hSrc y := by rw [← w.src_rev _ (w.rev_alive _ y0), w.rev_rev _ y0]
    rcases link_two w sm A0 A2 hl W.v13 P1 P3 (u := m.hSrc x)
      ⟨(w.mem_nbrs A0).2 ⟨m.hRev x, w.rev_alive _ x0, (w.src_rev _ x0).trans e1, rx⟩,
       (w.mem_nbrs A2).2 ⟨m.hRev y, w.rev_alive _ y0, (w.src_rev _ y0).trans e2, ry.trans e3.symm⟩⟩ with h | h
    · exact x4 (sm.no_dup x b x0 D.a1 (h.trans W.sb.symm) (e1.trans tb.symm))
    · exact y6 (sm.no_dup y d y0 D.a3 (e3.symm.trans (h.trans W.sd.symm)) (e2.trans td.symm))
  have nohe : ∀ x, m'.hAlive x = true → m.hSrc x = v0 → m.hSrc (m.hNext x) ≠ v2 := by
    intro x hx e1 e2
    exact ((R.hal x).1 hx).2.1 (sm.no_dup x he ((R.hal x).1 hx).1 D.a (e1.trans W.s.symm) (e2.trans th.symm))
  have norev : ∀ x, m'.hAlive x = true → m.hSrc x = v2 → m.hSrc (m.hNext x) ≠ v0 := by
    intro x hx e1 e2
    exact ((R.hal x).1 hx).2.2.1 (sm.no_dup x rev ((R.hal x).1 hx).1 D.ar (e1.trans W.sr.symm) (e2.trans tr.symm))
  have nl := sm.no_loop
  have nd := sm.no_dup
  constructor
  · intro h ah
    rw [R.nx]
    have h0 := ((R.hal h).1 ah).1
    rw [R.src h h0, R.src _ (w.next_alive _ h0)]
    have k1 := nohe h ah
    have k2 := norev h ah
    have k3 := nl h h0
    by_cases e : m.hSrc h = v2 <;> by_cases e' : m.hSrc (m.hNext h) = v2 <;> simp only [e, e', if_true, if_false]
    · exact absurd (e.trans e'.symm) k3
    · exact (k2 e).symm
    · exact fun q => k1 q e'
    · exact k3
  · intro h h' ah ah' e1 e2
    have h0 := ((R.hal h).1 ah).1
    have h0' := ((R.hal h').1 ah').1
    rw [R.src h h0, R.src h' h0'] at e1
    rw [R.nx] at e2
    rw [R.src _ (w.next_alive _ h0), R.src _ (w.next_alive _ h0')] at e2
    have k1 := nohe h ah
    have k2 := norev h ah
    have k1' := nohe h' ah'
    have k2' := norev h' ah'
    have k3 := nl h h0
    have k3' := nl h' h0'
    -- equal ends in the old mesh
    have fin : m.hSrc h = m.hSrc h' → m.hSrc (m.hNext h) = m.hSrc (m.hNext h') → h = h' := nd h h' h0 h0'
    by_cases q : m.hSrc h = v2 <;> by_cases q' : m.hSrc h' = v2 <;>
      by_cases r : m.hSrc (m.hNext h) = v2 <;> by_cases r' : m.hSrc (m.hNext h') = v2 <;>
      simp only [q, q', r, r', if_true, if_false] at e1 e2
    · exact fin (q.trans q'.symm) (r.trans r'.symm)
    · exact absurd (q.trans r.symm) k3
    · exact absurd (q'.trans r'.symm) k3'
    · exact fin (q.trans q'.symm) e2
    · exact absurd (q.trans r.symm) k3
    · exact absurd (q.trans r.symm) k3
    · exact absurd e2 (k2 q)
    · exact (key h' h ah' ah e1.symm q e2.symm).elim
    · exact absurd (q'.trans r'.symm) k3'
    · exact absurd e2.symm (k2' q')
    · exact absurd (q'.trans r'.symm) k3'
    · exact (key h h' ah ah' e1 q' e2).elim
    · exact fin e1 (r.trans r'.symm)
    · exact (key' h' h ah' ah e2.symm r e1.symm).elim
    · exact (key' h h' ah ah' e2 r' e1).elim
    · exact fin e1 e2

theorem collapse_good [Scalar F] (g : m.Good) {he rev a b c d o0 o1 o2 o3 v0 v1 v2 v3 : Nat}
    (G : CollapseGuard m he rev) (D : Diamond m he rev a b c d)
    (W : Wings m he rev a b c d o0 o1 o2 o3 v0 v1 v2 v3)
    (R : CollapseRel m m' he rev a b c d o0 o1 o2 o3 v0 v1 v2 v3) : m'.Good :=
  ⟨collapse_wf g.wf D W R, collapse_tri g.wf g.tri D W R G.b0 G.b1,
    collapse_simple g.wf g.simple D W R (by have := G.link; rw [W.s, W.sr] at this; exact this)⟩

end TinyMesh
