import Verif.Proof.FrontG
/-
The mesh after a round that adds one vertex and two triangles.
-/
namespace TinyMesh
open Orbit
variable {F : Type} {m : Mesh F}

/-- the links after a round that adds one vertex and two triangles, as a table -/
structure Links.MidTab (L L' : Links) (f p a b q H V G : Nat) : Prop where
  al : ∀ h, L'.hA h = true ↔ h = H ∨ h = H + 1 ∨ h = H + 2 ∨ h = H + 3 ∨ h = H + 4 ∨ h = H + 5 ∨ L.hA h = true
  nxp : L'.nx p = H
  nxa : L'.nx a = H + 2
  nxb : L'.nx b = H + 5
  nx0 : L'.nx H = H + 1
  nx1 : L'.nx (H + 1) = q
  nx2 : L'.nx (H + 2) = H + 3
  nx3 : L'.nx (H + 3) = a
  nx4 : L'.nx (H + 4) = b
  nx5 : L'.nx (H + 5) = H + 4
  nxo : ∀ {h}, L.hA h = true → h ≠ p → h ≠ a → h ≠ b → L'.nx h = L.nx h
  rv0 : L'.rv H = H + 3
  rv1 : L'.rv (H + 1) = H + 5
  rv2 : L'.rv (H + 2) = H + 4
  rv3 : L'.rv (H + 3) = H
  rv4 : L'.rv (H + 4) = H + 2
  rv5 : L'.rv (H + 5) = H + 1
  rvo : ∀ {h}, L.hA h = true → L'.rv h = L.rv h
  sr0 : L'.sr H = L.sr a
  sr1 : L'.sr (H + 1) = V
  sr2 : L'.sr (H + 2) = L.sr b
  sr3 : L'.sr (H + 3) = V
  sr4 : L'.sr (H + 4) = V
  sr5 : L'.sr (H + 5) = L.sr q
  sro : ∀ {h}, L.hA h = true → L'.sr h = L.sr h
  fca : L'.fc a = G
  fcb : L'.fc b = G + 1
  fc0 : L'.fc H = f
  fc1 : L'.fc (H + 1) = f
  fc2 : L'.fc (H + 2) = G
  fc3 : L'.fc (H + 3) = G
  fc4 : L'.fc (H + 4) = G + 1
  fc5 : L'.fc (H + 5) = G + 1
  fco : ∀ {h}, L.hA h = true → h ≠ a → h ≠ b → L'.fc h = L.fc h
  va : ∀ v, L'.vA v = true ↔ v = V ∨ L.vA v = true
  vhV : L'.vh V = H + 1
  vho : ∀ {v}, v ≠ V → L'.vh v = L.vh v
  fa : ∀ g, L'.fA g = true ↔ g = G ∨ g = G + 1 ∨ L.fA g = true
  fhG : L'.fh G = a
  fhG1 : L'.fh (G + 1) = H + 4
  fhf : L'.fh f = H
  fho : ∀ {g}, L.fA g = true → g ≠ f → L'.fh g = L.fh g

theorem Links.Ok.mid {L L' : Links} (K : L.Ok) {f p a b q H V G : Nat} (T : L.MidTab L' f p a b q H V G)
    (hH : ∀ h, L.hA h = true → h < H) (hV : ∀ v, L.vA v = true → v < V) (hG : ∀ g, L.fA g = true → g < G)
    (ap : L.hA p = true) (aa : L.hA a = true) (ab : L.hA b = true) (aq : L.hA q = true) (fa : L.fc a = f)
    (np : L.nx p = a) (na : L.nx a = b) (nb : L.nx b = q) (pa : p ≠ a) (pb : p ≠ b) (eab : a ≠ b) : L'.Ok := by
  have hd : ∀ k, L.hA (H + k) = false := fun k => by
    rw [Bool.eq_false_iff]; intro e; have := hH _ e; omega
  have hd0 := hd 0
  rw [Nat.add_zero] at hd0
  have hdV : L.vA V = false := by
    rw [Bool.eq_false_iff]; intro e; have := hV _ e; omega
  have hdG : L.fA G = false := by
    rw [Bool.eq_false_iff]; intro e; have := hG _ e; omega
  have hdG1 : L.fA (G + 1) = false := by
    rw [Bool.eq_false_iff]; intro e; have := hG _ e; omega
  have pl := hH _ ap
  have al := hH _ aa
  have bl := hH _ ab
  have ql := hH _ aq
  have af : L.fA f = true := fa ▸ K.face_alive a aa
  have fl := hG _ af
  obtain ⟨L1, hL1⟩ : ∃ X, L.mev a (H + 2) (H + 4) V = X := ⟨_, rfl⟩
  have R1 := Links.mev_rel (L := L) (a := a) (C := H + 2) (C' := H + 4) (x := V) aa (hd _) (hd _) (by omega) hdV
  rw [hL1] at R1
  have K1 := K.mev R1 aa (hd _) (hd _) (by omega) hdV
  have o1 : ∀ {h}, L.hA h = true → L1.hA h = true := fun e => (R1.al _).2 (.inr (.inr e))
  have fa1 : L1.fc a = f := (R1.fco aa).trans fa
  have hC : L1.hA (H + 2) = true := (R1.al _).2 (.inl rfl)
  have hC' : L1.hA (H + 4) = true := (R1.al _).2 (.inr (.inl rfl))
  have dA : L1.hA H = false := by
    rw [Bool.eq_false_iff]; intro h
    rcases (R1.al _).1 h with e | e | e
    · omega
    · omega
    · rw [hd0] at e; exact absurd e (by simp)
  have dB : L1.hA (H + 3) = false := by
    rw [Bool.eq_false_iff]; intro h
    rcases (R1.al _).1 h with e | e | e
    · omega
    · omega
    · rw [hd 3] at e; exact absurd e (by simp)
  have dg : L1.fA G = false := by
    rw [Bool.eq_false_iff]; intro h; rw [(R1.fa _).1 h] at hdG; exact absurd hdG (by simp)
  obtain ⟨L2, hL2⟩ : ∃ X, L1.ear p a (H + 2) (H + 4) H (H + 3) G = X := ⟨_, rfl⟩
  have R2 := Links.ear_rel (L := L1) (p := p) (a := a) (b := H + 2) (q := H + 4) (A := H) (B := H + 3) (g := G) K1 (o1 ap) (o1 aa) hC
    (by rw [fa1]; exact (R1.fa _).2 af) (by omega) (by omega) dA dB (by omega) dg
  have np1 : L1.nx p = a := (R1.nxo ap pa).trans np
  have fh2 : L2.fh f = H ∧ L2.fh G = a := by
    rw [← hL2]
    have e : f ≠ G := by omega
    simp only [Links.ear, fa1]
    exact ⟨by rw [upd_ne _ _ e, upd_same], upd_same _ _ _⟩
  have fh3 : ∀ g, g ≠ f → g ≠ G → L2.fh g = L.fh g := by
    intro g e1 e2
    rw [← hL2, ← hL1]
    rw [← hL1] at fa1
    simp only [Links.ear, fa1]
    rw [upd_ne _ _ e2, upd_ne _ _ e1]; rfl
  rw [hL2] at R2
  have K2 := K1.ear R2 (o1 ap) np1 R1.nxa R1.nxC pa (by omega) dA dB (by omega) dg
  have al2 : ∀ h, L2.hA h = true ↔ h = H ∨ h = H + 3 ∨ h = H + 2 ∨ h = H + 4 ∨ L.hA h = true := fun h => by rw [R2.al, R1.al]
  have fa2 : ∀ g, L2.fA g = true ↔ g = G ∨ L.fA g = true := fun g => by rw [R2.fa, R1.fa]
  have fc4 : L2.fc (H + 4) = f := by rw [R2.fco hC' (by omega) (by omega), R1.fcC', fa]
  have sr4 : L2.sr (H + 4) = V := by rw [R2.sro hC', R1.srC']
  have R3 : L2.Ear L' H (H + 4) b q (H + 1) (H + 5) (G + 1) := by
    constructor
    · intro h; rw [T.al, al2]; tauto
    · exact T.nx0
    · exact T.nx1
    · exact T.nxb
    · exact T.nx5
    · intro h hh e1 e2
      rcases (al2 h).1 hh with e | e | e | e | e
      · exact absurd e e1
      · rw [e, T.nx3, R2.nxB]
      · rw [e, T.nx2, R2.nxb]
      · rw [e, T.nx4, R2.nxo hC' (by omega) (by omega), R1.nxC', na]
      · by_cases c1 : h = p
        · rw [c1, T.nxp, R2.nxp]
        · have hl := hH _ e
          rw [R2.nxo (o1 e) c1 (by omega)]
          by_cases c2 : h = a
          · rw [c2, T.nxa, R1.nxa]
          · rw [T.nxo e c1 c2 e2, R1.nxo e c2]
    · exact T.rv1
    · exact T.rv5
    · intro h hh
      rcases (al2 h).1 hh with e | e | e | e | e
      · rw [e, T.rv0, R2.rvA]
      · rw [e, T.rv3, R2.rvB]
      · rw [e, T.rv2, R2.rvo hC, R1.rvC]
      · rw [e, T.rv4, R2.rvo hC', R1.rvC']
      · rw [T.rvo e, R2.rvo (o1 e), R1.rvo e]
    · rw [T.sr1, sr4]
    · rw [T.sr5, R2.sro (o1 aq), R1.sro aq]
    · intro h hh
      rcases (al2 h).1 hh with e | e | e | e | e
      · rw [e, T.sr0, R2.srA, R1.sro aa]
      · rw [e, T.sr3, R2.srB, R1.srC']
      · rw [e, T.sr2, R2.sro hC, R1.srC, na]
      · rw [e, T.sr4, R2.sro hC', R1.srC']
      · rw [T.sro e, R2.sro (o1 e), R1.sro e]
    · rw [T.fc1, fc4]
    · exact T.fc5
    · exact T.fc4
    · exact T.fcb
    · intro h hh e1 e2
      rcases (al2 h).1 hh with e | e | e | e | e
      · rw [e, T.fc0, R2.fcA, fa1]
      · rw [e, T.fc3, R2.fcB]
      · rw [e, T.fc2, R2.fcb]
      · exact absurd e e1
      · by_cases c2 : h = a
        · rw [c2, T.fca, R2.fca]
        · have hl := hH _ e
          rw [T.fco e c2 e2, R2.fco (o1 e) c2 (by omega), R1.fco e]
    · intro v; rw [T.va, R2.va, R1.va]
    · intro v av
      by_cases ev : v = V
      · rw [ev, T.vhV, T.sr1]; exact ⟨(T.al _).2 (by simp), rfl⟩
      · rw [T.vho ev]
        rcases (T.va v).1 av with e | e
        · exact absurd e ev
        · have := K.vHe_ok v e
          exact ⟨(T.al _).2 (by simp [this.1]), by rw [T.sro this.1, this.2]⟩
    · intro g; rw [T.fa, fa2]; tauto
    · rw [T.fhG1, T.fc4]; exact ⟨(T.al _).2 (by simp), rfl⟩
    · rw [fc4, T.fhf, T.fc0]; exact ⟨(T.al _).2 (by simp), rfl⟩
    · intro g ag eg
      rw [fc4] at eg
      rcases (fa2 g).1 ag with e | e
      · rw [e, T.fhG, fh2.2]
      · have := hG _ e
        rw [T.fho e eg, fh3 g eg (by omega)]
  have dA2 : L2.hA (H + 1) = false := by
    rw [Bool.eq_false_iff]; intro h
    rcases (al2 _).1 h with e | e | e | e | e
    · omega
    · omega
    · omega
    · omega
    · rw [hd 1] at e; exact absurd e (by simp)
  have dB2 : L2.hA (H + 5) = false := by
    rw [Bool.eq_false_iff]; intro h
    rcases (al2 _).1 h with e | e | e | e | e
    · omega
    · omega
    · omega
    · omega
    · rw [hd 5] at e; exact absurd e (by simp)
  have dg2 : L2.fA (G + 1) = false := by
    rw [Bool.eq_false_iff]; intro h
    rcases (fa2 _).1 h with e | e
    · omega
    · rw [e] at hdG1; exact absurd hdG1 (by simp)
  exact K2.ear R3 ((al2 _).2 (.inl rfl)) R2.nxA (by rw [R2.nxo hC' (by omega) (by omega), R1.nxC', na])
    (by rw [R2.nxo (o1 ab) (Ne.symm pb) (by omega), R1.nxo ab (Ne.symm eab), nb]) (by omega) (by omega) dA2 dB2 (by omega) dg2

section
variable {f : Nat} {hs : List Nat} {pp prev i next qq p a b q : Nat} {x : Vec3 F}

theorem midMesh_tab (w : m.WF) (af : m.fAlive f = true) (C : Corner m f hs pp prev i next qq p a b q) :
    m.links.MidTab (m.midMesh f p a b q x).links f p a b q m.hFresh m.vFresh m.fFresh := by
  have lt : ∀ {h}, m.hAlive h = true → h < m.hFresh := fun a => (w.hBound _ a).2
  have gl := (w.fBound _ af).2
  have pq := C.pq
  have n0 : ∀ {h}, m.hAlive h = true → h ≠ m.hFresh := fun a => by have := lt a; omega
  have n1 : ∀ {h}, m.hAlive h = true → ∀ k, h ≠ m.hFresh + k := fun a k => by have := lt a; omega
  have n0' : ∀ {h}, m.hAlive h = true → m.hFresh ≠ h := fun a => by have := lt a; omega
  have n1' : ∀ {h}, m.hAlive h = true → ∀ k, m.hFresh + k ≠ h := fun a k => by have := lt a; omega
  have A0 := n0 C.aa
  have A1 := n1 C.aa
  have A2 := n0' C.aa
  have A3 := n1' C.aa
  have B0 := n0 C.ab
  have B1 := n1 C.ab
  have B2 := n0' C.ab
  have B3 := n1' C.ab
  have P0 := n0 C.ap
  have P1 := n1 C.ap
  have P2 := n0' C.ap
  have P3 := n1' C.ap
  have Q0 := n0 C.aq
  have Q1 := n1 C.aq
  have gl1 := gl.ne
  have gl2 := gl.ne'
  have gl3 : m.fFresh + 1 ≠ f := by omega
  constructor
  · intro h
    simp only [Mesh.links, Mesh.midMesh, Mesh.midTwo, Mesh.pairUp_hAlive, Mesh.midEnd_hAlive, Mesh.tri_hAlive, Mesh.allocH_hAlive, Mesh.midSide_hAlive, upd,
      Mesh.midSide_hFresh, Mesh.allocH_hFresh, Mesh.tri_hFresh, Mesh.allocV_hFresh, Mesh.allocV_hAlive, Nat.add_assoc, Nat.reduceAdd]
    repeat' split
    all_goals simp_all
  all_goals simp only [Mesh.links, Mesh.midMesh, Mesh.midTwo, Mesh.pairUp_hNext, Mesh.pairUp_hRev, Mesh.pairUp_hSrc, Mesh.pairUp_hFace,
    Mesh.pairUp_vAlive, Mesh.pairUp_vHe, Mesh.pairUp_fAlive, Mesh.pairUp_fHe, Mesh.midEnd_hNext, Mesh.midEnd_hRev, Mesh.midEnd_hSrc, Mesh.midEnd_hFace,
    Mesh.midEnd_vAlive, Mesh.midEnd_vHe, Mesh.midEnd_fAlive, Mesh.midEnd_fHe]
  -- next
  · simp [upd, Nat.add_assoc, A0, A1, A2, A3, B0, B1, B2, B3, P0, P1, P2, P3, C.pa, C.pb, pq]
  · simp [upd, Nat.add_assoc, A0, A1, A2, A3, B0, B1, B2, B3, P0, P1, P2, P3, C.pa, C.pb, pq]
  · simp [upd, Nat.add_assoc, A0, A1, A2, A3, B0, B1, B2, B3, P0, P1, P2, P3, C.pa, C.pb, pq]
  · simp [upd, Nat.add_assoc, A0, A1, A2, A3, B0, B1, B2, B3, P0, P1, P2, P3, C.pa, C.pb, pq]
  · simp [upd, Nat.add_assoc, A0, A1, A2, A3, B0, B1, B2, B3, P0, P1, P2, P3, C.pa, C.pb, pq]
  · simp [upd, Nat.add_assoc, A0, A1, A2, A3, B0, B1, B2, B3, P0, P1, P2, P3, C.pa, C.pb, pq]
  · simp [upd, Nat.add_assoc, A0, A1, A2, A3, B0, B1, B2, B3, P0, P1, P2, P3, C.pa, C.pb, pq]
  · simp [upd, Nat.add_assoc, A0, A1, A2, A3, B0, B1, B2, B3, P0, P1, P2, P3, C.pa, C.pb, pq]
  · simp [upd, Nat.add_assoc, A0, A1, A2, A3, B0, B1, B2, B3, P0, P1, P2, P3, C.pa, C.pb, pq]
  · intro h hh e1 e2 e3
    simp [upd, Nat.add_assoc, n0 hh, n1 hh, e1, e2, e3]
  -- rev
  · simp [upd]
  · simp [upd]
  · simp [upd]
  · simp [upd]
  · simp [upd]
  · simp [upd]
  · intro h hh
    simp [upd, Nat.add_assoc, n0 hh, n1 hh]
  -- src
  · simp [upd, Nat.add_assoc, A2, A3, B2, B3]
  · simp [upd, Nat.add_assoc, A2, A3, B2, B3]
  · simp [upd, Nat.add_assoc, A2, A3, B2, B3]
  · simp [upd, Nat.add_assoc, A2, A3, B2, B3]
  · simp [upd, Nat.add_assoc, A2, A3, B2, B3]
  · simp [upd, Nat.add_assoc, A2, A3, B2, B3]
  · intro h hh
    by_cases ea : h = a
    · simp [ea, upd, Nat.add_assoc, A0, A1, pq]
    · by_cases eb : h = b
      · simp [eb, upd, Nat.add_assoc, B0, B1]
      · simp [upd, Nat.add_assoc, n0 hh, n1 hh, ea, eb]
  -- face
  · simp [upd, Nat.add_assoc, A0, A1, A2, A3, B0, B1, B2, B3, pq]
  · simp [upd, Nat.add_assoc, A0, A1, A2, A3, B0, B1, B2, B3, pq]
  · simp [upd, Nat.add_assoc, A0, A1, A2, A3, B0, B1, B2, B3, pq]
  · simp [upd, Nat.add_assoc, A0, A1, A2, A3, B0, B1, B2, B3, pq]
  · simp [upd, Nat.add_assoc, A0, A1, A2, A3, B0, B1, B2, B3, pq]
  · simp [upd, Nat.add_assoc, A0, A1, A2, A3, B0, B1, B2, B3, pq]
  · simp [upd, Nat.add_assoc, A0, A1, A2, A3, B0, B1, B2, B3, pq]
  · simp [upd, Nat.add_assoc, A0, A1, A2, A3, B0, B1, B2, B3, pq]
  · intro h hh e1 e2
    simp [upd, Nat.add_assoc, n0 hh, n1 hh, e1, e2]
  -- vertices and faces
  · intro v; simp [upd]
  · simp [upd]
  · intro v hv; simp [upd, hv]
  · intro g
    simp only [Mesh.tri_fAlive, Mesh.allocH_fAlive, Mesh.midSide_fAlive, Mesh.allocH_fFresh, Mesh.tri_fFresh, Mesh.midSide_fFresh,
      Mesh.allocV_fAlive, Mesh.allocV_fFresh, upd]
    repeat' split
    all_goals simp_all
  · simp [upd, gl2]
  · simp [upd, gl3]
  · simp [upd]
  · intro g ag eg
    have h1 := (w.fBound g ag).2
    simp [upd, eg, h1.ne, (show g ≠ m.fFresh + 1 by omega)]

theorem midMesh_grow (w : m.WF) (af : m.fAlive f = true) (C : Corner m f hs pp prev i next qq p a b q) : Grow m (m.midMesh f p a b q x) f := by
  have T := midMesh_tab (x := x) w af C
  have hp := w.heap af
  have L' := w.links_ok.mid T (fun h ah => (w.hBound h ah).2) (fun h ah => (w.vBound h ah).2) (fun h ah => (w.fBound h ah).2)
    C.ap C.aa C.ab C.aq C.fa C.np C.na C.nb C.pa C.pb C.pq.2.2
  have H' : (m.midMesh f p a b q x).Heap := by
    unfold Mesh.midMesh Mesh.midTwo
    exact ((((((((((hp.midSide p q _ x).allocH).allocH).tri _ _ _ _ _ _).allocH).allocH).tri _ _ _ _ _ _).midEnd _ _ _).pairUp _ _).pairUp _ _).pairUp _ _
  have fl := (w.fBound _ af).2
  refine ⟨H'.wf L', ?_, ?_, ?_, ?_, ?_, ?_, ?_, ?_, ?_, ?_, fun h ah => T.rvo ah, ?_⟩
  · intro h ah
    exact ⟨(T.al h).2 (by simp [show m.links.hA h = true from ah]), T.sro ah⟩
  · intro h ah hf
    have h1 : h ≠ p := fun e => hf (e ▸ C.fp)
    have h2 : h ≠ a := fun e => hf (e ▸ C.fa)
    have h3 : h ≠ b := fun e => hf (e ▸ C.fb)
    exact ⟨T.nxo ah h1 h2 h3, T.fco ah h2 h3⟩
  · intro h ah hf
    have na : (m.midMesh f p a b q x).hNext a = _ := T.nxa
    have nb : (m.midMesh f p a b q x).hNext b = _ := T.nxb
    have n2 : (m.midMesh f p a b q x).hNext (m.hFresh + 2) = _ := T.nx2
    have n3 : (m.midMesh f p a b q x).hNext (m.hFresh + 3) = _ := T.nx3
    have n4 : (m.midMesh f p a b q x).hNext (m.hFresh + 4) = _ := T.nx4
    have n5 : (m.midMesh f p a b q x).hNext (m.hFresh + 5) = _ := T.nx5
    have on : ∀ {y}, m.fFresh ≤ (m.midMesh f p a b q x).links.fc y → y = a ∨ y = b ∨ y = m.hFresh + 2 ∨ y = m.hFresh + 3 ∨ y = m.hFresh + 4 ∨ y = m.hFresh + 5 →
        m.fFresh ≤ (m.midMesh f p a b q x).hFace y ∧ (m.midMesh f p a b q x).OnTri y ∧ (m.midMesh f p a b q x).hNext y ≠ y := by
      intro y fy hy
      have al := (w.hBound _ C.aa).2
      have bl := (w.hBound _ C.ab).2
      have ab := C.pq.2.2
      refine ⟨fy, ?_, ?_⟩
      · unfold Mesh.OnTri
        rcases hy with rfl | rfl | rfl | rfl | rfl | rfl <;> simp [na, nb, n2, n3, n4, n5]
      · rcases hy with e | e | e | e | e | e <;> rw [e] <;> simp only [na, nb, n2, n3, n4, n5] <;> omega
    rcases (T.al h).1 ah with e | e | e | e | e | e | e
    · subst e; exact absurd T.fc0 hf
    · subst e; exact absurd T.fc1 hf
    · subst e; exact .inr (on (by rw [T.fc2]) (by simp))
    · subst e; exact .inr (on (by rw [T.fc3]) (by simp))
    · subst e; exact .inr (on (by rw [T.fc4]; omega) (by simp))
    · subst e; exact .inr (on (by rw [T.fc5]; omega) (by simp))
    · by_cases e1 : h = a
      · subst e1; exact .inr (on (by rw [T.fca]) (by simp))
      · by_cases e2 : h = b
        · subst e2; exact .inr (on (by rw [T.fcb]; omega) (by simp))
        · exact .inl ⟨e, (T.fco e e1 e2).symm⟩
  · intro h ah hf
    have hf : (m.midMesh f p a b q x).links.fc h = f := hf
    show m.vFresh ≤ (m.midMesh f p a b q x).links.sr h ∨ ∃ h0, m.hAlive h0 = true ∧ m.hFace h0 = f ∧ m.hSrc h0 = (m.midMesh f p a b q x).links.sr h
    rcases (T.al h).1 ah with e | e | e | e | e | e | e
    · exact .inr ⟨a, C.aa, C.fa, by rw [e, T.sr0]; rfl⟩
    · exact .inl (by rw [e, T.sr1])
    · rw [e, T.fc2] at hf; omega
    · rw [e, T.fc3] at hf; omega
    · rw [e, T.fc4] at hf; omega
    · rw [e, T.fc5] at hf; omega
    · by_cases e1 : h = a
      · rw [e1, T.fca] at hf; omega
      · by_cases e2 : h = b
        · rw [e2, T.fcb] at hf; omega
        · exact .inr ⟨h, e, (T.fco e e1 e2).symm.trans hf, (T.sro e).symm⟩
  · intro v av
    have hv := (w.vBound v av).2.ne
    exact ⟨(T.va v).2 (.inr av), by simp [Mesh.midMesh, Mesh.midTwo, upd, hv], by simp [Mesh.midMesh, Mesh.midTwo, upd, hv]⟩
  · intro v av hv
    rcases (T.va v).1 av with e | e
    · simp [Mesh.midMesh, Mesh.midTwo, upd, e]
    · have := hp.vb v e; omega
  · intro g ag
    exact (T.fa g).2 (by simp [show m.links.fA g = true from ag])
  · show m.hFresh ≤ m.hFresh + 1 + 1 + 1 + 1 + 1 + 1
    omega
  · show m.vFresh ≤ m.vFresh + 1
    omega
  · show m.fFresh ≤ m.fFresh + 1 + 1
    omega
  · intro h ah
    have old : ∀ {y}, m.hAlive y = true → m.hFace y = f → (m.midMesh f p a b q x).links.sr h = m.links.sr y →
        m.hAlive h = true ∨ m.vFresh ≤ (m.midMesh f p a b q x).hSrc h ∨ ∃ h0, m.hAlive h0 = true ∧ m.hFace h0 = f ∧ m.hSrc h0 = (m.midMesh f p a b q x).hSrc h :=
      fun ay fy e => .inr (.inr ⟨_, ay, fy, e.symm⟩)
    have new : m.vFresh ≤ (m.midMesh f p a b q x).links.sr h →
        m.hAlive h = true ∨ m.vFresh ≤ (m.midMesh f p a b q x).hSrc h ∨ ∃ h0, m.hAlive h0 = true ∧ m.hFace h0 = f ∧ m.hSrc h0 = (m.midMesh f p a b q x).hSrc h :=
      fun e => .inr (.inl e)
    rcases (T.al h).1 ah with e | e | e | e | e | e | e
    · exact old C.aa C.fa (by rw [e, T.sr0])
    · exact new (by rw [e, T.sr1])
    · exact old C.ab C.fb (by rw [e, T.sr2])
    · exact new (by rw [e, T.sr3])
    · exact new (by rw [e, T.sr4])
    · exact old C.aq C.fq (by rw [e, T.sr5])
    · exact .inl e

/-- the sides of the hole after a round -/
theorem midMesh_front (w : m.WF) (af : m.fAlive f = true) (C : Corner m f hs pp prev i next qq p a b q) (h : Nat) :
    ((m.midMesh f p a b q x).hAlive h = true ∧ (m.midMesh f p a b q x).hFace h = f) ↔
      h = m.hFresh ∨ h = m.hFresh + 1 ∨ (m.hAlive h = true ∧ m.hFace h = f ∧ h ≠ a ∧ h ≠ b) := by
  have T := midMesh_tab (x := x) w af C
  have fl := (w.fBound _ af).2
  constructor
  · rintro ⟨ah, hf⟩
    have hf : (m.midMesh f p a b q x).links.fc h = f := hf
    rcases (T.al h).1 ah with e | e | e | e | e | e | e
    · exact .inl e
    · exact .inr (.inl e)
    · rw [e, T.fc2] at hf; omega
    · rw [e, T.fc3] at hf; omega
    · rw [e, T.fc4] at hf; omega
    · rw [e, T.fc5] at hf; omega
    · have n1 : h ≠ a := by
        intro e1; rw [e1, T.fca] at hf; omega
      have n2 : h ≠ b := by
        intro e1; rw [e1, T.fcb] at hf; omega
      exact .inr (.inr ⟨e, (T.fco e n1 n2).symm.trans hf, n1, n2⟩)
  · rintro (e | e | ⟨e, hf, n1, n2⟩)
    · subst e; exact ⟨(T.al _).2 (by simp), T.fc0⟩
    · subst e; exact ⟨(T.al _).2 (by simp), T.fc1⟩
    · exact ⟨(T.al _).2 (by simp [show m.links.hA h = true from e]), (T.fco e n1 n2).trans hf⟩

end
end TinyMesh
