import Verif.Proof.FrontI
/-
The mesh after a round that adds two vertices and three triangles.
-/
namespace TinyMesh
open Orbit
variable {F : Type} {m : Mesh F}

/-- the links after a round that adds two vertices and three triangles, as a table -/
structure Links.WideTab (L L' : Links) (f p a b q H V G : Nat) : Prop where
  al : ∀ h, L'.hA h = true ↔ h = H ∨ h = H + 1 ∨ h = H + 2 ∨ h = H + 3 ∨ h = H + 4 ∨ h = H + 5 ∨ h = H + 6 ∨ h = H + 7 ∨ h = H + 8 ∨ h = H + 9 ∨ L.hA h = true
  nxp : L'.nx p = H
  nxa : L'.nx a = H + 3
  nxb : L'.nx b = H + 9
  nx0 : L'.nx H = H + 1
  nx1 : L'.nx (H + 1) = H + 2
  nx2 : L'.nx (H + 2) = q
  nx3 : L'.nx (H + 3) = H + 4
  nx4 : L'.nx (H + 4) = a
  nx5 : L'.nx (H + 5) = H + 6
  nx6 : L'.nx (H + 6) = H + 7
  nx7 : L'.nx (H + 7) = H + 5
  nx8 : L'.nx (H + 8) = b
  nx9 : L'.nx (H + 9) = H + 8
  nxo : ∀ {h}, L.hA h = true → h ≠ p → h ≠ a → h ≠ b → L'.nx h = L.nx h
  rv0 : L'.rv H = H + 4
  rv1 : L'.rv (H + 1) = H + 7
  rv2 : L'.rv (H + 2) = H + 9
  rv3 : L'.rv (H + 3) = H + 5
  rv4 : L'.rv (H + 4) = H
  rv5 : L'.rv (H + 5) = H + 3
  rv6 : L'.rv (H + 6) = H + 8
  rv7 : L'.rv (H + 7) = H + 1
  rv8 : L'.rv (H + 8) = H + 6
  rv9 : L'.rv (H + 9) = H + 2
  rvo : ∀ {h}, L.hA h = true → L'.rv h = L.rv h
  sr0 : L'.sr H = L.sr a
  sr1 : L'.sr (H + 1) = V
  sr2 : L'.sr (H + 2) = V + 1
  sr3 : L'.sr (H + 3) = L.sr b
  sr4 : L'.sr (H + 4) = V
  sr5 : L'.sr (H + 5) = V
  sr6 : L'.sr (H + 6) = L.sr b
  sr7 : L'.sr (H + 7) = V + 1
  sr8 : L'.sr (H + 8) = V + 1
  sr9 : L'.sr (H + 9) = L.sr q
  sro : ∀ {h}, L.hA h = true → L'.sr h = L.sr h
  fca : L'.fc a = G
  fcb : L'.fc b = G + 2
  fc0 : L'.fc H = f
  fc1 : L'.fc (H + 1) = f
  fc2 : L'.fc (H + 2) = f
  fc3 : L'.fc (H + 3) = G
  fc4 : L'.fc (H + 4) = G
  fc5 : L'.fc (H + 5) = G + 1
  fc6 : L'.fc (H + 6) = G + 1
  fc7 : L'.fc (H + 7) = G + 1
  fc8 : L'.fc (H + 8) = G + 2
  fc9 : L'.fc (H + 9) = G + 2
  fco : ∀ {h}, L.hA h = true → h ≠ a → h ≠ b → L'.fc h = L.fc h
  va : ∀ v, L'.vA v = true ↔ v = V + 1 ∨ v = V ∨ L.vA v = true
  vhV : L'.vh V = H + 1
  vhV1 : L'.vh (V + 1) = H + 2
  vho : ∀ {v}, v ≠ V → v ≠ V + 1 → L'.vh v = L.vh v
  fa : ∀ g, L'.fA g = true ↔ g = G ∨ g = G + 1 ∨ g = G + 2 ∨ L.fA g = true
  fhG : L'.fh G = a
  fhG1 : L'.fh (G + 1) = H + 5
  fhG2 : L'.fh (G + 2) = H + 8
  fhf : L'.fh f = H
  fho : ∀ {g}, L.fA g = true → g ≠ f → L'.fh g = L.fh g

theorem Bool.dead {b : Bool} (h : b = true → False) : b = false := by
  cases b
  · rfl
  · exact absurd rfl h

set_option maxHeartbeats 1000000 in
theorem Links.Ok.wide {L L' : Links} (K : L.Ok) {f p a b q H V G : Nat} (T : L.WideTab L' f p a b q H V G)
    (hH : ∀ h, L.hA h = true → h < H) (hV : ∀ v, L.vA v = true → v < V) (hG : ∀ g, L.fA g = true → g < G)
    (ap : L.hA p = true) (aa : L.hA a = true) (ab : L.hA b = true) (aq : L.hA q = true) (fa : L.fc a = f)
    (np : L.nx p = a) (na : L.nx a = b) (nb : L.nx b = q) (pa : p ≠ a) (pb : p ≠ b) (eab : a ≠ b) : L'.Ok := by
  have hd : ∀ k, L.hA (H + k) = false := fun k => Bool.dead fun e => by have := hH _ e; omega
  have pl := hH _ ap
  have al := hH _ aa
  have bl := hH _ ab
  have ql := hH _ aq
  have af : L.fA f = true := fa ▸ K.face_alive a aa
  have fl := hG _ af
  have hdV : L.vA V = false := Bool.dead fun e => by have := hV _ e; omega
  obtain ⟨L1, hL1⟩ : ∃ X, L.mev a (H + 3) (H + 5) V = X := ⟨_, rfl⟩
  have R1 := Links.mev_rel (L := L) (a := a) (C := H + 3) (C' := H + 5) (x := V) aa (hd _) (hd _) (by omega) hdV
  have f1 : L1.fh = L.fh := by rw [← hL1]; rfl
  rw [hL1] at R1
  have K1 := K.mev R1 aa (hd _) (hd _) (by omega) hdV
  have o1 : ∀ {h}, L.hA h = true → L1.hA h = true := fun e => (R1.al _).2 (.inr (.inr e))
  have fa1 : L1.fc a = f := (R1.fco aa).trans fa
  have h3 : L1.hA (H + 3) = true := (R1.al _).2 (.inl rfl)
  have h5 : L1.hA (H + 5) = true := (R1.al _).2 (.inr (.inl rfl))
  have d1 : ∀ k, k ≠ 3 → k ≠ 5 → L1.hA (H + k) = false := fun k e1 e2 => Bool.dead fun h => by
    rcases (R1.al _).1 h with e | e | e
    · omega
    · omega
    · have := hH _ e; omega
  have dg : ∀ k, L1.fA (G + k) = false := fun k => Bool.dead fun h => by have := hG _ ((R1.fa _).1 h); omega
  obtain ⟨L2, hL2⟩ : ∃ X, L1.ear p a (H + 3) (H + 5) H (H + 4) G = X := ⟨_, rfl⟩
  have R2 := Links.ear_rel (L := L1) (p := p) (a := a) (b := H + 3) (q := H + 5) (A := H) (B := H + 4) (g := G) K1 (o1 ap) (o1 aa) h3
    (by rw [fa1]; exact (R1.fa _).2 af) (by omega) (by omega) (d1 0 (by omega) (by omega)) (d1 4 (by omega) (by omega)) (by omega) (dg 0)
  have fh2 : L2.fh f = H ∧ L2.fh G = a ∧ ∀ g, g ≠ f → g ≠ G → L2.fh g = L.fh g := by
    rw [← hL2]
    have e : f ≠ G := by omega
    simp only [Links.ear, fa1]
    exact ⟨by rw [upd_ne _ _ e, upd_same], upd_same _ _ _, fun g e1 e2 => by rw [upd_ne _ _ e2, upd_ne _ _ e1, f1]⟩
  rw [hL2] at R2
  have np1 : L1.nx p = a := (R1.nxo ap pa).trans np
  have K2 := K1.ear R2 (o1 ap) np1 R1.nxa R1.nxC pa (by omega) (d1 0 (by omega) (by omega)) (d1 4 (by omega) (by omega)) (by omega) (dg 0)
  have al2 : ∀ h, L2.hA h = true ↔ h = H ∨ h = H + 4 ∨ h = H + 3 ∨ h = H + 5 ∨ L.hA h = true := fun h => by rw [R2.al, R1.al]
  have o2 : ∀ {h}, L.hA h = true → L2.hA h = true := fun e => (al2 _).2 (by simp [e])
  have fa2 : ∀ g, L2.fA g = true ↔ g = G ∨ L.fA g = true := fun g => by rw [R2.fa, R1.fa]
  have h25 : L2.hA (H + 5) = true := (al2 _).2 (by simp)
  have h20 : L2.hA H = true := (al2 _).2 (by simp)
  have fc5 : L2.fc (H + 5) = f := by rw [R2.fco h5 (by omega) (by omega), R1.fcC', fa]
  have sr5 : L2.sr (H + 5) = V := by rw [R2.sro h5, R1.srC']
  have nx5 : L2.nx (H + 5) = b := by rw [R2.nxo h5 (by omega) (by omega), R1.nxC', na]
  have d2 : ∀ k, k ≠ 0 → k ≠ 4 → k ≠ 3 → k ≠ 5 → L2.hA (H + k) = false := fun k e1 e2 e3 e4 => Bool.dead fun h => by
    rcases (al2 _).1 h with e | e | e | e | e
    · omega
    · omega
    · omega
    · omega
    · have := hH _ e; omega
  have dV2 : L2.vA (V + 1) = false := Bool.dead fun h => by
    rcases (R1.va _).1 ((R2.va _).1 h) with e | e
    · omega
    · have := hV _ e; omega
  obtain ⟨L3, hL3⟩ : ∃ X, L2.mev (H + 5) (H + 6) (H + 8) (V + 1) = X := ⟨_, rfl⟩
  have R3 := Links.mev_rel (L := L2) (a := H + 5) (C := H + 6) (C' := H + 8) (x := V + 1) h25
    (d2 6 (by omega) (by omega) (by omega) (by omega)) (d2 8 (by omega) (by omega) (by omega) (by omega)) (by omega) dV2
  have f3 : L3.fh = L2.fh := by rw [← hL3]; rfl
  rw [hL3] at R3
  have K3 := K2.mev R3 h25 (d2 6 (by omega) (by omega) (by omega) (by omega)) (d2 8 (by omega) (by omega) (by omega) (by omega)) (by omega) dV2
  have o3 : ∀ {h}, L2.hA h = true → L3.hA h = true := fun e => (R3.al _).2 (.inr (.inr e))
  have h36 : L3.hA (H + 6) = true := (R3.al _).2 (by simp)
  have h38 : L3.hA (H + 8) = true := (R3.al _).2 (by simp)
  have d3 : ∀ k, k ≠ 0 → k ≠ 4 → k ≠ 3 → k ≠ 5 → k ≠ 6 → k ≠ 8 → L3.hA (H + k) = false := fun k e1 e2 e3 e4 e5 e6 => Bool.dead fun h => by
    rcases (R3.al _).1 h with e | e | e
    · omega
    · omega
    · rw [d2 k e1 e2 e3 e4] at e; exact absurd e (by simp)
  have fc35 : L3.fc (H + 5) = f := (R3.fco h25).trans fc5
  have dg3 : ∀ k, k ≠ 0 → L3.fA (G + k) = false := fun k e0 => Bool.dead fun h => by
    rcases (fa2 _).1 ((R3.fa _).1 h) with e | e
    · omega
    · have := hG _ e; omega
  obtain ⟨L4, hL4⟩ : ∃ X, L3.ear H (H + 5) (H + 6) (H + 8) (H + 1) (H + 7) (G + 1) = X := ⟨_, rfl⟩
  have R4 := Links.ear_rel (L := L3) (p := H) (a := H + 5) (b := H + 6) (q := H + 8) (A := H + 1) (B := H + 7) (g := G + 1) K3 (o3 h20) (o3 h25) h36
    (by rw [fc35]; exact (R3.fa _).2 ((fa2 _).2 (.inr af))) (by omega) (by omega) (d3 1 (by omega) (by omega) (by omega) (by omega) (by omega) (by omega))
    (d3 7 (by omega) (by omega) (by omega) (by omega) (by omega) (by omega)) (by omega) (dg3 1 (by omega))
  have fh4 : L4.fh (G + 1) = H + 5 ∧ L4.fh G = a ∧ ∀ g, g ≠ f → g ≠ G → g ≠ G + 1 → L4.fh g = L.fh g := by
    rw [← hL4]
    have e : f ≠ G := by omega
    simp only [Links.ear, fc35]
    exact ⟨upd_same _ _ _, by rw [upd_ne _ _ (by omega), upd_ne _ _ e.symm, f3, fh2.2.1], fun g e1 e2 e3 => by
      rw [upd_ne _ _ e3, upd_ne _ _ e1, f3, fh2.2.2 g e1 e2]⟩
  rw [hL4] at R4
  have np3 : L3.nx H = H + 5 := by rw [R3.nxo h20 (by omega), R2.nxA]
  have K4 := K3.ear R4 (o3 h20) np3 R3.nxa R3.nxC (by omega) (by omega) (d3 1 (by omega) (by omega) (by omega) (by omega) (by omega) (by omega))
    (d3 7 (by omega) (by omega) (by omega) (by omega) (by omega) (by omega)) (by omega) (dg3 1 (by omega))
  have o4 : ∀ {h}, L3.hA h = true → L4.hA h = true := fun e => (R4.al _).2 (.inr (.inr e))
  have al4 : ∀ h, L4.hA h = true ↔ h = H + 1 ∨ h = H + 7 ∨ h = H + 6 ∨ h = H + 8 ∨ h = H ∨ h = H + 4 ∨ h = H + 3 ∨ h = H + 5 ∨ L.hA h = true :=
    fun h => by rw [R4.al, R3.al, al2]
  have fa4 : ∀ g, L4.fA g = true ↔ g = G + 1 ∨ g = G ∨ L.fA g = true := fun g => by rw [R4.fa, R3.fa, fa2]
  have h48 : L4.hA (H + 8) = true := o4 h38
  have fc48 : L4.fc (H + 8) = f := by rw [R4.fco h38 (by omega) (by omega), R3.fcC', fc5]
  have sr48 : L4.sr (H + 8) = V + 1 := by rw [R4.sro h38, R3.srC']
  have nx48 : L4.nx (H + 8) = b := by rw [R4.nxo h38 (by omega) (by omega), R3.nxC', nx5]
  have h23 : L2.hA (H + 3) = true := (al2 _).2 (by simp)
  have h24 : L2.hA (H + 4) = true := (al2 _).2 (by simp)
  have R5 : L4.Ear L' (H + 1) (H + 8) b q (H + 2) (H + 9) (G + 2) := by
    constructor
    · intro h; rw [T.al, al4]; tauto
    · exact T.nx1
    · exact T.nx2
    · exact T.nxb
    · exact T.nx9
    · intro h hh e1 e2
      rcases (al4 h).1 hh with e | e | e | e | e | e | e | e | e
      · exact absurd e e1
      · rw [e, T.nx7, R4.nxB]
      · rw [e, T.nx6, R4.nxb]
      · rw [e, T.nx8, nx48]
      · rw [e, T.nx0, R4.nxp]
      · rw [e, T.nx4, R4.nxo (o3 h24) (by omega) (by omega), R3.nxo h24 (by omega), R2.nxB]
      · rw [e, T.nx3, R4.nxo (o3 h23) (by omega) (by omega), R3.nxo h23 (by omega), R2.nxb]
      · rw [e, T.nx5, R4.nxo (o3 h25) (by omega) (by omega), R3.nxa]
      · have hl := hH _ e
        rw [R4.nxo (o3 (o2 e)) (by omega) (by omega), R3.nxo (o2 e) (by omega)]
        by_cases c1 : h = p
        · rw [c1, T.nxp, R2.nxp]
        · rw [R2.nxo (o1 e) c1 (by omega)]
          by_cases c2 : h = a
          · rw [c2, T.nxa, R1.nxa]
          · rw [T.nxo e c1 c2 e2, R1.nxo e c2]
    · exact T.rv2
    · exact T.rv9
    · intro h hh
      rcases (al4 h).1 hh with e | e | e | e | e | e | e | e | e
      · rw [e, T.rv1, R4.rvA]
      · rw [e, T.rv7, R4.rvB]
      · rw [e, T.rv6, R4.rvo h36, R3.rvC]
      · rw [e, T.rv8, R4.rvo h38, R3.rvC']
      · rw [e, T.rv0, R4.rvo (o3 h20), R3.rvo h20, R2.rvA]
      · rw [e, T.rv4, R4.rvo (o3 h24), R3.rvo h24, R2.rvB]
      · rw [e, T.rv3, R4.rvo (o3 h23), R3.rvo h23, R2.rvo h3, R1.rvC]
      · rw [e, T.rv5, R4.rvo (o3 h25), R3.rvo h25, R2.rvo h5, R1.rvC']
      · rw [T.rvo e, R4.rvo (o3 (o2 e)), R3.rvo (o2 e), R2.rvo (o1 e), R1.rvo e]
    · rw [T.sr2, sr48]
    · rw [T.sr9, R4.sro (o3 (o2 aq)), R3.sro (o2 aq), R2.sro (o1 aq), R1.sro aq]
    · intro h hh
      rcases (al4 h).1 hh with e | e | e | e | e | e | e | e | e
      · rw [e, T.sr1, R4.srA, R3.sro h25, sr5]
      · rw [e, T.sr7, R4.srB, R3.srC']
      · rw [e, T.sr6, R4.sro h36, R3.srC, nx5, R2.sro (o1 ab), R1.sro ab]
      · rw [e, T.sr8, sr48]
      · rw [e, T.sr0, R4.sro (o3 h20), R3.sro h20, R2.srA, R1.sro aa]
      · rw [e, T.sr4, R4.sro (o3 h24), R3.sro h24, R2.srB, R1.srC']
      · rw [e, T.sr3, R4.sro (o3 h23), R3.sro h23, R2.sro h3, R1.srC, na]
      · rw [e, T.sr5, R4.sro (o3 h25), R3.sro h25, sr5]
      · rw [T.sro e, R4.sro (o3 (o2 e)), R3.sro (o2 e), R2.sro (o1 e), R1.sro e]
    · rw [T.fc2, fc48]
    · exact T.fc9
    · exact T.fc8
    · exact T.fcb
    · intro h hh e1 e2
      rcases (al4 h).1 hh with e | e | e | e | e | e | e | e | e
      · rw [e, T.fc1, R4.fcA, fc35]
      · rw [e, T.fc7, R4.fcB]
      · rw [e, T.fc6, R4.fcb]
      · exact absurd e e1
      · rw [e, T.fc0, R4.fco (o3 h20) (by omega) (by omega), R3.fco h20, R2.fcA, fa1]
      · rw [e, T.fc4, R4.fco (o3 h24) (by omega) (by omega), R3.fco h24, R2.fcB]
      · rw [e, T.fc3, R4.fco (o3 h23) (by omega) (by omega), R3.fco h23, R2.fcb]
      · rw [e, T.fc5, R4.fca]
      · have hl := hH _ e
        rw [R4.fco (o3 (o2 e)) (by omega) (by omega), R3.fco (o2 e)]
        by_cases c2 : h = a
        · rw [c2, T.fca, R2.fca]
        · rw [T.fco e c2 e2, R2.fco (o1 e) c2 (by omega), R1.fco e]
    · intro v; rw [T.va, R4.va, R3.va, R2.va, R1.va]
    · intro v av
      by_cases ev : v = V
      · rw [ev, T.vhV, T.sr1]; exact ⟨(T.al _).2 (by simp), rfl⟩
      · by_cases ev' : v = V + 1
        · rw [ev', T.vhV1, T.sr2]; exact ⟨(T.al _).2 (by simp), rfl⟩
        · rw [T.vho ev ev']
          rcases (T.va v).1 av with e | e | e
          · exact absurd e ev'
          · exact absurd e ev
          · have := K.vHe_ok v e
            exact ⟨(T.al _).2 (by simp [this.1]), by rw [T.sro this.1, this.2]⟩
    · intro g; rw [T.fa, fa4]; tauto
    · rw [T.fhG2, T.fc8]; exact ⟨(T.al _).2 (by simp), rfl⟩
    · rw [fc48, T.fhf, T.fc0]; exact ⟨(T.al _).2 (by simp), rfl⟩
    · intro g ag eg
      rw [fc48] at eg
      rcases (fa4 g).1 ag with e | e | e
      · rw [e, T.fhG1, fh4.1]
      · rw [e, T.fhG, fh4.2.1]
      · have := hG _ e
        rw [T.fho e eg, fh4.2.2 g eg (by omega) (by omega)]
  have d4 : ∀ k, k = 2 ∨ k = 9 → L4.hA (H + k) = false := fun k e0 => Bool.dead fun h => by
    rcases (R4.al _).1 h with e | e | e
    · omega
    · omega
    · rw [d3 k (by omega) (by omega) (by omega) (by omega) (by omega) (by omega)] at e; exact absurd e (by simp)
  have dg4 : L4.fA (G + 2) = false := Bool.dead fun h => by
    rcases (fa4 _).1 h with e | e | e
    · omega
    · omega
    · have := hG _ e; omega
  exact K4.ear R5 ((al4 _).2 (.inl rfl)) R4.nxA nx48
    (by rw [R4.nxo (o3 (o2 ab)) (by omega) (by omega), R3.nxo (o2 ab) (by omega), R2.nxo (o1 ab) (Ne.symm pb) (by omega), R1.nxo ab (Ne.symm eab), nb])
    (by omega) (by omega) (d4 2 (by omega)) (d4 9 (by omega)) (by omega) dg4

section
variable {f : Nat} {hs : List Nat} {pp prev i next qq p a b q : Nat} {x y : Vec3 F}

set_option maxHeartbeats 1000000 in
theorem wideMesh_tab (w : m.WF) (af : m.fAlive f = true) (C : Corner m f hs pp prev i next qq p a b q) :
    m.links.WideTab (m.wideMesh f p a b q x y).links f p a b q m.hFresh m.vFresh m.fFresh := by
  have lt : ∀ {h}, m.hAlive h = true → h < m.hFresh := fun a => (w.hBound _ a).2
  have gl := (w.fBound _ af).2
  have pq := C.pq
  have n0 : ∀ {h}, m.hAlive h = true → h ≠ m.hFresh := fun a => by have := lt a; omega
  have n1 : ∀ {h}, m.hAlive h = true → ∀ k, h ≠ m.hFresh + k := fun a k => by have := lt a; omega
  have n0' : ∀ {h}, m.hAlive h = true → m.hFresh ≠ h := fun a => by have := lt a; omega
  have n1' : ∀ {h}, m.hAlive h = true → ∀ k, m.hFresh + k ≠ h := fun a k => by have := lt a; omega
  have A0 := n0 C.aa
  have A1 := n1 C.aa
  have A2 := n0' C.aa
  have A3 := n1' C.aa
  have B0 := n0 C.ab
  have B1 := n1 C.ab
  have B2 := n0' C.ab
  have B3 := n1' C.ab
  have P0 := n0 C.ap
  have P1 := n1 C.ap
  have P2 := n0' C.ap
  have P3 := n1' C.ap
  have Q0 := n0 C.aq
  have Q1 := n1 C.aq
  have gl1 := gl.ne
  have gl2 := gl.ne'
  have gl3 : m.fFresh + 1 ≠ f := by omega
  have gl4 : m.fFresh + 2 ≠ f := by omega
  constructor
  · intro h
    simp only [Mesh.links, Mesh.wideMesh, Mesh.wideTwo, Mesh.pairUp_hAlive, Mesh.wideEnd_hAlive, Mesh.tri_hAlive, Mesh.allocH_hAlive, Mesh.wideSide_hAlive, upd,
      Mesh.wideSide_hFresh, Mesh.allocH_hFresh, Mesh.tri_hFresh, Mesh.allocV_hFresh, Mesh.allocV_hAlive, Nat.add_assoc, Nat.reduceAdd]
    repeat' split
    all_goals simp_all
  all_goals simp only [Mesh.links, Mesh.wideMesh, Mesh.wideTwo, Mesh.pairUp_hNext, Mesh.pairUp_hRev, Mesh.pairUp_hSrc, Mesh.pairUp_hFace,
    Mesh.pairUp_vAlive, Mesh.pairUp_vHe, Mesh.pairUp_fAlive, Mesh.pairUp_fHe, Mesh.wideEnd_hNext, Mesh.wideEnd_hRev, Mesh.wideEnd_hSrc, Mesh.wideEnd_hFace,
    Mesh.wideEnd_vAlive, Mesh.wideEnd_vHe, Mesh.wideEnd_fAlive, Mesh.wideEnd_fHe]
  -- next
  · simp [upd, Nat.add_assoc, A0, A1, A2, A3, B0, B1, B2, B3, P0, P1, P2, P3, C.pa, C.pb, pq]
  · simp [upd, Nat.add_assoc, A0, A1, A2, A3, B0, B1, B2, B3, P0, P1, P2, P3, C.pa, C.pb, pq]
  · simp [upd, Nat.add_assoc, A0, A1, A2, A3, B0, B1, B2, B3, P0, P1, P2, P3, C.pa, C.pb, pq]
  · simp [upd, Nat.add_assoc, A0, A1, A2, A3, B0, B1, B2, B3, P0, P1, P2, P3, C.pa, C.pb, pq]
  · simp [upd, Nat.add_assoc, A0, A1, A2, A3, B0, B1, B2, B3, P0, P1, P2, P3, C.pa, C.pb, pq]
  · simp [upd, Nat.add_assoc, A0, A1, A2, A3, B0, B1, B2, B3, P0, P1, P2, P3, C.pa, C.pb, pq]
  · simp [upd, Nat.add_assoc, A0, A1, A2, A3, B0, B1, B2, B3, P0, P1, P2, P3, C.pa, C.pb, pq]
  · simp [upd, Nat.add_assoc, A0, A1, A2, A3, B0, B1, B2, B3, P0, P1, P2, P3, C.pa, C.pb, pq]
  · simp [upd, Nat.add_assoc, A0, A1, A2, A3, B0, B1, B2, B3, P0, P1, P2, P3, C.pa, C.pb, pq]
  · simp [upd, Nat.add_assoc, A0, A1, A2, A3, B0, B1, B2, B3, P0, P1, P2, P3, C.pa, C.pb, pq]
  · simp [upd, Nat.add_assoc, A0, A1, A2, A3, B0, B1, B2, B3, P0, P1, P2, P3, C.pa, C.pb, pq]
  · simp [upd, Nat.add_assoc, A0, A1, A2, A3, B0, B1, B2, B3, P0, P1, P2, P3, C.pa, C.pb, pq]
  · simp [upd, Nat.add_assoc, A0, A1, A2, A3, B0, B1, B2, B3, P0, P1, P2, P3, C.pa, C.pb, pq]
  · intro h hh e1 e2 e3
    simp [upd, Nat.add_assoc, n0 hh, n1 hh, e1, e2, e3]
  -- rev
  · simp [upd]
  · simp [upd]
  · simp [upd]
  · simp [upd]
  · simp [upd]
  · simp [upd]
  · simp [upd]
  · simp [upd]
  · simp [upd]
  · simp [upd]
  · intro h hh
    simp [upd, Nat.add_assoc, n0 hh, n1 hh]
  -- src
  · simp [upd, Nat.add_assoc, A2, A3, B2, B3]
  · simp [upd, Nat.add_assoc, A2, A3, B2, B3]
  · simp [upd, Nat.add_assoc, A2, A3, B2, B3]
  · simp [upd, Nat.add_assoc, A2, A3, B2, B3]
  · simp [upd, Nat.add_assoc, A2, A3, B2, B3]
  · simp [upd, Nat.add_assoc, A2, A3, B2, B3]
  · simp [upd, Nat.add_assoc, A2, A3, B2, B3]
  · simp [upd, Nat.add_assoc, A2, A3, B2, B3]
  · simp [upd, Nat.add_assoc, A2, A3, B2, B3]
  · simp [upd, Nat.add_assoc, A2, A3, B2, B3]
  · intro h hh
    by_cases ea : h = a
    · simp [ea, upd, Nat.add_assoc, A0, A1, pq]
    · by_cases eb : h = b
      · simp [eb, upd, Nat.add_assoc, B0, B1]
      · simp [upd, Nat.add_assoc, n0 hh, n1 hh, ea, eb]
  -- face
  · simp [upd, Nat.add_assoc, A0, A1, A2, A3, B0, B1, B2, B3, pq]
  · simp [upd, Nat.add_assoc, A0, A1, A2, A3, B0, B1, B2, B3, pq]
  · simp [upd, Nat.add_assoc, A0, A1, A2, A3, B0, B1, B2, B3, pq]
  · simp [upd, Nat.add_assoc, A0, A1, A2, A3, B0, B1, B2, B3, pq]
  · simp [upd, Nat.add_assoc, A0, A1, A2, A3, B0, B1, B2, B3, pq]
  · simp [upd, Nat.add_assoc, A0, A1, A2, A3, B0, B1, B2, B3, pq]
  · simp [upd, Nat.add_assoc, A0, A1, A2, A3, B0, B1, B2, B3, pq]
  · simp [upd, Nat.add_assoc, A0, A1, A2, A3, B0, B1, B2, B3, pq]
  · simp [upd, Nat.add_assoc, A0, A1, A2, A3, B0, B1, B2, B3, pq]
  · simp [upd, Nat.add_assoc, A0, A1, A2, A3, B0, B1, B2, B3, pq]
  · simp [upd, Nat.add_assoc, A0, A1, A2, A3, B0, B1, B2, B3, pq]
  · simp [upd, Nat.add_assoc, A0, A1, A2, A3, B0, B1, B2, B3, pq]
  · intro h hh e1 e2
    simp [upd, Nat.add_assoc, n0 hh, n1 hh, e1, e2]
  -- vertices and faces
  · intro v; simp [upd]
  · simp [upd]
  · simp [upd]
  · intro v hv hv'; simp [upd, hv, hv']
  · intro g
    simp only [Mesh.tri_fAlive, Mesh.allocH_fAlive, Mesh.wideSide_fAlive, Mesh.allocH_fFresh, Mesh.tri_fFresh, Mesh.wideSide_fFresh,
      Mesh.allocV_fAlive, Mesh.allocV_fFresh, upd, Nat.add_assoc, Nat.reduceAdd]
    repeat' split
    all_goals simp_all
  · simp [upd, Nat.add_assoc, gl2]
  · simp [upd, Nat.add_assoc, gl3]
  · simp [upd, Nat.add_assoc, gl4]
  · simp [upd]
  · intro g ag eg
    have h1 := (w.fBound g ag).2
    simp [upd, Nat.add_assoc, eg, h1.ne, (show g ≠ m.fFresh + 1 by omega), (show g ≠ m.fFresh + 2 by omega)]

theorem wideMesh_grow (w : m.WF) (af : m.fAlive f = true) (C : Corner m f hs pp prev i next qq p a b q) : Grow m (m.wideMesh f p a b q x y) f := by
  have T := wideMesh_tab (x := x) (y := y) w af C
  have hp := w.heap af
  have L' := w.links_ok.wide T (fun h ah => (w.hBound h ah).2) (fun h ah => (w.vBound h ah).2) (fun h ah => (w.fBound h ah).2)
    C.ap C.aa C.ab C.aq C.fa C.np C.na C.nb C.pa C.pb C.pq.2.2
  have H' : (m.wideMesh f p a b q x y).Heap := by
    unfold Mesh.wideMesh Mesh.wideTwo
    exact ((((((((((((((((hp.wideSide p q _ x y).allocH).allocH).tri _ _ _ _ _ _).allocH).allocH).allocH).tri _ _ _ _ _ _).allocH).allocH).tri _ _ _ _ _ _).wideEnd
      _ _ _ _).pairUp _ _).pairUp _ _).pairUp _ _).pairUp _ _).pairUp _ _
  have fl := (w.fBound _ af).2
  refine ⟨H'.wf L', ?_, ?_, ?_, ?_, ?_, ?_, ?_, ?_, ?_, ?_, fun h ah => T.rvo ah, ?_⟩
  · intro h ah
    exact ⟨(T.al h).2 (by simp [show m.links.hA h = true from ah]), T.sro ah⟩
  · intro h ah hf
    have h1 : h ≠ p := fun e => hf (e ▸ C.fp)
    have h2 : h ≠ a := fun e => hf (e ▸ C.fa)
    have h3 : h ≠ b := fun e => hf (e ▸ C.fb)
    exact ⟨T.nxo ah h1 h2 h3, T.fco ah h2 h3⟩
  · intro h ah hf
    have na : (m.wideMesh f p a b q x y).hNext a = _ := T.nxa
    have nb : (m.wideMesh f p a b q x y).hNext b = _ := T.nxb
    have n3 : (m.wideMesh f p a b q x y).hNext (m.hFresh + 3) = _ := T.nx3
    have n4 : (m.wideMesh f p a b q x y).hNext (m.hFresh + 4) = _ := T.nx4
    have n5 : (m.wideMesh f p a b q x y).hNext (m.hFresh + 5) = _ := T.nx5
    have n6 : (m.wideMesh f p a b q x y).hNext (m.hFresh + 6) = _ := T.nx6
    have n7 : (m.wideMesh f p a b q x y).hNext (m.hFresh + 7) = _ := T.nx7
    have n8 : (m.wideMesh f p a b q x y).hNext (m.hFresh + 8) = _ := T.nx8
    have n9 : (m.wideMesh f p a b q x y).hNext (m.hFresh + 9) = _ := T.nx9
    have on : ∀ {z}, m.fFresh ≤ (m.wideMesh f p a b q x y).links.fc z → z = a ∨ z = b ∨ z = m.hFresh + 3 ∨ z = m.hFresh + 4 ∨ z = m.hFresh + 5 ∨ z = m.hFresh + 6 ∨ z = m.hFresh + 7 ∨ z = m.hFresh + 8 ∨ z = m.hFresh + 9 →
        m.fFresh ≤ (m.wideMesh f p a b q x y).hFace z ∧ (m.wideMesh f p a b q x y).OnTri z ∧ (m.wideMesh f p a b q x y).hNext z ≠ z := by
      intro z fz hz
      have al := (w.hBound _ C.aa).2
      have bl := (w.hBound _ C.ab).2
      have ab := C.pq.2.2
      refine ⟨fz, ?_, ?_⟩
      · unfold Mesh.OnTri
        rcases hz with rfl | rfl | rfl | rfl | rfl | rfl | rfl | rfl | rfl <;> simp [na, nb, n3, n4, n5, n6, n7, n8, n9]
      · rcases hz with e | e | e | e | e | e | e | e | e <;> rw [e] <;> simp only [na, nb, n3, n4, n5, n6, n7, n8, n9] <;> omega
    rcases (T.al h).1 ah with e | e | e | e | e | e | e | e | e | e | e
    · subst e; exact absurd T.fc0 hf
    · subst e; exact absurd T.fc1 hf
    · subst e; exact absurd T.fc2 hf
    · subst e; exact .inr (on (by rw [T.fc3]) (by simp))
    · subst e; exact .inr (on (by rw [T.fc4]) (by simp))
    · subst e; exact .inr (on (by rw [T.fc5]; omega) (by simp))
    · subst e; exact .inr (on (by rw [T.fc6]; omega) (by simp))
    · subst e; exact .inr (on (by rw [T.fc7]; omega) (by simp))
    · subst e; exact .inr (on (by rw [T.fc8]; omega) (by simp))
    · subst e; exact .inr (on (by rw [T.fc9]; omega) (by simp))
    · by_cases e1 : h = a
      · subst e1; exact .inr (on (by rw [T.fca]) (by simp))
      · by_cases e2 : h = b
        · subst e2; exact .inr (on (by rw [T.fcb]; omega) (by simp))
        · exact .inl ⟨e, (T.fco e e1 e2).symm⟩
  · intro h ah hf
    have hf : (m.wideMesh f p a b q x y).links.fc h = f := hf
    show m.vFresh ≤ (m.wideMesh f p a b q x y).links.sr h ∨ ∃ h0, m.hAlive h0 = true ∧ m.hFace h0 = f ∧ m.hSrc h0 = (m.wideMesh f p a b q x y).links.sr h
    rcases (T.al h).1 ah with e | e | e | e | e | e | e | e | e | e | e
    · exact .inr ⟨a, C.aa, C.fa, by rw [e, T.sr0]; rfl⟩
    · exact .inl (by rw [e, T.sr1])
    · exact .inl (by rw [e, T.sr2]; omega)
    · rw [e, T.fc3] at hf; omega
    · rw [e, T.fc4] at hf; omega
    · rw [e, T.fc5] at hf; omega
    · rw [e, T.fc6] at hf; omega
    · rw [e, T.fc7] at hf; omega
    · rw [e, T.fc8] at hf; omega
    · rw [e, T.fc9] at hf; omega
    · by_cases e1 : h = a
      · rw [e1, T.fca] at hf; omega
      · by_cases e2 : h = b
        · rw [e2, T.fcb] at hf; omega
        · exact .inr ⟨h, e, (T.fco e e1 e2).symm.trans hf, (T.sro e).symm⟩
  · intro v av
    have hv := (w.vBound v av).2
    have hv1 := hv.ne
    have hv2 : v ≠ m.vFresh + 1 := by omega
    exact ⟨(T.va v).2 (.inr (.inr av)), by simp [Mesh.wideMesh, Mesh.wideTwo, upd, hv1, hv2], by simp [Mesh.wideMesh, Mesh.wideTwo, upd, hv1, hv2]⟩
  · intro v av hv
    rcases (T.va v).1 av with e | e | e
    · simp [Mesh.wideMesh, Mesh.wideTwo, upd, e]
    · simp [Mesh.wideMesh, Mesh.wideTwo, upd, e]
    · have := hp.vb v e; omega
  · intro g ag
    exact (T.fa g).2 (by simp [show m.links.fA g = true from ag])
  · show m.hFresh ≤ m.hFresh + 1 + 1 + 1 + 1 + 1 + 1 + 1 + 1 + 1 + 1
    omega
  · show m.vFresh ≤ m.vFresh + 1 + 1
    omega
  · show m.fFresh ≤ m.fFresh + 1 + 1 + 1
    omega
  · intro h ah
    have old : ∀ {z}, m.hAlive z = true → m.hFace z = f → (m.wideMesh f p a b q x y).links.sr h = m.links.sr z →
        m.hAlive h = true ∨ m.vFresh ≤ (m.wideMesh f p a b q x y).hSrc h ∨ ∃ h0, m.hAlive h0 = true ∧ m.hFace h0 = f ∧ m.hSrc h0 = (m.wideMesh f p a b q x y).hSrc h :=
      fun ay fy e => .inr (.inr ⟨_, ay, fy, e.symm⟩)
    have new : m.vFresh ≤ (m.wideMesh f p a b q x y).links.sr h →
        m.hAlive h = true ∨ m.vFresh ≤ (m.wideMesh f p a b q x y).hSrc h ∨ ∃ h0, m.hAlive h0 = true ∧ m.hFace h0 = f ∧ m.hSrc h0 = (m.wideMesh f p a b q x y).hSrc h :=
      fun e => .inr (.inl e)
    rcases (T.al h).1 ah with e | e | e | e | e | e | e | e | e | e | e
    · exact old C.aa C.fa (by rw [e, T.sr0])
    · exact new (by rw [e, T.sr1])
    · exact new (by rw [e, T.sr2]; omega)
    · exact old C.ab C.fb (by rw [e, T.sr3])
    · exact new (by rw [e, T.sr4])
    · exact new (by rw [e, T.sr5])
    · exact old C.ab C.fb (by rw [e, T.sr6])
    · exact new (by rw [e, T.sr7]; omega)
    · exact new (by rw [e, T.sr8]; omega)
    · exact old C.aq C.fq (by rw [e, T.sr9])
    · exact .inl e

/-- the sides of the hole after a round -/
theorem wideMesh_front (w : m.WF) (af : m.fAlive f = true) (C : Corner m f hs pp prev i next qq p a b q) (h : Nat) :
    ((m.wideMesh f p a b q x y).hAlive h = true ∧ (m.wideMesh f p a b q x y).hFace h = f) ↔
      h = m.hFresh ∨ h = m.hFresh + 1 ∨ h = m.hFresh + 2 ∨ (m.hAlive h = true ∧ m.hFace h = f ∧ h ≠ a ∧ h ≠ b) := by
  have T := wideMesh_tab (x := x) (y := y) w af C
  have fl := (w.fBound _ af).2
  constructor
  · rintro ⟨ah, hf⟩
    have hf : (m.wideMesh f p a b q x y).links.fc h = f := hf
    rcases (T.al h).1 ah with e | e | e | e | e | e | e | e | e | e | e
    · exact .inl e
    · exact .inr (.inl e)
    · exact .inr (.inr (.inl e))
    · rw [e, T.fc3] at hf; omega
    · rw [e, T.fc4] at hf; omega
    · rw [e, T.fc5] at hf; omega
    · rw [e, T.fc6] at hf; omega
    · rw [e, T.fc7] at hf; omega
    · rw [e, T.fc8] at hf; omega
    · rw [e, T.fc9] at hf; omega
    · have n1 : h ≠ a := by
        intro e1; rw [e1, T.fca] at hf; omega
      have n2 : h ≠ b := by
        intro e1; rw [e1, T.fcb] at hf; omega
      exact .inr (.inr (.inr ⟨e, (T.fco e n1 n2).symm.trans hf, n1, n2⟩))
  · rintro (e | e | e | ⟨e, hf, n1, n2⟩)
    · subst e; exact ⟨(T.al _).2 (by simp), T.fc0⟩
    · subst e; exact ⟨(T.al _).2 (by simp), T.fc1⟩
    · subst e; exact ⟨(T.al _).2 (by simp), T.fc2⟩
    · exact ⟨(T.al _).2 (by simp [show m.links.hA h = true from e]), (T.fco e n1 n2).trans hf⟩

end
end TinyMesh
