import Verif.Proof.ConA
/-
`construct`, first loop: the invariant.
-/
set_option linter.unusedSimpArgs false
namespace TinyMesh
open Orbit
variable {F : Type} {m m' : Mesh F}

/-- the state after some triangles (`acc`, those not skipped) have been added -/
structure InvA (m : Mesh F) (pd : PD) (acc : List Tri) : Prop where
  hd : Dense m.hAlive m.hIdx m.hes
  vd : Dense m.vAlive m.vIdx m.vs
  fd : Dense m.fAlive m.fIdx m.fs
  hB : ∀ h, m.hAlive h = true → 0 < h ∧ h < m.hFresh
  vB : ∀ h, m.vAlive h = true → 0 < h ∧ h < m.vFresh
  fB : ∀ h, m.fAlive h = true → 0 < h ∧ h < m.fFresh
  h0 : 0 < m.hFresh
  f0 : 0 < m.fFresh
  next_alive : ∀ h, m.hAlive h = true → m.hAlive (m.hNext h) = true
  src_alive : ∀ h, m.hAlive h = true → m.vAlive (m.hSrc h) = true
  face_alive : ∀ h, m.hAlive h = true → m.fAlive (m.hFace h) = true
  tri : ∀ h, m.hAlive h = true → m.hNext (m.hNext (m.hNext h)) = h
  face_next : ∀ h, m.hAlive h = true → m.hFace (m.hNext h) = m.hFace h
  face_tri : ∀ h h', m.hAlive h = true → m.hAlive h' = true → m.hFace h' = m.hFace h →
    h' = h ∨ h' = m.hNext h ∨ h' = m.hNext (m.hNext h)
  fHe_ok : ∀ f, m.fAlive f = true → m.hAlive (m.fHe f) = true ∧ m.hFace (m.fHe f) = f
  bd : ∀ h, m.hAlive h = true → m.hBd h = false
  pair_ok : ∀ a b, pd.pair a b ≠ 0 → m.hAlive (pd.pair a b) = true ∧ m.vs[a]? = some (m.hSrc (pd.pair a b)) ∧
    m.vs[b]? = some (m.hSrc (m.hNext (pd.pair a b))) ∧ a ≠ b
  pair_all : ∀ h, m.hAlive h = true → ∃ a b, pd.pair a b = h ∧ m.hRev h = pd.pair b a
  pair_iff : ∀ a b, pd.pair a b ≠ 0 ↔ ∃ t ∈ acc, t.HasEdge a b
  deg : ∀ (a v : Nat), m.vs[a]? = some v → pd.deg a = m.outDeg v
  vhe : ∀ v, m.vAlive v = true →
    (m.vHe v = 0 ∧ ∀ h, m.hAlive h = true → m.hSrc h ≠ v) ∨ (m.hAlive (m.vHe v) = true ∧ m.hSrc (m.vHe v) = v)
  len : m.fs.length = acc.length
  hlen : m.hes.length = 3 * acc.length
  faces : ∀ (i : Nat) (hi : i < m.fs.length) (t : Tri), acc[i]? = some t →
    m.fHe m.fs[i] = pd.pair t.c t.a ∧ m.hNext (pd.pair t.c t.a) = pd.pair t.a t.b ∧
      m.hNext (pd.pair t.a t.b) = pd.pair t.b t.c
  nondeg : ∀ t ∈ acc, t.degen = false

theorem cases3 (h a : Nat) : h = a ∨ h = a + 1 ∨ h = a + 2 ∨ (h ≠ a ∧ h ≠ a + 1 ∧ h ≠ a + 2) := by omega

theorem PD.addTri_pair (pd : PD) (t : Tri) (H : Nat) (ht : t.degen = false) (a b : Nat) :
    ((a = t.a ∧ b = t.b) ∧ (pd.addTri t H).pair a b = H) ∨
    ((a = t.b ∧ b = t.c) ∧ (pd.addTri t H).pair a b = H + 1) ∨
    ((a = t.c ∧ b = t.a) ∧ (pd.addTri t H).pair a b = H + 2) ∨
    (¬ t.HasEdge a b ∧ (pd.addTri t H).pair a b = pd.pair a b) := by
  obtain ⟨n1, n2, n3⟩ := Tri.ne_of_degen ht
  simp only [PD.addTri, PD.setPair, PD.incDeg, Tri.HasEdge]
  by_cases c1 : a = t.a ∧ b = t.b
  · obtain ⟨rfl, rfl⟩ := c1
    left; simp [n1, n3.symm]
  · by_cases c2 : a = t.b ∧ b = t.c
    · obtain ⟨rfl, rfl⟩ := c2
      right; left; simp [n2]
    · by_cases c3 : a = t.c ∧ b = t.a
      · obtain ⟨rfl, rfl⟩ := c3
        right; right; left; simp
      · right; right; right
        simp [c1, c2, c3]

theorem nodup_getElem?_inj {l : List Nat} (hl : l.Nodup) {i j x : Nat} (hi : l[i]? = some x) (hj : l[j]? = some x) :
    i = j := by
  obtain ⟨h1, e1⟩ := List.getElem?_eq_some_iff.1 hi
  obtain ⟨h2, e2⟩ := List.getElem?_eq_some_iff.1 hj
  exact (List.Nodup.getElem_inj_iff hl).1 (e1.trans e2.symm)

theorem InvA.pair_inj {pd : PD} {acc : List Tri} (I : InvA m pd acc) {a b a' b' : Nat} (h0 : pd.pair a b ≠ 0)
    (h : pd.pair a b = pd.pair a' b') : a = a' ∧ b = b' := by
  obtain ⟨_, h1, h2, _⟩ := I.pair_ok a b h0
  obtain ⟨_, h3, h4, _⟩ := I.pair_ok a' b' (h ▸ h0)
  rw [← h] at h3 h4
  exact ⟨nodup_getElem?_inj I.vd.nodup h1 h3, nodup_getElem?_inj I.vd.nodup h2 h4⟩

theorem upd3_cases {γ : Type} (f : Nat → γ) (H : Nat) (x y z : γ) :
    upd (upd (upd f H x) (H + 1) y) (H + 2) z H = x ∧ upd (upd (upd f H x) (H + 1) y) (H + 2) z (H + 1) = y ∧
    upd (upd (upd f H x) (H + 1) y) (H + 2) z (H + 2) = z ∧
    ∀ k, k ≠ H → k ≠ H + 1 → k ≠ H + 2 → upd (upd (upd f H x) (H + 1) y) (H + 2) z k = f k := by
  refine ⟨by simp [upd], by simp [upd], by simp [upd], ?_⟩
  intro k h0 h1 h2
  simp [upd, h0, h1, h2]

theorem InvA.addTri {pd : PD} {acc : List Tri} (I : InvA m pd acc) {t : Tri} {va vb vc : Nat} (ht : t.degen = false)
    (hva : m.vs[t.a]? = some va) (hvb : m.vs[t.b]? = some vb) (hvc : m.vs[t.c]? = some vc)
    (p1 : pd.pair t.a t.b = 0) (p2 : pd.pair t.b t.c = 0) (p3 : pd.pair t.c t.a = 0)
    (R : TriRel m m' pd t va vb vc) : InvA m' (pd.addTri t m.hFresh) (acc ++ [t]) := by
  obtain ⟨n1, n2, n3⟩ := Tri.ne_of_degen ht
  have N := I.vd.nodup
  have eab : va ≠ vb := fun e => n1 (nodup_getElem?_inj N hva (e ▸ hvb))
  have ebc : vb ≠ vc := fun e => n2 (nodup_getElem?_inj N hvb (e ▸ hvc))
  have eca : vc ≠ va := fun e => n3 (nodup_getElem?_inj N hvc (e ▸ hva))
  have vmem : ∀ {i x : Nat}, m.vs[i]? = some x → m.vAlive x = true := fun h =>
    (I.vd.mem _).1 (List.mem_of_getElem? h)
  obtain ⟨A0, A1, A2, AO⟩ := upd3_cases m.hAlive m.hFresh true true true
  rw [← R.hAlive] at A0 A1 A2 AO
  obtain ⟨S0, S1, S2, SO⟩ := upd3_cases m.hSrc m.hFresh va vb vc
  rw [← R.hSrc] at S0 S1 S2 SO
  obtain ⟨F0, F1, F2, FO⟩ := upd3_cases m.hFace m.hFresh m.fFresh m.fFresh m.fFresh
  rw [← R.hFace] at F0 F1 F2 FO
  obtain ⟨B0, B1, B2, BO⟩ := upd3_cases m.hBd m.hFresh false false false
  rw [← R.hBd] at B0 B1 B2 BO
  have N0 := R.N0
  have N1 := R.N1
  have N2 := R.N2
  have NO := R.NO
  have old : ∀ h, m.hAlive h = true → h ≠ m.hFresh ∧ h ≠ m.hFresh + 1 ∧ h ≠ m.hFresh + 2 := by
    intro h a; have := (I.hB h a).2; omega
  have alo : ∀ h, m.hAlive h = true → m'.hAlive h = true := by
    intro h a; obtain ⟨a1, a2, a3⟩ := old h a; rw [AO h a1 a2 a3]; exact a
  have no : ∀ h, m.hAlive h = true → m'.hNext h = m.hNext h := by
    intro h a; obtain ⟨a1, a2, a3⟩ := old h a; exact NO h a1 a2 a3
  have so : ∀ h, m.hAlive h = true → m'.hSrc h = m.hSrc h := by
    intro h a; obtain ⟨a1, a2, a3⟩ := old h a; exact SO h a1 a2 a3
  have fo : ∀ h, m.hAlive h = true → m'.hFace h = m.hFace h := by
    intro h a; obtain ⟨a1, a2, a3⟩ := old h a; exact FO h a1 a2 a3
  have cs : ∀ h, m'.hAlive h = true → h = m.hFresh ∨ h = m.hFresh + 1 ∨ h = m.hFresh + 2 ∨ m.hAlive h = true := by
    intro h a
    rcases cases3 h m.hFresh with c | c | c | ⟨c1, c2, c3⟩
    · exact Or.inl c
    · exact Or.inr (Or.inl c)
    · exact Or.inr (Or.inr (Or.inl c))
    · rw [AO h c1 c2 c3] at a; exact Or.inr (Or.inr (Or.inr a))
  have falo : ∀ f, m.fAlive f = true → f ≠ m.fFresh := by
    intro f a; have := (I.fB f a).2; omega
  have hfree : m.fAlive m.fFresh = false := by
    cases h : m.fAlive m.fFresh with
    | false => rfl
    | true => exact absurd rfl (falo _ h)
  have hfr : ∀ k, m.hFresh ≤ k → m.hAlive k = false := by
    intro k hk
    cases h : m.hAlive k with
    | false => rfl
    | true => have := (I.hB k h).2; omega
  constructor
  case hd =>
    have d1 := I.hd.push (hfr m.hFresh (Nat.le_refl _))
    have d2 := d1.push (x := m.hFresh + 1) (by simp [upd, hfr (m.hFresh + 1) (by omega)])
    have d3 := d2.push (x := m.hFresh + 2) (by simp [upd, hfr (m.hFresh + 2) (by omega)])
    rw [R.hAlive, R.hIdx, R.hes]
    simpa using d3
  case vd => rw [R.vAlive, R.vIdx, R.vs]; exact I.vd
  case fd => exact R.fd I.fd hfree
  case hB =>
    intro h a
    rw [R.hFresh]
    have := I.h0
    rcases cs h a with c | c | c | c
    · omega
    · omega
    · omega
    · have := I.hB h c; omega
  case vB => rw [R.vAlive, R.vFresh]; exact I.vB
  case fB =>
    intro f a
    rw [R.fAlive] at a
    rw [R.fFresh]
    have := I.f0
    by_cases c : f = m.fFresh
    · omega
    · rw [upd_ne _ _ c] at a; have := I.fB f a; omega
  case h0 => rw [R.hFresh]; omega
  case f0 => rw [R.fFresh]; omega
  case next_alive =>
    intro h a
    rcases cs h a with rfl | rfl | rfl | c
    · rw [N0]; exact A1
    · rw [N1]; exact A2
    · rw [N2]; exact A0
    · rw [no h c]; exact alo _ (I.next_alive h c)
  case src_alive =>
    intro h a
    rw [R.vAlive]
    rcases cs h a with rfl | rfl | rfl | c
    · rw [S0]; exact vmem hva
    · rw [S1]; exact vmem hvb
    · rw [S2]; exact vmem hvc
    · rw [so h c]; exact I.src_alive h c
  case face_alive =>
    intro h a
    rw [R.fAlive]
    rcases cs h a with rfl | rfl | rfl | c
    · rw [F0]; exact upd_same _ _ _
    · rw [F1]; exact upd_same _ _ _
    · rw [F2]; exact upd_same _ _ _
    · rw [fo h c, upd_ne _ _ (falo _ (I.face_alive h c))]; exact I.face_alive h c
  case tri =>
    intro h a
    rcases cs h a with rfl | rfl | rfl | c
    · rw [N0, N1, N2]
    · rw [N1, N2, N0]
    · rw [N2, N0, N1]
    · rw [no h c, no _ (I.next_alive h c), no _ (I.next_alive _ (I.next_alive h c)), I.tri h c]
  case face_next =>
    intro h a
    rcases cs h a with rfl | rfl | rfl | c
    · rw [N0, F1, F0]
    · rw [N1, F2, F1]
    · rw [N2, F0, F2]
    · rw [no h c, fo h c, fo _ (I.next_alive h c), I.face_next h c]
  case face_tri =>
    intro h h' a a' e
    have fn : ∀ x, m.hAlive x = true → m'.hFace x ≠ m.fFresh := by
      intro x ax; rw [fo x ax]; exact falo _ (I.face_alive x ax)
    rcases cs h a with rfl | rfl | rfl | c
    · rw [N0, N1]; rw [F0] at e
      rcases cs h' a' with c' | c' | c' | c'
      · exact Or.inl c'
      · exact Or.inr (Or.inl c')
      · exact Or.inr (Or.inr c')
      · exact absurd e (fn _ c')
    · rw [N1, N2]; rw [F1] at e
      rcases cs h' a' with c' | c' | c' | c'
      · exact Or.inr (Or.inr c')
      · exact Or.inl c'
      · exact Or.inr (Or.inl c')
      · exact absurd e (fn _ c')
    · rw [N2, N0]; rw [F2] at e
      rcases cs h' a' with c' | c' | c' | c'
      · exact Or.inr (Or.inl c')
      · exact Or.inr (Or.inr c')
      · exact Or.inl c'
      · exact absurd e (fn _ c')
    · rw [no h c, no _ (I.next_alive h c)]
      have hn := fn h c
      rcases cs h' a' with rfl | rfl | rfl | c'
      · rw [F0] at e; exact absurd e.symm hn
      · rw [F1] at e; exact absurd e.symm hn
      · rw [F2] at e; exact absurd e.symm hn
      · rw [fo h c, fo h' c'] at e
        exact I.face_tri h h' c c' e
  case fHe_ok =>
    intro f a
    rw [R.fAlive] at a
    by_cases c : f = m.fFresh
    · subst c; rw [R.fHe0]; exact ⟨A2, F2⟩
    · rw [upd_ne _ _ c] at a
      rw [R.fHeO f c]
      obtain ⟨a1, a2⟩ := I.fHe_ok f a
      exact ⟨alo _ a1, by rw [fo _ a1, a2]⟩
  case bd =>
    intro h a
    rcases cs h a with rfl | rfl | rfl | c
    · exact B0
    · exact B1
    · exact B2
    · obtain ⟨a1, a2, a3⟩ := old h c
      rw [BO h a1 a2 a3]; exact I.bd h c
  case pair_ok =>
    intro a b hne
    rw [R.vs]
    rcases pd.addTri_pair t m.hFresh ht a b with ⟨⟨ea, eb⟩, e⟩ | ⟨⟨ea, eb⟩, e⟩ | ⟨⟨ea, eb⟩, e⟩ | ⟨_, e⟩
    · subst ea eb; rw [e, N0, S0, S1]; exact ⟨A0, hva, hvb, n1⟩
    · subst ea eb; rw [e, N1, S1, S2]; exact ⟨A1, hvb, hvc, n2⟩
    · subst ea eb; rw [e, N2, S2, S0]; exact ⟨A2, hvc, hva, n3⟩
    · rw [e] at hne ⊢
      obtain ⟨q1, q2, q3, q4⟩ := I.pair_ok a b hne
      rw [so _ q1, no _ q1, so _ (I.next_alive _ q1)]
      exact ⟨alo _ q1, q2, q3, q4⟩
  case pair_all =>
    have hlt : ∀ a b, pd.pair a b < m.hFresh := by
      intro a b
      by_cases h : pd.pair a b = 0
      · have := I.h0; omega
      · exact (I.hB _ (I.pair_ok a b h).1).2
    have l1 := hlt t.b t.a
    have l2 := hlt t.c t.b
    have l3 := hlt t.a t.c
    intro h a
    rcases cs h a with c | c | c | c
    · refine ⟨t.a, t.b, ?_, ?_⟩
      · rcases pd.addTri_pair t m.hFresh ht t.a t.b with ⟨_, e⟩ | ⟨⟨ea, _⟩, e⟩ | ⟨⟨ea, _⟩, e⟩ | ⟨k, e⟩
        · rw [e, c]
        · exact absurd ea n1
        · exact absurd ea.symm n3
        · exact absurd (Or.inl ⟨rfl, rfl⟩) k
      · have e : (pd.addTri t m.hFresh).pair t.b t.a = pd.pair t.b t.a := by
          rcases pd.addTri_pair t m.hFresh ht t.b t.a with ⟨⟨ea, _⟩, e⟩ | ⟨⟨_, ea⟩, e⟩ | ⟨⟨ea, _⟩, e⟩ | ⟨k, e⟩
          · exact absurd ea.symm n1
          · exact absurd ea.symm n3
          · exact absurd ea n2
          · exact e
        rw [e, R.hRev, c]
        simp only [linkRev]
        rw [if_neg (by omega), if_neg (by omega), if_neg (by omega), if_neg (by omega), if_pos trivial]
    · refine ⟨t.b, t.c, ?_, ?_⟩
      · rcases pd.addTri_pair t m.hFresh ht t.b t.c with ⟨⟨ea, _⟩, e⟩ | ⟨_, e⟩ | ⟨⟨ea, _⟩, e⟩ | ⟨k, e⟩
        · exact absurd ea.symm n1
        · rw [e, c]
        · exact absurd ea n2
        · exact absurd (Or.inr (Or.inl ⟨rfl, rfl⟩)) k
      · have e : (pd.addTri t m.hFresh).pair t.c t.b = pd.pair t.c t.b := by
          rcases pd.addTri_pair t m.hFresh ht t.c t.b with ⟨⟨ea, _⟩, e⟩ | ⟨⟨ea, _⟩, e⟩ | ⟨⟨_, ea⟩, e⟩ | ⟨k, e⟩
          · exact absurd ea n3
          · exact absurd ea.symm n2
          · exact absurd ea.symm n1
          · exact e
        rw [e, R.hRev, c]
        simp only [linkRev]
        rw [if_neg (by omega), if_neg (by omega), if_pos trivial]
    · refine ⟨t.c, t.a, ?_, ?_⟩
      · rcases pd.addTri_pair t m.hFresh ht t.c t.a with ⟨⟨ea, _⟩, e⟩ | ⟨⟨ea, _⟩, e⟩ | ⟨_, e⟩ | ⟨k, e⟩
        · exact absurd ea n3
        · exact absurd ea.symm n2
        · rw [e, c]
        · exact absurd (Or.inr (Or.inr ⟨rfl, rfl⟩)) k
      · have e : (pd.addTri t m.hFresh).pair t.a t.c = pd.pair t.a t.c := by
          rcases pd.addTri_pair t m.hFresh ht t.a t.c with ⟨⟨_, ea⟩, e⟩ | ⟨⟨ea, _⟩, e⟩ | ⟨⟨ea, _⟩, e⟩ | ⟨k, e⟩
          · exact absurd ea.symm n2
          · exact absurd ea n1
          · exact absurd ea.symm n3
          · exact e
        rw [e, R.hRev, c]
        simp only [linkRev]
        rw [if_pos trivial]
    · obtain ⟨x, y, q1, q2⟩ := I.pair_all h c
      have h0 : h ≠ 0 := by have := (I.hB h c).1; omega
      obtain ⟨o1, o2, o3⟩ := old h c
      refine ⟨x, y, ?_, ?_⟩
      · rcases pd.addTri_pair t m.hFresh ht x y with ⟨⟨ea, eb⟩, e⟩ | ⟨⟨ea, eb⟩, e⟩ | ⟨⟨ea, eb⟩, e⟩ | ⟨k, e⟩
        · subst ea eb; exact absurd (q1.symm.trans p1) h0
        · subst ea eb; exact absurd (q1.symm.trans p2) h0
        · subst ea eb; exact absurd (q1.symm.trans p3) h0
        · rw [e, q1]
      · rw [R.hRev]
        simp only [linkRev]
        rw [if_neg o3, if_neg o2, if_neg o1]
        have inj : ∀ u v, h = pd.pair u v → x = u ∧ y = v := by
          intro u v e
          exact I.pair_inj (q1 ▸ h0) (q1.trans e)
        rcases pd.addTri_pair t m.hFresh ht y x with ⟨⟨ea, eb⟩, e⟩ | ⟨⟨ea, eb⟩, e⟩ | ⟨⟨ea, eb⟩, e⟩ | ⟨k, e⟩
        · subst ea eb
          rw [e, if_neg, if_neg, if_pos]
          · exact ⟨q1.symm, q1 ▸ h0⟩
          · rintro ⟨e', _⟩
            exact n2 (inj _ _ e').1
          · rintro ⟨e', _⟩
            exact n1 (inj _ _ e').1.symm
        · subst ea eb
          rw [e, if_neg, if_pos]
          · exact ⟨q1.symm, q1 ▸ h0⟩
          · rintro ⟨e', _⟩
            exact n3 (inj _ _ e').1
        · subst ea eb
          rw [e, if_pos]
          exact ⟨q1.symm, q1 ▸ h0⟩
        · rw [e, if_neg, if_neg, if_neg]
          · exact q2
          · rintro ⟨e', _⟩
            obtain ⟨e1, e2⟩ := inj _ _ e'
            exact k (Or.inl ⟨e2, e1⟩)
          · rintro ⟨e', _⟩
            obtain ⟨e1, e2⟩ := inj _ _ e'
            exact k (Or.inr (Or.inl ⟨e2, e1⟩))
          · rintro ⟨e', _⟩
            obtain ⟨e1, e2⟩ := inj _ _ e'
            exact k (Or.inr (Or.inr ⟨e2, e1⟩))
  case pair_iff =>
    intro a b
    have h0 := I.h0
    rcases pd.addTri_pair t m.hFresh ht a b with ⟨ea, e⟩ | ⟨ea, e⟩ | ⟨ea, e⟩ | ⟨k, e⟩
    · rw [e]
      exact ⟨fun _ => ⟨t, by simp, Or.inl ea⟩, fun _ => by omega⟩
    · rw [e]
      exact ⟨fun _ => ⟨t, by simp, Or.inr (Or.inl ea)⟩, fun _ => by omega⟩
    · rw [e]
      exact ⟨fun _ => ⟨t, by simp, Or.inr (Or.inr ea)⟩, fun _ => by omega⟩
    · rw [e, I.pair_iff]
      constructor
      · rintro ⟨s, hs, hs'⟩; exact ⟨s, by simp [hs], hs'⟩
      · rintro ⟨s, hs, hs'⟩
        rw [List.mem_append, List.mem_singleton] at hs
        rcases hs with hs | rfl
        · exact ⟨s, hs, hs'⟩
        · exact absurd hs' k
  case deg =>
    intro a v hv
    rw [R.vs] at hv
    have hc : m.hes.countP (fun h => m'.hSrc h == v) = m.outDeg v := by
      unfold Mesh.outDeg
      refine List.countP_congr ?_
      intro h hh
      rw [so h ((I.hd.mem h).1 hh)]
    have e1 : (va == v) = decide (a = t.a) := by
      rw [Bool.eq_iff_iff]; simp only [beq_iff_eq, decide_eq_true_eq]
      exact ⟨fun e => nodup_getElem?_inj N hv (e ▸ hva), fun e => by subst e; rw [hva] at hv; simpa using hv⟩
    have e2 : (vb == v) = decide (a = t.b) := by
      rw [Bool.eq_iff_iff]; simp only [beq_iff_eq, decide_eq_true_eq]
      exact ⟨fun e => nodup_getElem?_inj N hv (e ▸ hvb), fun e => by subst e; rw [hvb] at hv; simpa using hv⟩
    have e3 : (vc == v) = decide (a = t.c) := by
      rw [Bool.eq_iff_iff]; simp only [beq_iff_eq, decide_eq_true_eq]
      exact ⟨fun e => nodup_getElem?_inj N hv (e ▸ hvc), fun e => by subst e; rw [hvc] at hv; simpa using hv⟩
    have hd := I.deg a v hv
    unfold Mesh.outDeg
    rw [R.hes, List.countP_append, hc]
    simp only [List.countP_cons, List.countP_nil, S0, S1, S2, e1, e2, e3]
    simp only [PD.addTri, PD.setPair, PD.incDeg, upd, decide_eq_true_eq]
    by_cases c1 : a = t.a
    · subst c1; simp [n1, n1.symm, n3, n3.symm, hd]
    · by_cases c2 : a = t.b
      · subst c2; simp [n1, n1.symm, n2, n2.symm, hd]
      · by_cases c3 : a = t.c
        · subst c3; simp [n3, n3.symm, n2, n2.symm, hd]
        · simp [c1, c2, c3, hd]
  case vhe =>
    intro v av
    rw [R.vAlive] at av
    rw [R.vHe]
    simp only [upd]
    by_cases c3 : v = vc
    · right; subst c3; simp only [if_true]; exact ⟨A2, S2⟩
    · by_cases c2 : v = vb
      · right; subst c2; simp only [c3, if_true, if_false]; exact ⟨A1, S1⟩
      · by_cases c1 : v = va
        · right; subst c1; simp only [c3, c2, if_true, if_false]; exact ⟨A0, S0⟩
        · simp only [c1, c2, c3, if_false]
          rcases I.vhe v av with ⟨h1, h2⟩ | ⟨h1, h2⟩
          · left
            refine ⟨h1, fun h a => ?_⟩
            rcases cs h a with rfl | rfl | rfl | c
            · rw [S0]; exact Ne.symm c1
            · rw [S1]; exact Ne.symm c2
            · rw [S2]; exact Ne.symm c3
            · rw [so h c]; exact h2 h c
          · right
            exact ⟨alo _ h1, by rw [so _ h1, h2]⟩
  case len => rw [R.fs, List.length_append, List.length_append, I.len]; rfl
  case hlen => rw [R.hes, List.length_append, List.length_append, I.hlen]; simp; omega
  case nondeg =>
    intro s hs
    rw [List.mem_append, List.mem_singleton] at hs
    rcases hs with hs | rfl
    · exact I.nondeg s hs
    · exact ht
  case faces =>
    intro i hi s hs
    have hlen := I.len
    have pe1 : (pd.addTri t m.hFresh).pair t.a t.b = m.hFresh := by
      rcases pd.addTri_pair t m.hFresh ht t.a t.b with ⟨_, e⟩ | ⟨⟨ea, _⟩, e⟩ | ⟨⟨ea, _⟩, e⟩ | ⟨k, e⟩
      · exact e
      · exact absurd ea n1
      · exact absurd ea.symm n3
      · exact absurd (Or.inl ⟨rfl, rfl⟩) k
    have pe2 : (pd.addTri t m.hFresh).pair t.b t.c = m.hFresh + 1 := by
      rcases pd.addTri_pair t m.hFresh ht t.b t.c with ⟨⟨ea, _⟩, e⟩ | ⟨_, e⟩ | ⟨⟨ea, _⟩, e⟩ | ⟨k, e⟩
      · exact absurd ea.symm n1
      · exact e
      · exact absurd ea n2
      · exact absurd (Or.inr (Or.inl ⟨rfl, rfl⟩)) k
    have pe3 : (pd.addTri t m.hFresh).pair t.c t.a = m.hFresh + 2 := by
      rcases pd.addTri_pair t m.hFresh ht t.c t.a with ⟨⟨ea, _⟩, e⟩ | ⟨⟨ea, _⟩, e⟩ | ⟨_, e⟩ | ⟨k, e⟩
      · exact absurd ea n3
      · exact absurd ea.symm n2
      · exact e
      · exact absurd (Or.inr (Or.inr ⟨rfl, rfl⟩)) k
    by_cases c : i < m.fs.length
    · have hfi : m'.fs[i] = m.fs[i] := by
        have : m'.fs[i]? = m.fs[i]? := by rw [R.fs, List.getElem?_append_left c]
        rw [List.getElem?_eq_getElem hi, List.getElem?_eq_getElem c] at this
        exact Option.some.inj this
      rw [List.getElem?_append_left (by omega)] at hs
      have hm := List.mem_of_getElem? hs
      obtain ⟨g1, g2, g3⟩ := I.faces i c s hs
      have hal := (I.fd.mem _).1 (List.getElem_mem c)
      have key : ∀ a b, s.HasEdge a b → (pd.addTri t m.hFresh).pair a b = pd.pair a b ∧ m.hAlive (pd.pair a b) = true := by
        intro a b hab
        have hne := (I.pair_iff a b).2 ⟨s, hm, hab⟩
        rcases pd.addTri_pair t m.hFresh ht a b with ⟨⟨ea, eb⟩, e⟩ | ⟨⟨ea, eb⟩, e⟩ | ⟨⟨ea, eb⟩, e⟩ | ⟨k, e⟩
        · subst ea eb; exact absurd p1 hne
        · subst ea eb; exact absurd p2 hne
        · subst ea eb; exact absurd p3 hne
        · exact ⟨e, (I.pair_ok a b hne).1⟩
      obtain ⟨k1, k1'⟩ := key s.a s.b (Or.inl ⟨rfl, rfl⟩)
      obtain ⟨k2, k2'⟩ := key s.b s.c (Or.inr (Or.inl ⟨rfl, rfl⟩))
      obtain ⟨k3, k3'⟩ := key s.c s.a (Or.inr (Or.inr ⟨rfl, rfl⟩))
      rw [hfi, R.fHeO _ (falo _ hal), k1, k2, k3, no _ k3', no _ k1']
      exact ⟨g1, g2, g3⟩
    · have hi' : i = m.fs.length := by
        rw [R.fs, List.length_append, List.length_singleton] at hi; omega
      have hfi : m'.fs[i] = m.fFresh := by
        have : m'.fs[i]? = some m.fFresh := by rw [R.fs, hi']; simp
        rw [List.getElem?_eq_getElem hi] at this
        exact Option.some.inj this
      have : s = t := by
        rw [hi', hlen] at hs
        simpa using hs.symm
      subst this
      rw [hfi, R.fHe0, pe1, pe2, pe3]
      exact ⟨rfl, N2, N0⟩

end TinyMesh
