import Verif.Proof.FrontL
/-
What stays true from round to round.
-/
namespace TinyMesh
open Orbit
variable {F : Type} {m0 m m' : Mesh F} {f : Nat}

/-- `m` is a state between two rounds of a front that was started with the mesh `m0` and the hole `f` -/
structure FrontInv (m0 m : Mesh F) (f : Nat) : Prop where
  wf : m.WF
  af : m.fAlive f = true
  n3 : 3 ≤ (orbit m.hNext (m.fHe f)).length
  tri : ∀ h, m.hAlive h = true → m0.fAlive (m.hFace h) = false → m.OnTri h ∧ m.hNext h ≠ h
  simple : ∀ h h', m.hAlive h = true → m.hAlive h' = true → m.hFace h = f → m.hFace h' = f → m.hSrc h = m.hSrc h' → h = h'
  out : ∀ h, m0.hAlive h = true → m0.hFace h ≠ f →
    m.hAlive h = true ∧ m.hSrc h = m0.hSrc h ∧ m.hNext h = m0.hNext h ∧ m.hFace h = m0.hFace h
  new : ∀ h, m.hAlive h = true → m0.fAlive (m.hFace h) = true → m.hFace h ≠ f → m0.hAlive h = true ∧ m0.hFace h = m.hFace h
  vo : ∀ v, m0.vAlive v = true → m.vAlive v = true ∧ m.vLock v = m0.vLock v ∧
    ((∀ h, m0.hAlive h = true → m0.hFace h = f → m0.hSrc h ≠ v) → m.vPos v = m0.vPos v)
  front : ∀ h, m.hAlive h = true → m.hFace h = f → m0.vAlive (m.hSrc h) = true →
    ∃ h0, m0.hAlive h0 = true ∧ m0.hFace h0 = f ∧ m0.hSrc h0 = m.hSrc h
  vn : ∀ v, m.vAlive v = true → m0.vAlive v = false → m.vLock v = false ∧ m0.vFresh ≤ v
  fold : ∀ g, m0.fAlive g = true → m.fAlive g = true
  hfr : m0.hFresh ≤ m.hFresh
  vfr : m0.vFresh ≤ m.vFresh
  ffr : m0.fFresh ≤ m.fFresh
  corner : ∀ h, m.hAlive h = true → m0.fAlive (m.hFace h) = false → m0.vAlive (m.hSrc h) = true →
    ∃ h0, m0.hAlive h0 = true ∧ m0.hFace h0 = f ∧ m0.hSrc h0 = m.hSrc h
  rev : ∀ h, m0.hAlive h = true → m0.hFace h ≠ f → m0.hFace (m0.hRev h) ≠ f → m.hRev h = m0.hRev h
  border : ∀ h, m0.hAlive h = true → m0.hFace h ≠ f → m0.hFace (m0.hRev h) = f → m.hFace (m.hRev h) = f ∨ m0.fAlive (m.hFace (m.hRev h)) = false

/-- a hole from which the front can start -/
structure FrontStart (m0 : Mesh F) (f : Nat) : Prop where
  wf : m0.WF
  af : m0.fAlive f = true
  n3 : 3 ≤ (orbit m0.hNext (m0.fHe f)).length
  simple : ∀ h h', m0.hAlive h = true → m0.hAlive h' = true → m0.hFace h = f → m0.hFace h' = f → m0.hSrc h = m0.hSrc h' → h = h'

theorem FrontStart.inv (S : FrontStart m0 f) : FrontInv m0 m0 f where
  wf := S.wf
  af := S.af
  n3 := S.n3
  tri := fun h a d => by rw [S.wf.face_alive h a] at d; exact absurd d (by simp)
  simple := S.simple
  out := fun _ a _ => ⟨a, rfl, rfl, rfl⟩
  new := fun _ a _ _ => ⟨a, rfl⟩
  vo := fun _ a => ⟨a, rfl, fun _ => rfl⟩
  front := fun h a e _ => ⟨h, a, e, rfl⟩
  vn := fun v a d => by rw [a] at d; exact absurd d (by simp)
  fold := fun _ a => a
  hfr := Nat.le_refl _
  vfr := Nat.le_refl _
  ffr := Nat.le_refl _
  corner := fun h a d => by rw [S.wf.face_alive h a] at d; exact absurd d (by simp)
  rev := fun _ _ _ _ => rfl
  border := fun _ _ _ e => .inl e

theorem FrontInv.grow (S : FrontStart m0 f) (I : FrontInv m0 m f) (G : Grow m m' f) (n3 : 3 ≤ (orbit m'.hNext (m'.fHe f)).length)
    (simple : ∀ h h', m'.hAlive h = true → m'.hAlive h' = true → m'.hFace h = f → m'.hFace h' = f → m'.hSrc h = m'.hSrc h' → h = h')
    (vnew : ∀ v, m'.vAlive v = true → m.vAlive v = true ∨ m.vFresh ≤ v) :
    FrontInv m0 m' f := by
  have w := I.wf
  have ob : ∀ {v}, m0.vAlive v = true → v < m.vFresh := fun a => by have := (S.wf.vBound _ a).2; have := I.vfr; omega
  have of : ∀ {v}, m0.fAlive v = true → v < m.fFresh := fun a => by have := (S.wf.fBound _ a).2; have := I.ffr; omega
  refine ⟨G.wf, G.fal _ I.af, n3, ?_, simple, ?_, ?_, ?_, ?_, ?_, fun g a => G.fal _ (I.fold g a), I.hfr.trans G.hfr, I.vfr.trans G.vfr, I.ffr.trans G.ffr,
    ?_, ?_, ?_⟩
  · intro h ah hf
    have hn : m'.hFace h ≠ f := fun e => by rw [e, S.af] at hf; exact absurd hf (by simp)
    rcases G.tri h ah hn with ⟨a, e⟩ | ⟨_, t⟩
    · have ef : m.hFace h ≠ f := by rw [e]; exact hn
      obtain ⟨t, ns⟩ := I.tri h a (by rw [e]; exact hf)
      have a1 := w.next_alive h a
      have e1 : m.hFace (m.hNext h) ≠ f := by rw [w.face_next h a]; exact ef
      have a2 := w.next_alive _ a1
      have e2 : m.hFace (m.hNext (m.hNext h)) ≠ f := by rw [w.face_next _ a1]; exact e1
      unfold Mesh.OnTri at t ⊢
      rw [(G.out h a ef).1, (G.out _ a1 e1).1, (G.out _ a2 e2).1]
      exact ⟨t, ns⟩
    · exact t
  · intro h a e
    obtain ⟨q1, q2, q3, q4⟩ := I.out h a e
    have ef : m.hFace h ≠ f := by rw [q4]; exact e
    have := G.hal h q1
    have g2 := G.out h q1 ef
    exact ⟨this.1, this.2.trans q2, g2.1.trans q3, g2.2.trans q4⟩
  · intro h a o e
    rcases G.tri h a e with ⟨a', e'⟩ | ⟨t, _⟩
    · rw [← e'] at o e ⊢
      exact I.new h a' o e
    · have := of o; omega
  · intro v a
    obtain ⟨q1, q2, q3⟩ := I.vo v a
    obtain ⟨g1, g2, g3⟩ := G.val v q1
    exact ⟨g1, g3.trans q2, fun h => g2.trans (q3 h)⟩
  · intro h a e o
    rcases G.front h a e with l | ⟨h0, a0, e0, s0⟩
    · have := ob o; omega
    · rw [← s0] at o ⊢
      exact I.front h0 a0 e0 o
  · intro v a d
    rcases vnew v a with o | o
    · have := I.vn v o d
      exact ⟨(G.val v o).2.2.trans this.1, this.2⟩
    · exact ⟨G.new v a o, I.vfr.trans o⟩
  · intro h a d o
    rcases G.src h a with a0 | l | ⟨h0, a0, e0, s0⟩
    · rw [(G.hal h a0).2] at o ⊢
      by_cases e : m.hFace h = f
      · exact I.front h a0 e o
      · rw [(G.out h a0 e).2] at d
        exact I.corner h a0 d o
    · have := ob o; omega
    · rw [← s0] at o ⊢
      exact I.front h0 a0 e0 o
  · intro h a e e'
    rw [G.rev h (I.out h a e).1]
    exact I.rev h a e e'
  · intro h a e e'
    have a1 := (I.out h a e).1
    have a2 := w.rev_alive _ a1
    rw [G.rev h a1]
    rcases I.border h a e e' with k | k
    · by_cases e2 : m'.hFace (m.hRev h) = f
      · exact .inl e2
      · rcases G.tri _ (G.hal _ a2).1 e2 with ⟨_, e3⟩ | ⟨l, _⟩
        · exact absurd (e3.symm.trans k) e2
        · refine .inr ?_
          rw [Bool.eq_false_iff]
          intro o
          have := of o; omega
    · by_cases e2 : m.hFace (m.hRev h) = f
      · rw [e2, S.af] at k; exact absurd k (by simp)
      · rw [(G.out _ a2 e2).2]
        exact .inr k

/-! ### The number of sides -/

theorem loop_length {A A' : Nat → Prop} {hs hs' ns : List Nat} {a b : Nat} (nd : hs.Nodup) (nd' : hs'.Nodup) (mem : ∀ h, h ∈ hs ↔ A h)
    (mem' : ∀ h, h ∈ hs' ↔ A' h) (ha : A a) (hb : A b) (ab : a ≠ b) (nn : ns.Nodup) (dj : ∀ h ∈ ns, ¬ A h)
    (iff : ∀ h, A' h ↔ h ∈ ns ∨ (A h ∧ h ≠ a ∧ h ≠ b)) : hs'.length + 2 = ns.length + hs.length := by
  have p : hs'.Perm (ns ++ (hs.erase a).erase b) := by
    rw [List.perm_ext_iff_of_nodup nd']
    · intro h
      rw [mem', iff, List.mem_append, (nd.erase a).mem_erase_iff, nd.mem_erase_iff, mem]
      tauto
    · refine nn.append ((nd.erase a).erase b) ?_
      intro h h1 h2
      exact dj h h1 ((mem h).1 (List.mem_of_mem_erase (List.mem_of_mem_erase h2)))
  have q := p.length_eq
  have l1 : (hs.erase a).length = hs.length - 1 := List.length_erase_of_mem ((mem a).2 ha)
  have l2 : ((hs.erase a).erase b).length = (hs.erase a).length - 1 :=
    List.length_erase_of_mem (nd.mem_erase_iff.2 ⟨ab.symm, (mem b).2 hb⟩)
  have c : 2 ≤ hs.length := by
    have h1 : a ∈ hs := (mem a).2 ha
    have h2 : b ∈ hs.erase a := nd.mem_erase_iff.2 ⟨ab.symm, (mem b).2 hb⟩
    have := List.length_pos_of_mem h2
    omega
  rw [List.length_append] at q
  omega

section
variable {hs : List Nat} {pp prev i next qq p a b q : Nat} {x y : Vec3 F}

theorem FrontInv.ear (S : FrontStart m0 f) (I : FrontInv m0 m f) (C : Corner m f hs pp prev i next qq p a b q)
    (n4 : 4 ≤ (orbit m.hNext (m.fHe f)).length) : FrontInv m0 (m.earMesh f p a b q) f := by
  have w := I.wf
  have G := earMesh_grow w I.af C
  have fr := earMesh_front w I.af C
  have R := earMesh_ear w I.af C
  have l := w.faceLoop I.af
  have l' := G.wf.faceLoop (G.fal _ I.af)
  refine I.grow S G ?_ ?_ ?_
  · have := loop_length (ns := [m.hFresh]) (a := a) (b := b) l.nodup l'.nodup l.mem l'.mem ⟨C.aa, C.fa⟩ ⟨C.ab, C.fb⟩ C.pq.2.2 (by simp)
      (by
        intro h hh
        have : h = m.hFresh := by simpa using hh
        rintro ⟨a1, _⟩
        have := (w.hBound _ a1).2
        omega)
      (by intro h; rw [fr h]; simp; tauto)
    simp only [List.length_cons, List.length_nil] at this
    omega
  · intro h h' a1 a1' e e' s
    have hs1 : ∀ {h}, m.hAlive h = true → (m.earMesh f p a b q).hSrc h = m.hSrc h := fun a => (G.hal _ a).2
    rcases (fr h).1 ⟨a1, e⟩ with e1 | ⟨o, fo, n1, n2⟩ <;> rcases (fr h').1 ⟨a1', e'⟩ with e1' | ⟨o', fo', n1', n2'⟩
    · rw [e1, e1']
    · rw [e1, hs1 o'] at s
      have sA : m.hSrc a = m.hSrc h' := R.srA.symm.trans s
      exact absurd (I.simple _ _ C.aa o' C.fa fo' sA).symm n1'
    · rw [e1', hs1 o] at s
      have sA : m.hSrc h = m.hSrc a := s.trans R.srA
      exact absurd (I.simple _ _ o C.aa fo C.fa sA) n1
    · rw [hs1 o, hs1 o'] at s
      exact I.simple _ _ o o' fo fo' s
  · intro v a1
    exact .inl a1

theorem FrontInv.mid (S : FrontStart m0 f) (I : FrontInv m0 m f) (C : Corner m f hs pp prev i next qq p a b q)
    (n4 : 4 ≤ (orbit m.hNext (m.fHe f)).length) : FrontInv m0 (m.midMesh f p a b q x) f := by
  have w := I.wf
  have G := midMesh_grow (x := x) w I.af C
  have fr := midMesh_front (x := x) w I.af C
  have T := midMesh_tab (x := x) w I.af C
  have l := w.faceLoop I.af
  have l' := G.wf.faceLoop (G.fal _ I.af)
  have dd : ∀ {h}, m.hAlive h = true → h < m.hFresh := fun a => (w.hBound _ a).2
  refine I.grow S G ?_ ?_ ?_
  · have := loop_length (ns := [m.hFresh, m.hFresh + 1]) (a := a) (b := b) l.nodup l'.nodup l.mem l'.mem ⟨C.aa, C.fa⟩ ⟨C.ab, C.fb⟩ C.pq.2.2 (by simp)
      (by
        intro h hh
        have : h = m.hFresh ∨ h = m.hFresh + 1 := by simpa using hh
        rintro ⟨a1, _⟩
        have := dd a1
        omega)
      (by intro h; rw [fr h]; simp; tauto)
    simp only [List.length_cons, List.length_nil] at this
    omega
  · have val : ∀ {h}, (m.midMesh f p a b q x).hAlive h = true → (m.midMesh f p a b q x).hFace h = f →
        (h = m.hFresh ∧ (m.midMesh f p a b q x).hSrc h = m.hSrc a) ∨ (h = m.hFresh + 1 ∧ (m.midMesh f p a b q x).hSrc h = m.vFresh) ∨
        (m.hAlive h = true ∧ m.hFace h = f ∧ h ≠ a ∧ (m.midMesh f p a b q x).hSrc h = m.hSrc h) := by
      intro h a1 e
      rcases (fr h).1 ⟨a1, e⟩ with e1 | e1 | ⟨o, fo, n1, n2⟩
      · exact .inl ⟨e1, by rw [e1]; exact T.sr0⟩
      · exact .inr (.inl ⟨e1, by rw [e1]; exact T.sr1⟩)
      · exact .inr (.inr ⟨o, fo, n1, (G.hal _ o).2⟩)
    have vb : ∀ {h}, m.hAlive h = true → m.hSrc h ≠ m.vFresh := fun a => (w.vBound _ (w.src_alive _ a)).2.ne
    intro h h' a1 a1' e e' s
    rcases val a1 e with ⟨e1, s1⟩ | ⟨e1, s1⟩ | ⟨o, fo, n1, s1⟩ <;> rcases val a1' e' with ⟨e1', s1'⟩ | ⟨e1', s1'⟩ | ⟨o', fo', n1', s1'⟩ <;> rw [s1, s1'] at s
    · rw [e1, e1']
    · exact absurd s (vb C.aa)
    · exact absurd (I.simple _ _ C.aa o' C.fa fo' s).symm n1'
    · exact absurd s.symm (vb C.aa)
    · rw [e1, e1']
    · exact absurd s.symm (vb o')
    · exact absurd (I.simple _ _ o C.aa fo C.fa s) n1
    · exact absurd s (vb o)
    · exact I.simple _ _ o o' fo fo' s
  · intro v a1
    rcases (T.va v).1 a1 with e | e
    · exact .inr e.ge
    · exact .inl e

theorem FrontInv.wide (S : FrontStart m0 f) (I : FrontInv m0 m f) (C : Corner m f hs pp prev i next qq p a b q)
    (n4 : 4 ≤ (orbit m.hNext (m.fHe f)).length) : FrontInv m0 (m.wideMesh f p a b q x y) f := by
  have w := I.wf
  have G := wideMesh_grow (x := x) (y := y) w I.af C
  have fr := wideMesh_front (x := x) (y := y) w I.af C
  have T := wideMesh_tab (x := x) (y := y) w I.af C
  have l := w.faceLoop I.af
  have l' := G.wf.faceLoop (G.fal _ I.af)
  have dd : ∀ {h}, m.hAlive h = true → h < m.hFresh := fun a => (w.hBound _ a).2
  refine I.grow S G ?_ ?_ ?_
  · have := loop_length (ns := [m.hFresh, m.hFresh + 1, m.hFresh + 2]) (a := a) (b := b) l.nodup l'.nodup l.mem l'.mem ⟨C.aa, C.fa⟩ ⟨C.ab, C.fb⟩
      C.pq.2.2 (by simp)
      (by
        intro h hh
        have : h = m.hFresh ∨ h = m.hFresh + 1 ∨ h = m.hFresh + 2 := by simpa using hh
        rintro ⟨a1, _⟩
        have := dd a1
        omega)
      (by intro h; rw [fr h]; simp; tauto)
    simp only [List.length_cons, List.length_nil] at this
    omega
  · have val : ∀ {h}, (m.wideMesh f p a b q x y).hAlive h = true → (m.wideMesh f p a b q x y).hFace h = f →
        (h = m.hFresh ∧ (m.wideMesh f p a b q x y).hSrc h = m.hSrc a) ∨ (h = m.hFresh + 1 ∧ (m.wideMesh f p a b q x y).hSrc h = m.vFresh) ∨
        (h = m.hFresh + 2 ∧ (m.wideMesh f p a b q x y).hSrc h = m.vFresh + 1) ∨
        (m.hAlive h = true ∧ m.hFace h = f ∧ h ≠ a ∧ (m.wideMesh f p a b q x y).hSrc h = m.hSrc h) := by
      intro h a1 e
      rcases (fr h).1 ⟨a1, e⟩ with e1 | e1 | e1 | ⟨o, fo, n1, n2⟩
      · exact .inl ⟨e1, by rw [e1]; exact T.sr0⟩
      · exact .inr (.inl ⟨e1, by rw [e1]; exact T.sr1⟩)
      · exact .inr (.inr (.inl ⟨e1, by rw [e1]; exact T.sr2⟩))
      · exact .inr (.inr (.inr ⟨o, fo, n1, (G.hal _ o).2⟩))
    have vb : ∀ {h}, m.hAlive h = true → m.hSrc h < m.vFresh := fun a => (w.vBound _ (w.src_alive _ a)).2
    intro h h' a1 a1' e e' s
    have va := vb C.aa
    rcases val a1 e with ⟨e1, s1⟩ | ⟨e1, s1⟩ | ⟨e1, s1⟩ | ⟨o, fo, n1, s1⟩ <;>
      rcases val a1' e' with ⟨e1', s1'⟩ | ⟨e1', s1'⟩ | ⟨e1', s1'⟩ | ⟨o', fo', n1', s1'⟩ <;> rw [s1, s1'] at s
    · rw [e1, e1']
    · omega
    · omega
    · exact absurd (I.simple _ _ C.aa o' C.fa fo' s).symm n1'
    · omega
    · rw [e1, e1']
    · omega
    · have := vb o'; omega
    · omega
    · omega
    · rw [e1, e1']
    · have := vb o'; omega
    · exact absurd (I.simple _ _ o C.aa fo C.fa s) n1
    · have := vb o; omega
    · have := vb o; omega
    · exact I.simple _ _ o o' fo fo' s
  · intro v a1
    rcases (T.va v).1 a1 with e | e | e
    · exact .inr (by omega)
    · exact .inr e.ge
    · exact .inl e

/-! ### Merging -/

/-- a vertex of the front that is not locked is new -/
theorem FrontInv.vnew (S : FrontStart m0 f) (lk : ∀ h, m0.hAlive h = true → m0.hFace h = f → m0.vLock (m0.hSrc h) = true)
    (I : FrontInv m0 m f) (ab : m.hAlive b = true) (fb : m.hFace b = f) (ul : m.vLock (m.hSrc b) = false) : m0.vAlive (m.hSrc b) = false := by
  rw [Bool.eq_false_iff]
  intro o
  obtain ⟨x, ax, fx, sx⟩ := I.front b ab fb o
  have := lk x ax fx
  rw [sx, ← (I.vo _ o).2.1, ul] at this
  exact absurd this (by simp)

/-- the triangle behind a side of the front -/
theorem FrontInv.behind (S : FrontStart m0 f) (lk : ∀ h, m0.hAlive h = true → m0.hFace h = f → m0.vLock (m0.hSrc h) = true)
    (I : FrontInv m0 m f) (C : Corner m f hs pp prev i next qq p a b q) (ul : m.vLock (m.hSrc b) = false) :
    Behind m f a b q (m.hRev b) (m.hNext (m.hRev b)) (m.hNext (m.hNext (m.hRev b))) (m.hFace (m.hRev b)) := by
  have w := I.wf
  have ar := w.rev_alive _ C.ab
  have vv : m.hSrc b ≠ m.hSrc q := fun e => C.pq.2.1 (I.simple _ _ C.ab C.aq C.fb C.fq e).symm
  -- a partner on the front would be the next side, and the front would have two sides
  have tf : m.hFace (m.hRev b) ≠ f := by
    intro e
    have s1 : m.hSrc (m.hRev b) = m.hSrc q := by rw [w.src_rev _ C.ab, C.nb]
    have e1 : m.hRev b = q := I.simple _ _ ar C.aq e C.fq s1
    have an := w.next_alive _ ar
    have s2 : m.hSrc (m.hNext (m.hRev b)) = m.hSrc b := by rw [← w.src_rev _ ar, w.rev_rev _ C.ab]
    have e2 : m.hNext (m.hRev b) = b := I.simple _ _ an C.ab (by rw [w.face_next _ ar, e]) C.fb s2
    rw [e1] at e2
    -- `a` is the side before `b`, so it is `q`
    have e3 : a = q := w.next_inj _ _ C.aa C.aq (by rw [C.na, e2])
    exact C.pq.1 e3.symm
  have tn : m0.fAlive (m.hFace (m.hRev b)) = false := by
    rw [Bool.eq_false_iff]
    intro o
    obtain ⟨a0, e0⟩ := I.new _ ar o tf
    have e1 := (I.out _ a0 (by rw [e0]; exact tf)).2.2.1
    have an := S.wf.next_alive _ a0
    have e2 := (I.out _ an (by rw [S.wf.face_next _ a0, e0]; exact tf)).2.1
    rw [← e1, ← w.src_rev _ ar, w.rev_rev _ C.ab] at e2
    have o2 := S.wf.src_alive _ an
    rw [← e1, ← e2] at o2
    exact absurd o2 (by rw [I.vnew S lk C.ab C.fb ul]; simp)
  exact ⟨C.aa, C.ab, C.fb, C.na, C.nb, C.pq.2.2, rfl, rfl, rfl, (I.tri _ ar tn).1, rfl, tf, C.pq.2.1.symm, vv⟩

theorem FrontInv.merge [Scalar F] (S : FrontStart m0 f) (lk : ∀ h, m0.hAlive h = true → m0.hFace h = f → m0.vLock (m0.hSrc h) = true)
    (I : FrontInv m0 m f) (n4 : 4 ≤ (orbit m.hNext (m.fHe f)).length) {a b q c0 c1 c2 t : Nat} (ul : m.vLock (m.hSrc b) = false)
    (B : Behind m f a b q c0 c1 c2 t) (R : MergeEnd m m' f a b q c0 c1 c2 t) : FrontInv m0 m' f := by
  have w := I.wf
  have w' := R.wf w B
  have T := R.tab
  have aq : m.hAlive q = true := B.nb ▸ w.next_alive b B.ab
  have fq : m.hFace q = f := by rw [← B.nb, w.face_next _ B.ab, B.fb]
  have h0 : m.hAlive c0 = true := B.rb ▸ w.rev_alive b B.ab
  have h1 : m.hAlive c1 = true := B.n0 ▸ w.next_alive _ h0
  have h2 : m.hAlive c2 = true := B.n1 ▸ w.next_alive _ h1
  have f1 : m.hFace c1 = t := by rw [← B.n0, w.face_next _ h0, B.ft]
  have f2 : m.hFace c2 = t := by rw [← B.n1, w.face_next _ h1, f1]
  have fa : m.hFace a = f := by rw [← w.face_next _ B.aa, B.na, B.fb]
  have r0 : m.hRev c0 = b := by rw [← B.rb, w.rev_rev _ B.ab]
  have s1 : m.hSrc c1 = m.hSrc b := by rw [← B.n0, ← w.src_rev _ h0, r0]
  -- the vertex that goes is new, and so is the triangle
  have vnew : m0.vAlive (m.hSrc b) = false := I.vnew S lk B.ab B.fb ul
  have oldsrc : ∀ h, m.hAlive h = true → m0.fAlive (m.hFace h) = true → m.hFace h ≠ f → m.hSrc h ≠ m.hSrc b := by
    intro h ah o e es
    obtain ⟨a', e'⟩ := I.new h ah o e
    have := (I.out h a' (by rw [e']; exact e)).2.1
    have v := S.wf.src_alive _ a'
    rw [← this, es, vnew] at v
    exact absurd v (by simp)
  have tnew : m0.fAlive t = false := by
    rw [Bool.eq_false_iff]
    intro o
    exact oldsrc c1 h1 (by rw [f1]; exact o) (by rw [f1]; exact B.tf) s1
  have af' : m'.fAlive f = true := (T.fa f).2 ⟨B.tf.symm, I.af⟩
  have tal : ∀ h, m'.hAlive h = true ↔ h ≠ b ∧ h ≠ c0 ∧ h ≠ c1 ∧ h ≠ c2 ∧ m.hAlive h = true := T.al
  have tfc : ∀ h, m'.hFace h = m.hFace h := T.fco
  have trv : ∀ {h}, h ≠ m.hRev c1 → h ≠ m.hRev c2 → m'.hRev h = m.hRev h := T.rvo
  have tnx : ∀ {h}, h ≠ a → m'.hNext h = m.hNext h := T.nxo
  have ts1 : ∀ {h}, m.hAlive h = true → m.hSrc h = m.hSrc b → m'.hSrc h = m.hSrc q := T.sr1
  have tso : ∀ {h}, m.hAlive h = true → m.hSrc h ≠ m.hSrc b → m'.hSrc h = m.hSrc h := T.sro
  -- the sides of the front
  have fr : ∀ h, (m'.hAlive h = true ∧ m'.hFace h = f) ↔ (m.hAlive h = true ∧ m.hFace h = f) ∧ h ≠ b := by
    intro h
    rw [tal, tfc]
    constructor
    · rintro ⟨⟨q1, q2, q3, q4, q5⟩, e⟩
      exact ⟨⟨q5, e⟩, q1⟩
    · rintro ⟨⟨q5, e⟩, q1⟩
      exact ⟨⟨q1, fun e' => B.tf (by rw [← B.ft, ← e', e]), fun e' => B.tf (by rw [← f1, ← e', e]), fun e' => B.tf (by rw [← f2, ← e', e]), q5⟩, e⟩
  have fsrc : ∀ {h}, m'.hAlive h = true → m'.hFace h = f → m.hAlive h = true ∧ m.hFace h = f ∧ m'.hSrc h = m.hSrc h := by
    intro h ah e
    obtain ⟨⟨q1, q2⟩, q3⟩ := (fr h).1 ⟨ah, e⟩
    exact ⟨q1, q2, tso q1 (fun es => q3 (I.simple _ _ q1 B.ab q2 B.fb es))⟩
  refine ⟨w', af', ?_, ?_, ?_, ?_, ?_, ?_, ?_, ?_, ?_, by rw [R.hfr]; exact I.hfr, by rw [R.vfr]; exact I.vfr, by rw [R.ffr]; exact I.ffr,
    ?_, ?_, ?_⟩
  · have l := w.faceLoop I.af
    have l' := w'.faceLoop af'
    have p : (orbit m'.hNext (m'.fHe f)).Perm ((orbit m.hNext (m.fHe f)).erase b) := by
      rw [List.perm_ext_iff_of_nodup l'.nodup (l.nodup.erase b)]
      intro h
      rw [l'.mem, fr, l.nodup.mem_erase_iff, l.mem]
      tauto
    rw [p.length_eq, List.length_erase_of_mem ((l.mem b).2 ⟨B.ab, B.fb⟩)]
    omega
  · intro h ah hf
    obtain ⟨q1, q2, q3, q4, q5⟩ := (tal h).1 ah
    rw [tfc] at hf
    obtain ⟨t, ns⟩ := I.tri h q5 hf
    have hf : m.hFace h ≠ f := fun e => by rw [e, S.af] at hf; exact absurd hf (by simp)
    have a1 := w.next_alive h q5
    have e1 : m.hFace (m.hNext h) ≠ f := by rw [w.face_next h q5]; exact hf
    have a2 := w.next_alive _ a1
    have e2 : m.hFace (m.hNext (m.hNext h)) ≠ f := by rw [w.face_next _ a1]; exact e1
    have na : ∀ {x}, m.hFace x ≠ f → x ≠ a := fun e e' => e (by rw [e', fa])
    unfold Mesh.OnTri at t ⊢
    rw [tnx (na hf), tnx (na e1), tnx (na e2)]
    exact ⟨t, ns⟩
  · intro h h' ah ah' e e' es
    obtain ⟨o, fo, so⟩ := fsrc ah e
    obtain ⟨o', fo', so'⟩ := fsrc ah' e'
    rw [so, so'] at es
    exact I.simple _ _ o o' fo fo' es
  · intro h ah e
    obtain ⟨q1, q2, q3, q4⟩ := I.out h ah e
    have ef : m.hFace h ≠ f := by rw [q4]; exact e
    have o : m0.fAlive (m.hFace h) = true := by rw [q4]; exact S.wf.face_alive _ ah
    have et : m.hFace h ≠ t := fun e' => by rw [e', tnew] at o; exact absurd o (by simp)
    refine ⟨(tal h).2 ⟨fun e' => ef (by rw [e', B.fb]), fun e' => et (by rw [e', B.ft]), fun e' => et (by rw [e', f1]), fun e' => et (by rw [e', f2]), q1⟩,
      ?_, ?_, ?_⟩
    · rw [tso q1 (oldsrc h q1 o ef), q2]
    · rw [tnx (fun e' => ef (by rw [e', fa])), q3]
    · rw [tfc, q4]
  · intro h ah o e
    rw [tfc] at o e ⊢
    exact I.new h ((tal h).1 ah).2.2.2.2 o e
  · intro v ov
    obtain ⟨q1, q2, q3⟩ := I.vo v ov
    have nv : v ≠ m.hSrc b := fun e => by rw [e, vnew] at ov; exact absurd ov (by simp)
    refine ⟨(T.va v).2 ⟨nv, q1⟩, by rw [R.lock]; exact q2, fun hb => ?_⟩
    have nq : v ≠ m.hSrc q := by
      intro e
      rw [e] at ov
      obtain ⟨x, ax, fx, sx⟩ := I.front q aq fq ov
      exact hb x ax fx (by rw [sx, e])
    rw [R.pos, upd_ne _ _ nq]
    exact q3 hb
  · intro h ah e o
    obtain ⟨q1, q2, q3⟩ := fsrc ah e
    rw [q3] at o ⊢
    exact I.front h q1 q2 o
  · intro v av d
    have := I.vn v ((T.va v).1 av).2 d
    rw [R.lock]
    exact this
  · intro g og
    exact (T.fa g).2 ⟨fun e => by rw [e, tnew] at og; exact absurd og (by simp), I.fold g og⟩
  · intro h ah d o
    have a0 := ((tal h).1 ah).2.2.2.2
    rw [tfc] at d
    by_cases e : m.hSrc h = m.hSrc b
    · rw [ts1 a0 e] at o ⊢
      exact I.front q aq fq o
    · rw [tso a0 e] at o ⊢
      exact I.corner h a0 d o
  · intro h ah e e'
    have k := I.rev h ah e e'
    have a1 := (I.out h ah e).1
    have ar := S.wf.rev_alive _ ah
    have o : m0.fAlive (m.hFace (m.hRev h)) = true := by rw [k, (I.out _ ar e').2.2.2]; exact S.wf.face_alive _ ar
    have n1 : h ≠ m.hRev c1 := fun x => by
      rw [x, w.rev_rev _ h1, f1, tnew] at o
      exact absurd o (by simp)
    have n2 : h ≠ m.hRev c2 := fun x => by
      rw [x, w.rev_rev _ h2, f2, tnew] at o
      exact absurd o (by simp)
    exact (trv n1 n2).trans k
  · intro h ah e e'
    have q := I.out h ah e
    have n1 : h ≠ m.hRev c1 := fun x => by
      have a1 := S.wf.next_alive _ ah
      have e1 : m0.hFace (m0.hNext h) ≠ f := by rw [S.wf.face_next _ ah]; exact e
      have k := S.wf.src_alive _ a1
      rw [← (I.out _ a1 e1).2.1, ← q.2.2.1, ← w.src_rev _ q.1, x, w.rev_rev _ h1, s1, vnew] at k
      exact absurd k (by simp)
    by_cases n2 : h = m.hRev c2
    · have k : m'.hRev h = m.hRev c1 := by rw [n2]; exact T.rv2
      rw [k, tfc]
      by_cases o : m0.fAlive (m.hFace (m.hRev c1)) = true
      · left
        by_contra x
        have ar := w.rev_alive _ h1
        have an := w.next_alive _ ar
        refine oldsrc (m.hNext (m.hRev c1)) an (by rw [w.face_next _ ar]; exact o) (by rw [w.face_next _ ar]; exact x) ?_
        rw [← w.src_rev _ ar, w.rev_rev _ h1, s1]
      · exact .inr (by simpa using o)
    · rw [trv n1 n2, tfc]
      exact I.border h ah e e'

end
end TinyMesh
