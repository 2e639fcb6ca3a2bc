import Verif.Proof.FrontR
import Verif.Proof.SettleC
/-
Flags and the array of faces when a hole is closed by an advancing front.
-/
namespace TinyMesh
open Orbit
variable {F : Type} {m m' m0 : Mesh F} {f : Nat}

/-- what a round does to flags and to the array of faces -/
structure SoftStep (m m' : Mesh F) (f : Nat) : Prop where
  out : ∀ h, m.hAlive h = true → m.hFace h ≠ f → m'.fAlive (m.hFace h) = true → m'.hAlive h = true ∧ m'.hFace h = m.hFace h ∧ m'.hBd h = m.hBd h
  new : ∀ g, m'.fAlive g = true → m.fAlive g = true ∨ ∃ h, m'.hAlive h = true ∧ m'.hFace h = g ∧ m'.hBd h = false
  slot : ∀ i g : Nat, m.fs[i]? = some g → (∀ k g' : Nat, k ≤ i → m.fs[k]? = some g' → m'.fAlive g' = true) → m'.fs[i]? = some g

theorem slot_append {l t : List Nat} {i g : Nat} (e : l[i]? = some g) : (l ++ t)[i]? = some g := by
  obtain ⟨h, _⟩ := List.getElem?_eq_some_iff.1 e
  rw [List.getElem?_append_left h, e]

section
variable {hs : List Nat} {pp prev i next qq p a b q : Nat} {x y : Vec3 F}

theorem earMesh_soft (w : m.WF) (af : m.fAlive f = true) (C : Corner m f hs pp prev i next qq p a b q) : SoftStep m (m.earMesh f p a b q) f := by
  have G := earMesh_grow w af C
  have T := earMesh_ear w af C
  have al := (w.hBound _ C.aa).2
  have lt : ∀ {h}, m.hAlive h = true → h < m.hFresh := fun a => (w.hBound _ a).2
  refine ⟨fun h ah hf _ => ⟨(G.hal h ah).1, (G.out h ah hf).2, ?_⟩, fun g ag => ?_, fun i g e _ => slot_append e⟩
  · have h2 : h ≠ a := fun e => hf (e ▸ C.fa)
    have h3 : h ≠ b := fun e => hf (e ▸ C.fb)
    have := lt ah
    simp [Mesh.earMesh, upd, h2, h3, this.ne, (show h ≠ m.hFresh + 1 by omega)]
  · rcases (T.fa g).1 ag with e | e
    · refine .inr ⟨a, (G.hal a C.aa).1, T.fca.trans e.symm, ?_⟩
      simp [Mesh.earMesh, upd, al.ne, (show a ≠ m.hFresh + 1 by omega)]
    · exact .inl e

theorem midMesh_soft (w : m.WF) (af : m.fAlive f = true) (C : Corner m f hs pp prev i next qq p a b q) : SoftStep m (m.midMesh f p a b q x) f := by
  have G := midMesh_grow (x := x) w af C
  have T := midMesh_tab (x := x) w af C
  have al := (w.hBound _ C.aa).2
  have bl := (w.hBound _ C.ab).2
  have n : ∀ {h}, m.hAlive h = true → ∀ k, h ≠ m.hFresh + k := fun a k => by have := (w.hBound _ a).2; omega
  refine ⟨fun h ah hf _ => ⟨(G.hal h ah).1, (G.out h ah hf).2, ?_⟩, fun g ag => ?_, fun i g e _ => ?_⟩
  · have h2 : h ≠ a := fun e => hf (e ▸ C.fa)
    have h3 : h ≠ b := fun e => hf (e ▸ C.fb)
    simp [Mesh.midMesh, Mesh.midTwo, upd, h2, h3, Nat.add_assoc, n ah]
    intro e; exact absurd e (n ah 0)
  · have na := fun k => n C.aa k
    have nb := fun k => n C.ab k
    rcases (T.fa g).1 ag with e | e | e
    · refine .inr ⟨a, (G.hal a C.aa).1, T.fca.trans e.symm, ?_⟩
      simp [Mesh.midMesh, Mesh.midTwo, upd, na, C.pq.2.2]
    · refine .inr ⟨b, (G.hal b C.ab).1, T.fcb.trans e.symm, ?_⟩
      simp [Mesh.midMesh, Mesh.midTwo, upd, nb]
    · exact .inl e
  · exact slot_append (slot_append e)

set_option maxHeartbeats 1000000 in
theorem wideMesh_soft (w : m.WF) (af : m.fAlive f = true) (C : Corner m f hs pp prev i next qq p a b q) : SoftStep m (m.wideMesh f p a b q x y) f := by
  have G := wideMesh_grow (x := x) (y := y) w af C
  have T := wideMesh_tab (x := x) (y := y) w af C
  have al := (w.hBound _ C.aa).2
  have bl := (w.hBound _ C.ab).2
  have n : ∀ {h}, m.hAlive h = true → ∀ k, h ≠ m.hFresh + k := fun a k => by have := (w.hBound _ a).2; omega
  refine ⟨fun h ah hf _ => ⟨(G.hal h ah).1, (G.out h ah hf).2, ?_⟩, fun g ag => ?_, fun i g e _ => ?_⟩
  · have h2 : h ≠ a := fun e => hf (e ▸ C.fa)
    have h3 : h ≠ b := fun e => hf (e ▸ C.fb)
    simp [Mesh.wideMesh, Mesh.wideTwo, upd, h2, h3, Nat.add_assoc, n ah]
    intro e; exact absurd e (n ah 0)
  · have na := fun k => n C.aa k
    have nb := fun k => n C.ab k
    rcases (T.fa g).1 ag with e | e | e | e
    · refine .inr ⟨a, (G.hal a C.aa).1, T.fca.trans e.symm, ?_⟩
      simp [Mesh.wideMesh, Mesh.wideTwo, upd, na, C.pq.2.2]
    · refine .inr ⟨m.hFresh + 5, (T.al _).2 (by simp), T.fc5.trans e.symm, ?_⟩
      have nb5 := (nb 5).symm
      have na5 := (na 5).symm
      simp [Mesh.wideMesh, Mesh.wideTwo, upd, na5, nb5]
    · refine .inr ⟨b, (G.hal b C.ab).1, T.fcb.trans e.symm, ?_⟩
      simp [Mesh.wideMesh, Mesh.wideTwo, upd, nb]
    · exact .inl e
  · exact slot_append (slot_append (slot_append e))

end

theorem MergeEnd.soft [Scalar F] (w : m.WF) {a b q c0 c1 c2 t : Nat} (B : Behind m f a b q c0 c1 c2 t) (R : MergeEnd m m' f a b q c0 c1 c2 t) : SoftStep m m' f := by
  have T := R.tab
  have h0 : m.hAlive c0 = true := B.rb ▸ w.rev_alive b B.ab
  have h1 : m.hAlive c1 = true := B.n0 ▸ w.next_alive _ h0
  have f1 : m.hFace c1 = t := by rw [← B.n0, w.face_next _ h0, B.ft]
  have f2 : m.hFace c2 = t := by rw [← B.n1, w.face_next _ h1, f1]
  refine ⟨fun h ah hf hg => ⟨(T.al h).2 ⟨?_, ?_, ?_, ?_, ah⟩, T.fco h, by rw [R.bd]⟩, fun g ag => .inl ((T.fa g).1 ag).2, fun i g e k => R.slot i g e ?_⟩
  · rintro rfl; exact hf B.fb
  · rintro rfl; exact ((T.fa _).1 hg).1 B.ft
  · rintro rfl; exact ((T.fa _).1 hg).1 f1
  · rintro rfl; exact ((T.fa _).1 hg).1 f2
  · have at' : m.fAlive t = true := B.ft ▸ w.face_alive _ h0
    obtain ⟨j, lj, ej, hj⟩ := w.fDense.at at'
    by_contra c
    have := k j t (by omega) (by rw [List.getElem?_eq_getElem lj, ej])
    exact ((T.fa t).1 this).1 rfl

theorem FrontStep.soft [Scalar F] {avg : F} {r : Bool} (w : m.WF) (af : m.fAlive f = true)
    (beh : ∀ {hs : List Nat} {pp prev i next qq p a b q : Nat}, Corner m f hs pp prev i next qq p a b q → m.vLock (m.hSrc b) = false →
      Behind m f a b q (m.hRev b) (m.hNext (m.hRev b)) (m.hNext (m.hNext (m.hRev b))) (m.hFace (m.hRev b)))
    (s : FrontStep avg m f (.ok r m')) : SoftStep m m' f := by
  generalize e : Out.ok r m' = o at s
  cases s with
  | merge C c s R =>
    injection e with e1 e2
    subst e2
    exact R.soft w (beh C (closeAt_unlocked c))
  | ear C => injection e with e1 e2; subst e2; exact earMesh_soft w af C
  | mid C => injection e with e1 e2; subst e2; exact midMesh_soft w af C
  | wide C => injection e with e1 e2; subst e2; exact wideMesh_soft w af C
  | _ => exact absurd e (by simp)

/-- flags and the array of faces during a run of the front -/
structure SoftInv (m0 m : Mesh F) (f : Nat) : Prop where
  out : ∀ h, m0.hAlive h = true → m0.hFace h ≠ f → m.hBd h = m0.hBd h
  new : ∀ g, m.fAlive g = true → m0.fAlive g = false → ∃ h, m.hAlive h = true ∧ m.hFace h = g ∧ m.hBd h = false
  slot : ∀ i g : Nat, m0.fs[i]? = some g → m.fs[i]? = some g

theorem SoftInv.step (w0 : m0.WF) (af0 : m0.fAlive f = true) (I : FrontInv m0 m f) (I' : FrontInv m0 m' f) (P : SoftInv m0 m f) (s : SoftStep m m' f) : SoftInv m0 m' f := by
  refine ⟨fun h ah hf => ?_, fun g ag d => ?_, fun i g e => ?_⟩
  · obtain ⟨a1, -, -, f1⟩ := I.out h ah hf
    have := s.out h a1 (by rw [f1]; exact hf) (by rw [f1]; exact I'.fold _ (w0.face_alive _ ah))
    rw [this.2.2, P.out h ah hf]
  · rcases s.new g ag with k | k
    · obtain ⟨h, a1, f1, b1⟩ := P.new g k d
      have gf : g ≠ f := fun e => by rw [e, af0] at d; cases d
      have := s.out h a1 (by rw [f1]; exact gf) (by rw [f1]; exact ag)
      exact ⟨h, this.1, this.2.1.trans f1, this.2.2.trans b1⟩
    · exact k
  · refine s.slot i g (P.slot i g e) fun k g' hk e' => ?_
    obtain ⟨lt, _⟩ := List.getElem?_eq_some_iff.1 e
    have e0 : m0.fs[k]? = some m0.fs[k] := List.getElem?_eq_getElem (by omega)
    have := P.slot k _ e0
    rw [e'] at this
    cases this
    exact I'.fold _ ((w0.fDense.mem _).1 (List.mem_of_getElem? e0))

/-- what closing the hole `f` does to flags and to the array of faces -/
structure SoftFilled (m m' : Mesh F) (f : Nat) : Prop where
  weak : ∀ h, m.hAlive h = true → m.hFace h ≠ f → m.hBd h = false → m'.hBd h = false
  out : ∀ h, m.hAlive h = true → m.hFace h ≠ f → m.hFace (m.hRev h) ≠ f → m'.hBd h = m.hBd h
  new : ∀ g, m'.fAlive g = true → m.fAlive g = false → ∃ h, m'.hAlive h = true ∧ m'.hFace h = g ∧ m'.hBd h = false
  slot : ∀ i g : Nat, m.fs[i]? = some g → m'.fs[i]? = some g

theorem advancingFront_soft [Scalar F] (w : m.WF) (H : m.SimpleHole f) {fuel : Nat} (e : advancingFront fuel f m = .ok () m') : SoftFilled m m' f := by
  obtain ⟨S, lk⟩ := lockHole_start w H
  rcases advancingFront_out w H (P := fun m1 => SoftInv (m.lockHole f) m1 f)
    ⟨fun _ _ _ => rfl, fun g a d => absurd (a.symm.trans d) (by simp), fun _ _ e => e⟩
    (fun avg m1 m2 h I I' s => h.step S.wf S.af I I' (s.soft I.wf I.af (fun C ul => I.behind S lk C ul))) fuel with ⟨m1, I, P, n3, k⟩ | ⟨avg, e', m1, _, _, _, k, _⟩
  · rw [k] at e
    injection e with _ e
    rw [← e]
    have bd : ∀ h, (m1.lastMesh f).hBd h = if h ∈ orbit m1.hNext (m1.fHe f) ++ (orbit m1.hNext (m1.fHe f)).map m1.hRev then false else m1.hBd h := fun _ => rfl
    have l1 := I.wf.faceLoop I.af
    refine ⟨fun h a hf b => ?_, fun h a hf hr => ?_, fun g a d => ?_, P.slot⟩
    · rw [bd]
      split
      · rfl
      · rw [P.out h a hf]; exact b
    · rw [bd, if_neg, P.out h a hf]
      · rfl
      · intro c
        rcases List.mem_append.1 c with c | c
        · have := ((l1.mem h).1 c).2
          rw [(I.out h a hf).2.2.2] at this
          exact hf this
        · obtain ⟨h', c', rfl⟩ := List.mem_map.1 c
          obtain ⟨a', f'⟩ := (l1.mem h').1 c'
          have e1 := I.rev _ a hf hr
          rw [I.wf.rev_rev _ a'] at e1
          have a2 := w.rev_alive _ a
          have := (I.out _ a2 hr).2.2.2
          apply hr
          have e2 : m.hRev (m1.hRev h') = h' := e1.symm
          rw [e2] at this ⊢
          exact this.symm.trans f'
    · obtain ⟨h, a1, f1, b1⟩ := P.new g a d
      refine ⟨h, a1, f1, ?_⟩
      rw [bd]
      split
      · rfl
      · exact b1
  · rw [k] at e; cases e

end TinyMesh
