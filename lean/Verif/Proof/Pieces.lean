import Verif.Spec.Pieces
import Verif.Spec.Remesh
import Verif.Proof.EditB
/-
Connected pieces and holes under single edits.
-/
namespace TinyMesh
open Orbit
variable {F : Type} {m m' : Mesh F}

theorem Mesh.Together.refl (u : Nat) : m.Together u u := Relation.EqvGen.refl u
theorem Mesh.Together.symm {u v : Nat} (h : m.Together u v) : m.Together v u := Relation.EqvGen.symm _ _ h
theorem Mesh.Together.trans {u v w : Nat} (h : m.Together u v) (h' : m.Together v w) : m.Together u w := Relation.EqvGen.trans _ _ _ h h'
theorem Mesh.Joined.linked {u v : Nat} (h : m.Joined u v) : m.Together u v := Relation.EqvGen.rel _ _ h

/-- steps that become walks after renaming -/
theorem Mesh.Together.map (σ : Nat → Nat) (k : ∀ a b, m.Joined a b → m'.Together (σ a) (σ b)) {u v : Nat} (h : m.Together u v) :
    m'.Together (σ u) (σ v) := by
  induction h with
  | rel a b h => exact k a b h
  | refl a => exact .refl _
  | symm a b _ ih => exact ih.symm
  | trans a b c _ _ ih ih' => exact ih.trans ih'

theorem Mesh.WF.joined_alive (w : m.WF) {a b : Nat} (h : m.Joined a b) : m.vAlive a = true ∧ m.vAlive b = true := by
  obtain ⟨x, ax, rfl, rfl⟩ := h
  exact ⟨w.src_alive _ ax, w.src_alive _ (w.next_alive _ ax)⟩

/-- the corners of a face -/
theorem Mesh.WF.linked_face (w : m.WF) {x y : Nat} (ax : m.hAlive x = true) (ay : m.hAlive y = true) (e : m.hFace x = m.hFace y) :
    m.Together (m.hSrc x) (m.hSrc y) := by
  obtain ⟨n, rfl⟩ := w.face_conn x y ax ay e
  clear ay e
  induction n generalizing x with
  | zero => exact .refl _
  | succ n ih => exact Mesh.Together.trans (Mesh.Joined.linked ⟨x, ax, rfl, rfl⟩) (ih (w.next_alive _ ax))

/-- A correspondence of vertices that is one of pieces; like `SamePieces`, but easy to compose. -/
structure PieceRel (m m' : Mesh F) (T : Nat → Nat → Prop) : Prop where
  alive : ∀ u v, T u v → m.vAlive u = true ∧ m'.vAlive v = true
  left : ∀ u, m.vAlive u = true → ∃ v, T u v
  right : ∀ v, m'.vAlive v = true → ∃ u, T u v
  linked : ∀ u v u' v', T u v → T u' v' → (m.Together u u' ↔ m'.Together v v')
  same : ∀ v, v < m.vFresh → m.vAlive v = true → m'.vAlive v = true → T v v

def Corresp (m m' : Mesh F) : Prop := ∃ T, PieceRel m m' T

theorem Corresp.refl (m : Mesh F) : Corresp m m :=
  ⟨fun u v => m.vAlive u = true ∧ u = v, by rintro u _ ⟨a, rfl⟩; exact ⟨a, a⟩, fun u a => ⟨u, a, rfl⟩, fun u a => ⟨u, a, rfl⟩,
    by rintro u _ u' _ ⟨_, rfl⟩ ⟨_, rfl⟩; rfl, fun v _ a _ => ⟨a, rfl⟩⟩

theorem Corresp.trans {m1 m2 m3 : Mesh F} (n : m1.vFresh ≤ m2.vFresh) (n' : ∀ x, m3.vAlive x = true → x < m2.vFresh → m2.vAlive x = true)
    (h : Corresp m1 m2) (h' : Corresp m2 m3) : Corresp m1 m3 := by
  obtain ⟨T, h⟩ := h
  obtain ⟨T', h'⟩ := h'
  refine ⟨fun u w => ∃ v, T u v ∧ T' v w, ?_, ?_, ?_, ?_, ?_⟩
  · rintro u w ⟨v, t, t'⟩; exact ⟨(h.alive _ _ t).1, (h'.alive _ _ t').2⟩
  · intro u a
    obtain ⟨v, t⟩ := h.left u a
    obtain ⟨w, t'⟩ := h'.left v (h.alive _ _ t).2
    exact ⟨w, v, t, t'⟩
  · intro w a
    obtain ⟨v, t'⟩ := h'.right w a
    obtain ⟨u, t⟩ := h.right v (h'.alive _ _ t').1
    exact ⟨u, v, t, t'⟩
  · rintro u w u' w' ⟨v, t, t'⟩ ⟨v', s, s'⟩
    exact (h.linked _ _ _ _ t s).trans (h'.linked _ _ _ _ t' s')
  · intro v l a a'
    have l2 := Nat.lt_of_lt_of_le l n
    have a2 := n' v a' l2
    exact ⟨v, h.same v l a a2, h'.same v l2 a2 a'⟩

/-- vertices may be added -/
theorem Corresp.grow (o : ∀ v, m.vAlive v = true → m'.vAlive v = true) (n : ∀ v, m'.vAlive v = true → ∃ u, m.vAlive u = true ∧ m'.Together u v)
    (k : ∀ u v, m.vAlive u = true → m.vAlive v = true → (m.Together u v ↔ m'.Together u v)) : Corresp m m' :=
  ⟨fun u v => m.vAlive u = true ∧ m'.vAlive v = true ∧ m'.Together u v, fun _ _ h => ⟨h.1, h.2.1⟩, fun u a => ⟨u, a, o u a, .refl u⟩,
    fun v a => by obtain ⟨u, b, c⟩ := n v a; exact ⟨u, b, a, c⟩,
    fun u v u' v' t t' => (k u u' t.1 t'.1).trans
      ⟨fun h => (Mesh.Together.symm t.2.2).trans (h.trans t'.2.2), fun h => t.2.2.trans (h.trans (Mesh.Together.symm t'.2.2))⟩,
    fun v _ a a' => ⟨a, a', .refl v⟩⟩

/-- vertices may be removed -/
theorem Corresp.shrink (o : ∀ v, m'.vAlive v = true → m.vAlive v = true) (n : ∀ u, m.vAlive u = true → ∃ v, m'.vAlive v = true ∧ m.Together u v)
    (k : ∀ u v, m'.vAlive u = true → m'.vAlive v = true → (m.Together u v ↔ m'.Together u v)) : Corresp m m' :=
  ⟨fun u v => m.vAlive u = true ∧ m'.vAlive v = true ∧ m.Together u v, fun _ _ h => ⟨h.1, h.2.1⟩,
    fun u a => by obtain ⟨v, b, c⟩ := n u a; exact ⟨v, a, b, c⟩, fun v a => ⟨v, o v a, a, .refl v⟩,
    fun u v u' v' t t' => Iff.trans ⟨fun h => (Mesh.Together.symm t.2.2).trans (h.trans t'.2.2),
      fun h => t.2.2.trans (h.trans (Mesh.Together.symm t'.2.2))⟩ (k v v' t.2.1 t'.2.1),
    fun v _ a a' => ⟨a, a', .refl v⟩⟩

/-- nothing but the places, locks and the like is changed -/
theorem Corresp.of_eq (h1 : m'.vAlive = m.vAlive) (h2 : m'.hAlive = m.hAlive) (h3 : m'.hSrc = m.hSrc) (h4 : m'.hNext = m.hNext) :
    Corresp m m' := by
  have e : m'.Joined = m.Joined := by unfold Mesh.Joined; rw [h2, h3, h4]
  refine .grow (fun v a => by rw [h1]; exact a) (fun v a => ⟨v, by rw [← h1]; exact a, .refl v⟩) fun u v _ _ => ?_
  unfold Mesh.Together; rw [e]

theorem Corresp.pieces (w : m.WF) (h : Corresp m m') : SamePieces m m' := by
  classical
  obtain ⟨T, h⟩ := h
  choose f hf using h.left
  choose g hg using h.right
  refine ⟨⟨Quotient.lift (fun u => m'.pieceOf (f u.1 u.2) (h.alive _ _ (hf u.1 u.2)).2) ?_,
    Quotient.lift (fun v => m.pieceOf (g v.1 v.2) (h.alive _ _ (hg v.1 v.2)).1) ?_, ?_, ?_⟩, ?_⟩
  · rintro ⟨u, a⟩ ⟨u', a'⟩ e
    exact Quotient.sound ((h.linked _ _ _ _ (hf u a) (hf u' a')).1 e)
  · rintro ⟨u, a⟩ ⟨u', a'⟩ e
    exact Quotient.sound ((h.linked _ _ _ _ (hg u a) (hg u' a')).2 e)
  · intro x
    induction x using Quotient.inductionOn with
    | h u =>
      obtain ⟨u, a⟩ := u
      exact Quotient.sound ((h.linked _ _ _ _ (hg (f u a) (h.alive _ _ (hf u a)).2) (hf u a)).2 (.refl _))
  · intro x
    induction x using Quotient.inductionOn with
    | h v =>
      obtain ⟨v, a⟩ := v
      exact Quotient.sound ((h.linked _ _ _ _ (hf (g v a) (h.alive _ _ (hg v a)).1) (hg v a)).1 (.refl _))
  · intro v a a'
    exact Quotient.sound ((h.linked _ _ _ _ (hf v a) (h.same v (w.vBound v a).2 a a')).1 (.refl _))

/-! Single edits -/

theorem Mesh.HasTri.linked {a b c : Nat} (w : m.WF) (h : m.HasTri a b c) : m.Joined a b ∧ m.Joined b c ∧ m.Joined c a := by
  obtain ⟨x, ax, t, rfl, rfl, rfl⟩ := h
  have an := w.next_alive _ ax
  refine ⟨⟨x, ax, rfl, rfl⟩, ⟨_, an, rfl, rfl⟩, ⟨_, w.next_alive _ an, rfl, by rw [show m.hNext (m.hNext (m.hNext x)) = x from t]⟩⟩

theorem SplitDone.corresp {mid : Vec3 F → Vec3 F → Vec3 F} {p q r s n : Nat} (d : SplitDone mid m m' p q r s n) (w : m.WF)
    (t : m.HasTri p q r) (t' : m.HasTri q p s) : Corresp m m' := by
  obtain ⟨j1, j2, j3⟩ := t.linked w
  obtain ⟨-, j5, j6⟩ := t'.linked w
  have pn : m'.Joined p n := (d.edges _ _).2 (Or.inr (Or.inr ⟨rfl, Or.inl rfl⟩))
  have qn : m'.Joined q n := (d.edges _ _).2 (Or.inr (Or.inr ⟨rfl, Or.inr (Or.inl rfl)⟩))
  have near : ∀ b, (b = p ∨ b = q ∨ b = r ∨ b = s) → m.Together p b := by
    rintro b (rfl | rfl | rfl | rfl)
    · exact .refl _
    · exact j1.linked
    · exact j3.linked.symm
    · exact j5.linked
  have ne : ∀ v, m.vAlive v = true → v ≠ n := fun v a e => by rw [e, d.fresh] at a; cases a
  refine .grow (fun v a => (d.keeps v a).1) ?_ fun u v au av => ⟨?_, fun h => ?_⟩
  · intro v a
    rcases d.only v a with h | rfl
    · exact ⟨v, h, .refl v⟩
    · exact ⟨p, (w.joined_alive j1).1, pn.linked⟩
  · refine Mesh.Together.map id fun a b j => ?_
    by_cases c : SamePair a b p q
    · rcases c with ⟨rfl, rfl⟩ | ⟨rfl, rfl⟩
      · exact pn.linked.trans qn.linked.symm
      · exact qn.linked.trans pn.linked.symm
    · exact ((d.edges a b).2 (Or.inl ⟨j, c⟩)).linked
  · have k := h.map (m := m') (m' := m) (fun v => if v = n then p else v) fun a b j => ?_
    · simpa [ne u au, ne v av] using k
    · rcases (d.edges a b).1 j with ⟨j, -⟩ | ⟨rfl, h⟩ | ⟨rfl, h⟩
      · have := w.joined_alive j
        simpa [ne a this.1, ne b this.2] using j.linked
      · have k := near b h
        have : b ≠ a := by
          rcases h with rfl | rfl | rfl | rfl
          · exact ne _ (w.joined_alive j1).1
          · exact ne _ (w.joined_alive j1).2
          · exact ne _ (w.joined_alive j3).1
          · exact ne _ (w.joined_alive j5).2
        simpa [this] using k
      · have k := near a h
        have : a ≠ b := by
          rcases h with rfl | rfl | rfl | rfl
          · exact ne _ (w.joined_alive j1).1
          · exact ne _ (w.joined_alive j1).2
          · exact ne _ (w.joined_alive j3).1
          · exact ne _ (w.joined_alive j5).2
        simpa [this] using k.symm

theorem FlipDone.corresp {p q r s : Nat} (d : FlipDone m m' p q r s) (w : m.WF) (t : m.HasTri p q r) (t' : m.HasTri q p s) :
    Corresp m m' := by
  obtain ⟨j1, j2, j3⟩ := t.linked w
  obtain ⟨-, j5, j6⟩ := t'.linked w
  obtain ⟨d1, d2, d3, d4, d5, d6⟩ := d.distinct
  have rp : m'.Joined r p := (d.edges _ _).2 (Or.inl ⟨j3, by rintro (⟨h, -⟩ | ⟨h, -⟩); exacts [d2 h.symm, d4 h.symm]⟩)
  have qr : m'.Joined q r := (d.edges _ _).2 (Or.inl ⟨j2, by rintro (⟨-, h⟩ | ⟨-, h⟩); exacts [d4 h.symm, d2 h.symm]⟩)
  refine .grow (fun v a => by rw [d.vAlive]; exact a) (fun v a => ⟨v, by rw [← d.vAlive]; exact a, .refl v⟩) fun u v _ _ => ⟨?_, ?_⟩
  · refine Mesh.Together.map id fun a b j => ?_
    by_cases c : SamePair a b p q
    · rcases c with ⟨rfl, rfl⟩ | ⟨rfl, rfl⟩
      · exact rp.linked.symm.trans qr.linked.symm
      · exact qr.linked.trans rp.linked
    · exact ((d.edges a b).2 (Or.inl ⟨j, c⟩)).linked
  · refine Mesh.Together.map id fun a b j => ?_
    rcases (d.edges a b).1 j with ⟨j, -⟩ | ⟨rfl, rfl⟩ | ⟨rfl, rfl⟩
    · exact j.linked
    · exact j3.linked.trans j5.linked
    · exact j5.linked.symm.trans j3.linked.symm

theorem CollapseDone.corresp {p q : Nat} (d : CollapseDone m m' p q) (g : m.Good) : Corresp m m' := by
  have w := g.wf
  obtain ⟨ap, aq⟩ := w.joined_alive d.joined
  have pq : p ≠ q := by
    obtain ⟨x, ax, rfl, rfl⟩ := d.joined
    exact g.simple.no_loop _ ax
  have ren : ∀ a, m.Together a (if a = q then p else a) := by
    intro a
    by_cases c : a = q
    · rw [if_pos c, c]; exact d.joined.linked.symm
    · rw [if_neg c]; exact .refl a
  refine .shrink (fun v a => ((d.alive v).1 a).1) ?_ fun u v au av => ⟨fun h => ?_, ?_⟩
  · intro u a
    by_cases c : u = q
    · exact ⟨p, (d.alive p).2 ⟨ap, pq⟩, by rw [c]; exact d.joined.linked.symm⟩
    · exact ⟨u, (d.alive u).2 ⟨a, c⟩, .refl u⟩
  · have k := h.map (m' := m') (fun v => if v = q then p else v) fun a b j => ?_
    · simpa [((d.alive u).1 au).2, ((d.alive v).1 av).2] using k
    · by_cases c : (if a = q then p else a) = if b = q then p else b
      · show m'.Together (if a = q then p else a) (if b = q then p else b)
        rw [c]; exact .refl _
      · exact ((d.edges _ _).2 ⟨c, a, b, j, rfl, rfl⟩).linked
  · refine Mesh.Together.map id fun a b j => ?_
    obtain ⟨-, a', b', j', rfl, rfl⟩ := (d.edges a b).1 j
    exact (ren a').symm.trans (j'.linked.trans (ren b'))

/-! Holes -/

theorem KeepsHoles.refl (m : Mesh F) : KeepsHoles m m :=
  ⟨fun _ => Iff.rfl, fun _ => Iff.rfl, fun _ _ _ _ a e => ⟨a, e, rfl⟩, fun _ _ _ _ a e => ⟨a, e⟩⟩

theorem KeepsHoles.trans {m1 m2 m3 : Mesh F} (h : KeepsHoles m1 m2) (h' : KeepsHoles m2 m3) : KeepsHoles m1 m3 := by
  refine ⟨fun x => (h'.marks x).trans (h.marks x), fun f => (h'.holes f).trans (h.holes f), ?_, ?_⟩
  · intro f a k x ax e
    obtain ⟨a2, k2⟩ := (h.holes f).2 ⟨a, k⟩
    obtain ⟨b, e1, n1⟩ := h.loops f a k x ax e
    obtain ⟨b', e2, n2⟩ := h'.loops f a2 k2 x b e1
    exact ⟨b', e2, n2.trans n1⟩
  · intro f a k x ax e
    obtain ⟨a2, k2⟩ := (h.holes f).2 ⟨a, k⟩
    obtain ⟨b, e1⟩ := h'.only f a2 k2 x ax e
    exact h.only f a k x b e1

theorem KeepsHoles.of_eq (h1 : m'.hAlive = m.hAlive) (h2 : m'.hBd = m.hBd) (h3 : m'.hFace = m.hFace) (h4 : m'.hNext = m.hNext)
    (h5 : m'.fAlive = m.fAlive) : KeepsHoles m m' := by
  have e : ∀ f, m'.HoleFace f ↔ m.HoleFace f := fun f => by unfold Mesh.HoleFace; rw [h1, h2, h3]
  exact ⟨fun x => by rw [h1, h2], fun f => by rw [h5, e], fun _ _ _ x a k => ⟨by rw [h1]; exact a, by rw [h3]; exact k, by rw [h4]⟩,
    fun _ _ _ x a k => ⟨by rw [← h1]; exact a, by rw [← h3]; exact k⟩⟩

/-- The faces in `C` are the ones that are changed; before and after, each of them has an edge without a mark. -/
theorem KeepsHoles.of_faces (w : m.WF) (C : Nat → Prop) (marks : ∀ h, (m'.hAlive h = true ∧ m'.hBd h = true) ↔ (m.hAlive h = true ∧ m.hBd h = true))
    (al : ∀ f, ¬ C f → (m'.fAlive f = true ↔ m.fAlive f = true))
    (bad : ∀ f, C f → m.fAlive f = true → ¬ m.HoleFace f) (bad' : ∀ f, C f → m'.fAlive f = true → ¬ m'.HoleFace f)
    (keep : ∀ h, m.hAlive h = true → ¬ C (m.hFace h) → m'.hAlive h = true ∧ m'.hFace h = m.hFace h ∧ m'.hNext h = m.hNext h)
    (only : ∀ h, m'.hAlive h = true → ¬ C (m'.hFace h) → m.hAlive h = true ∧ m.hFace h = m'.hFace h) : KeepsHoles m m' := by
  refine ⟨marks, fun f => ?_, ?_, ?_⟩
  · by_cases c : C f
    · exact ⟨fun h => absurd h.2 (bad' f c h.1), fun h => absurd h.2 (bad f c h.1)⟩
    · rw [al f c]
      refine and_congr_right fun _ => ⟨fun h x ax e => ?_, fun h x ax e => ?_⟩
      · obtain ⟨ax', e', -⟩ := keep x ax (by rw [e]; exact c)
        exact ((marks x).1 ⟨ax', h x ax' (e'.trans e)⟩).2
      · obtain ⟨ax', e'⟩ := only x ax (by rw [e]; exact c)
        exact ((marks x).2 ⟨ax', h x ax' (e'.trans e)⟩).2
  · intro f a k x ax e
    have c : ¬ C f := fun c => bad f c a k
    obtain ⟨b, e', n⟩ := keep x ax (by rw [e]; exact c)
    exact ⟨b, e'.trans e, n⟩
  · intro f a k x ax e
    have c : ¬ C f := fun c => bad f c a k
    obtain ⟨b, e'⟩ := only x ax (by rw [e]; exact c)
    exact ⟨b, e'.trans e⟩

theorem CollapseDone.keepsHoles {p q : Nat} (d : CollapseDone m m' p q) (w : m.WF) (bd : m'.hBd = m.hBd)
    (flag : ∀ x, m.hAlive x = true → m.hBd x = true → m'.hAlive x = true) : KeepsHoles m m' := by
  refine .of_faces w (fun f => m'.fAlive f = false ∧ m.fAlive f = true) (fun h => ?_) (fun f c => ?_) (fun f c a k => ?_)
    (fun f c a => ?_) (fun h a c => ?_) (fun h a c => ?_)
  · rw [bd]
    exact ⟨fun ⟨a, b⟩ => ⟨d.hOld h a, b⟩, fun ⟨a, b⟩ => ⟨flag h a b, b⟩⟩
  · refine ⟨d.fOld f, fun a => ?_⟩
    cases e : m'.fAlive f
    · exact absurd ⟨e, a⟩ c
    · rfl
  · obtain ⟨ah, hf⟩ := w.fHe_ok f a
    have := ((d.kept _).1 (flag _ ah (k _ ah hf))).2
    rw [hf, c.1] at this; cases this
  · rw [c.1] at a; cases a
  · have a' : m'.hAlive h = true := (d.kept h).2 ⟨a, by
      cases e : m'.fAlive (m.hFace h)
      · exact absurd ⟨e, w.face_alive _ a⟩ c
      · rfl⟩
    exact ⟨a', (d.same h a').2.1, (d.same h a').1⟩
  · exact ⟨d.hOld h a, (d.same h a).2.1.symm⟩

theorem flipState_keepsHoles (g : m.Good) {h : Nat} (a : m.hAlive h = true) (t : m.OnTri h) (t' : m.OnTri (m.hRev h))
    (n1 : m.hBd h = false) (n2 : m.hBd (m.hRev h) = false) : KeepsHoles m (flipState m h) := by
  have w := g.wf
  have D := Diamond.mk' w g.simple a t t'
  obtain ⟨a, ar, a0, a1, a2, a3, -, -, -, -, -, -, -, -, d1, d2, d3, d4, d5, d6, d7, d8, d9, d10, d11, d12, d13, d14, d15, df⟩ := D
  have f0 : m.hFace (m.hNext h) = m.hFace h := w.face_next _ a
  have f1 : m.hFace (m.hNext (m.hNext h)) = m.hFace h := (w.face_next _ a0).trans f0
  have f2 : m.hFace (m.hNext (m.hRev h)) = m.hFace (m.hRev h) := w.face_next _ ar
  have f3 : m.hFace (m.hNext (m.hNext (m.hRev h))) = m.hFace (m.hRev h) := (w.face_next _ a2).trans f2
  have fe : ∀ x, (flipState m h).hFace x = if x = m.hNext (m.hNext (m.hRev h)) then m.hFace (m.hRev h) else
      if x = m.hNext h then m.hFace (m.hRev h) else if x = m.hRev h then m.hFace (m.hRev h) else
      if x = m.hNext (m.hRev h) then m.hFace h else if x = m.hNext (m.hNext h) then m.hFace h else if x = h then m.hFace h else m.hFace x :=
    fun x => by simp only [flipState, upd]
  have ne : ∀ x, m.hAlive x = true → ¬ (m.hFace x = m.hFace h ∨ m.hFace x = m.hFace (m.hRev h)) → x ≠ h ∧ x ≠ m.hRev h ∧ x ≠ m.hNext h ∧
      x ≠ m.hNext (m.hNext h) ∧ x ≠ m.hNext (m.hRev h) ∧ x ≠ m.hNext (m.hNext (m.hRev h)) := by
    intro x _ c
    refine ⟨?_, ?_, ?_, ?_, ?_, ?_⟩ <;> rintro rfl <;> apply c <;> simp [f0, f1, f2, f3]
  refine .of_faces w (fun f => f = m.hFace h ∨ f = m.hFace (m.hRev h)) (fun _ => Iff.rfl) (fun _ _ => Iff.rfl) ?_ ?_ ?_ ?_
  · rintro f (rfl | rfl) _ k
    · have := k h a rfl; rw [n1] at this; cases this
    · have := k _ ar rfl; rw [n2] at this; cases this
  · rintro f (rfl | rfl) _ k
    · have := k h a (by rw [fe]; simp [d1, d2, d5])
      change m.hBd h = true at this
      rw [n1] at this; cases this
    · have := k (m.hRev h) ar (by rw [fe]; simp)
      change m.hBd (m.hRev h) = true at this
      rw [n2] at this; cases this
  · intro x ax c
    obtain ⟨e0, e1, e2, e3, e4, e5⟩ := ne x ax c
    refine ⟨ax, by rw [fe]; simp [e0, e1, e2, e3, e4, e5], by simp [flipState, upd, e0, e1, e2, e3, e4, e5]⟩
  · intro x ax c
    refine ⟨ax, ?_⟩
    rw [fe] at c ⊢
    by_cases e5 : x = m.hNext (m.hNext (m.hRev h))
    · rw [if_pos e5] at c; exact absurd (Or.inr rfl) c
    by_cases e2 : x = m.hNext h
    · rw [if_neg e5, if_pos e2] at c; exact absurd (Or.inr rfl) c
    by_cases e1 : x = m.hRev h
    · rw [if_neg e5, if_neg e2, if_pos e1] at c; exact absurd (Or.inr rfl) c
    by_cases e4 : x = m.hNext (m.hRev h)
    · rw [if_neg e5, if_neg e2, if_neg e1, if_pos e4] at c; exact absurd (Or.inl rfl) c
    by_cases e3 : x = m.hNext (m.hNext h)
    · rw [if_neg e5, if_neg e2, if_neg e1, if_neg e4, if_pos e3] at c; exact absurd (Or.inl rfl) c
    by_cases e0 : x = h
    · rw [if_neg e5, if_neg e2, if_neg e1, if_neg e4, if_neg e3, if_pos e0] at c; exact absurd (Or.inl rfl) c
    simp [e0, e1, e2, e3, e4, e5]

variable [Scalar F]

theorem SplitStep.tris (w : m.WF) {h he : Nat} (S : SplitStep m m' h he) :
    m.HasTri (m.hSrc he) (m.hSrc (m.hRev he)) (m.hSrc (m.hNext (m.hNext he))) ∧
    m.HasTri (m.hSrc (m.hRev he)) (m.hSrc he) (m.hSrc (m.hNext (m.hNext (m.hRev he)))) := by
  refine ⟨⟨he, S.a, S.D.n1, rfl, by rw [w.src_rev _ S.a], rfl⟩, ⟨m.hRev he, S.D.ar, S.D.n3, rfl, ?_, rfl⟩⟩
  rw [← w.src_rev _ S.D.ar, w.rev_rev _ S.a]

theorem SplitStep.corresp (g : m.Good) {h he : Nat} (S : SplitStep m m' h he) : Corresp m m' :=
  (S.done g).corresp g.wf (S.tris g.wf).1 (S.tris g.wf).2

theorem SplitStep.keepsHoles (g : m.Good) {h he : Nat} (S : SplitStep m m' h he) : KeepsHoles m m' := by
  have w := g.wf
  have R := S.R
  obtain ⟨a, ar, a0, a1, a2, a3, -, -, -, -, -, -, -, -, d1, d2, d3, d4, d5, d6, d7, d8, d9, d10, d11, d12, d13, d14, d15, df⟩ := S.D
  have f0 : m.hFace (m.hNext he) = m.hFace he := w.face_next _ a
  have f1 : m.hFace (m.hNext (m.hNext he)) = m.hFace he := (w.face_next _ a0).trans f0
  have f2 : m.hFace (m.hNext (m.hRev he)) = m.hFace (m.hRev he) := w.face_next _ ar
  have f3 : m.hFace (m.hNext (m.hNext (m.hRev he))) = m.hFace (m.hRev he) := (w.face_next _ a2).trans f2
  have bn : ∀ i, i < 6 → m'.hAlive (m.hFresh + i) = true ∧ m'.hBd (m.hFresh + i) = false := fun i hi =>
    ⟨(R.hal _).2 (by omega), R.BN i hi⟩
  have bn0 := bn 0 (by omega); have bn1 := bn 1 (by omega); have bn2 := bn 2 (by omega)
  have bn3 := bn 3 (by omega); have bn4 := bn 4 (by omega); have bn5 := bn 5 (by omega)
  rw [Nat.add_zero] at bn0
  refine .of_faces w (fun f => f = m.hFace he ∨ f = m.hFace (m.hRev he) ∨ f = m.fFresh ∨ f = m.fFresh + 1) ?_ ?_ ?_ ?_ ?_ ?_
  · intro x
    constructor
    · rintro ⟨ax, bx⟩
      rcases (R.hal x).1 ax with h1 | h1
      · exact ⟨h1, by rw [← R.B x h1]; exact bx⟩
      · rcases h1 with rfl | rfl | rfl | rfl | rfl | rfl
        · rw [bn0.2] at bx; cases bx
        · rw [bn1.2] at bx; cases bx
        · rw [bn2.2] at bx; cases bx
        · rw [bn3.2] at bx; cases bx
        · rw [bn4.2] at bx; cases bx
        · rw [bn5.2] at bx; cases bx
    · rintro ⟨ax, bx⟩
      exact ⟨(R.hal x).2 (Or.inl ax), by rw [R.B x ax]; exact bx⟩
  · intro f c
    rw [R.fal]
    constructor
    · rintro (h1 | rfl | rfl)
      · exact h1
      · exact absurd (Or.inr (Or.inr (Or.inl rfl))) c
      · exact absurd (Or.inr (Or.inr (Or.inr rfl))) c
    · exact Or.inl
  · rintro f (rfl | rfl | rfl | rfl) af k
    · have := k he a rfl; rw [S.b0] at this; cases this
    · have := k _ ar rfl; rw [S.b1] at this; cases this
    · have := (w.fBound _ af).2; omega
    · have := (w.fBound _ af).2; omega
  · rintro f (rfl | rfl | rfl | rfl) af k
    · have := k _ bn1.1 R.F01; rw [bn1.2] at this; cases this
    · have := k _ bn4.1 R.F11; rw [bn4.2] at this; cases this
    · have := k _ bn0.1 R.Fn; rw [bn0.2] at this; cases this
    · have := k _ bn3.1 R.Frn; rw [bn3.2] at this; cases this
  · intro x ax c
    have e0 : x ≠ he := by rintro rfl; exact c (Or.inl rfl)
    have e1 : x ≠ m.hRev he := by rintro rfl; exact c (Or.inr (Or.inl rfl))
    have e2 : x ≠ m.hNext he := by rintro rfl; exact c (Or.inl f0)
    have e3 : x ≠ m.hNext (m.hNext he) := by rintro rfl; exact c (Or.inl f1)
    have e4 : x ≠ m.hNext (m.hRev he) := by rintro rfl; exact c (Or.inr (Or.inl f2))
    have e5 : x ≠ m.hNext (m.hNext (m.hRev he)) := by rintro rfl; exact c (Or.inr (Or.inl f3))
    exact ⟨(R.hal x).2 (Or.inl ax), R.FO x ax e0 e1 e2 e3 e4 e5, R.NO x ax e0 e1 e2 e3 e4 e5⟩
  · intro x ax c
    rcases (R.hal x).1 ax with h1 | h1
    · refine ⟨h1, ?_⟩
      have e0 : x ≠ he := by rintro rfl; exact c (Or.inl R.F_)
      have e1 : x ≠ m.hRev he := by rintro rfl; exact c (Or.inr (Or.inl R.Fr))
      have e2 : x ≠ m.hNext he := by rintro rfl; exact c (Or.inl R.F0)
      have e3 : x ≠ m.hNext (m.hNext he) := by rintro rfl; exact c (Or.inr (Or.inr (Or.inl R.F1)))
      have e4 : x ≠ m.hNext (m.hRev he) := by rintro rfl; exact c (Or.inr (Or.inr (Or.inr R.F2)))
      have e5 : x ≠ m.hNext (m.hNext (m.hRev he)) := by rintro rfl; exact c (Or.inr (Or.inl R.F3))
      exact (R.FO x h1 e0 e1 e2 e3 e4 e5).symm
    · exfalso
      apply c
      rcases h1 with rfl | rfl | rfl | rfl | rfl | rfl
      · exact Or.inr (Or.inr (Or.inl R.Fn))
      · exact Or.inl R.F01
      · exact Or.inr (Or.inr (Or.inl R.F02))
      · exact Or.inr (Or.inr (Or.inr R.Frn))
      · exact Or.inr (Or.inl R.F11)
      · exact Or.inr (Or.inr (Or.inr R.F12))

end TinyMesh
