import Verif.Proof.RemB
import Verif.Spec.Surface
/-
The triangles before and after an edit.
-/
namespace TinyMesh
open Orbit
variable {F A : Type} {m m' : Mesh F}

theorem Mesh.WF.atCorners_eq (w : m.WF) {φ : Nat → Nat → Nat → A} (cy : Cyclic φ) {h : Nat} (a : m.hAlive h = true) (t : m.OnTri h) :
    m.atCorners φ (m.hFace h) = φ (m.hSrc h) (m.hSrc (m.hNext h)) (m.hSrc (m.hNext (m.hNext h))) := by
  obtain ⟨ah, hf⟩ := w.fHe_ok _ (w.face_alive _ a)
  have t' : m.hNext (m.hNext (m.hNext h)) = h := t
  unfold Mesh.atCorners
  rcases w.tri_face a t ah hf with e | e | e
  · rw [e]
  · rw [e, t', cy (m.hSrc h)]
  · rw [e, t', cy (m.hSrc (m.hNext (m.hNext h)))]

theorem triVals_replace (w : m.WF) (w' : m'.WF) (k : KeepsHoles m m') {φ φ' : Nat → Nat → Nat → A} {C C' : List Nat}
    (nd : C.Nodup) (nd' : C'.Nodup) (hC : ∀ f ∈ C, m.fAlive f = true ∧ ¬ m.HoleFace f)
    (hC' : ∀ f ∈ C', m'.fAlive f = true ∧ ¬ m'.HoleFace f)
    (al : ∀ f, (m'.fAlive f = true ∧ f ∉ C') ↔ (m.fAlive f = true ∧ f ∉ C))
    (eq : ∀ f, m.fAlive f = true → f ∉ C → ¬ m.HoleFace f → m'.atCorners φ' f = m.atCorners φ f) :
    ∃ R : Multiset A, m.triVals φ = (C.map (m.atCorners φ) : List A) + R ∧ m'.triVals φ' = (C'.map (m'.atCorners φ') : List A) + R := by
  classical
  have key : ∀ (n : Mesh F) (wn : n.WF) (D : List Nat) (nd : D.Nodup) (hD : ∀ f ∈ D, n.fAlive f = true ∧ ¬ n.HoleFace f)
      (ψ : Nat → Nat → Nat → A), n.triVals ψ = (D.map (n.atCorners ψ) : List A) +
        ((n.fs.filter (fun f => decide (¬ n.HoleFace f ∧ f ∉ D))).map (n.atCorners ψ) : List A) := by
    intro n wn D nd hD ψ
    have nf : n.fs.Nodup := wn.fDense.nodup
    have p : List.Perm (n.fs.filter (fun f => decide (¬ n.HoleFace f))) (D ++ n.fs.filter (fun f => decide (¬ n.HoleFace f ∧ f ∉ D))) := by
      refine (List.perm_ext_iff_of_nodup (nf.filter _) ?_).2 fun f => ?_
      · refine List.nodup_append'.2 ⟨nd, nf.filter _, fun f h1 h2 => ?_⟩
        simp only [List.mem_filter, decide_eq_true_eq] at h2
        exact h2.2.2 h1
      · simp only [List.mem_append, List.mem_filter, decide_eq_true_eq]
        constructor
        · rintro ⟨h1, h2⟩
          by_cases c : f ∈ D
          · exact Or.inl c
          · exact Or.inr ⟨h1, h2, c⟩
        · rintro (c | ⟨h1, h2, -⟩)
          · exact ⟨(wn.fDense.mem f).2 (hD f c).1, (hD f c).2⟩
          · exact ⟨h1, h2⟩
    unfold Mesh.triVals
    rw [Multiset.coe_add, ← List.map_append]
    exact Multiset.coe_eq_coe.2 (p.map _)
  rw [key m w C nd hC φ, key m' w' C' nd' hC' φ']
  have hole : ∀ f, m.fAlive f = true → m'.fAlive f = true → (m'.HoleFace f ↔ m.HoleFace f) := fun f a a' =>
    ⟨fun h => ((k.holes f).1 ⟨a', h⟩).2, fun h => ((k.holes f).2 ⟨a, h⟩).2⟩
  have p : List.Perm (m'.fs.filter (fun f => decide (¬ m'.HoleFace f ∧ f ∉ C'))) (m.fs.filter (fun f => decide (¬ m.HoleFace f ∧ f ∉ C))) := by
    refine (List.perm_ext_iff_of_nodup (w'.fDense.nodup.filter _) (w.fDense.nodup.filter _)).2 fun f => ?_
    simp only [List.mem_filter, decide_eq_true_eq, w.fDense.mem, w'.fDense.mem]
    constructor
    · rintro ⟨a, h, c⟩
      obtain ⟨a', c'⟩ := (al f).1 ⟨a, c⟩
      exact ⟨a', fun h' => h ((hole f a' a).2 h'), c'⟩
    · rintro ⟨a, h, c⟩
      obtain ⟨a', c'⟩ := (al f).2 ⟨a, c⟩
      exact ⟨a', fun h' => h ((hole f a a').1 h'), c'⟩
  have e : ((m'.fs.filter (fun f => decide (¬ m'.HoleFace f ∧ f ∉ C'))).map (m'.atCorners φ') : List A) =
      (((m.fs.filter (fun f => decide (¬ m.HoleFace f ∧ f ∉ C))).map (m.atCorners φ) : List A) : Multiset A) := by
    refine (Multiset.coe_eq_coe.2 (p.map _)).trans ?_
    congr 1
    refine List.map_congr_left fun f hf => ?_
    simp only [List.mem_filter, decide_eq_true_eq, w.fDense.mem] at hf
    exact eq f hf.1 hf.2.2 hf.2.1
  exact ⟨_, rfl, by rw [e]⟩

/-- the corners of a face whose half-edges are as before -/
theorem atCorners_same (w : m.WF) (w' : m'.WF) {φ φ' : Nat → Nat → Nat → A} (cy : Cyclic φ) (cy' : Cyclic φ') {f : Nat}
    (a : m.fAlive f = true) (t : m.OnTri (m.fHe f))
    (H : ∀ x, m.hAlive x = true → m.hFace x = f → m'.hAlive x = true ∧ m'.hFace x = f ∧ m'.hNext x = m.hNext x)
    (e : ∀ x y z, m.hAlive x = true → m.hFace x = f → y = m.hNext x → z = m.hNext y →
      φ' (m'.hSrc x) (m'.hSrc y) (m'.hSrc z) = φ (m.hSrc x) (m.hSrc y) (m.hSrc z)) : m'.atCorners φ' f = m.atCorners φ f := by
  obtain ⟨ah, hf⟩ := w.fHe_ok _ a
  obtain ⟨a', f', n'⟩ := H _ ah hf
  have ah1 := w.next_alive _ ah
  have hf1 : m.hFace (m.hNext (m.fHe f)) = f := (w.face_next _ ah).trans hf
  obtain ⟨a1', f1', n1'⟩ := H _ ah1 hf1
  have ah2 := w.next_alive _ ah1
  obtain ⟨a2', f2', n2'⟩ := H _ ah2 ((w.face_next _ ah1).trans hf1)
  have t' : m'.OnTri (m.fHe f) := by
    unfold Mesh.OnTri at t ⊢
    rw [n', n1', n2', t]
  have := w'.atCorners_eq cy' a' t'
  rw [f', n', n1'] at this
  rw [this]
  exact e _ _ _ ah hf rfl rfl


theorem Mesh.Good.onTri_face (g : m.Good) {f : Nat} (a : m.fAlive f = true) (nh : ¬ m.HoleFace f) : m.OnTri (m.fHe f) := by
  obtain ⟨ah, hf⟩ := g.wf.fHe_ok _ a
  rcases g.tri.holds _ ah with t | t
  · exact t
  · exact absurd (fun x ax e => (t x ax (e.trans hf.symm)).1) nh

theorem cyclic_renamed {φ : Nat → Nat → Nat → A} (cy : Cyclic φ) (p q : Nat) :
    Cyclic (fun a b c => φ (renamed p q a) (renamed p q b) (renamed p q c)) := fun _ _ _ => cy _ _ _

theorem Collapsed.triVals [Scalar F] (g : m.Good) {h p q : Nat} (S : Collapsed m m' h p q) (a : m.hAlive h = true) :
    ∃ r s, m.HasTri p q r ∧ m.HasTri q p s ∧ ∀ {A : Type} {φ : Nat → Nat → Nat → A}, Cyclic φ →
      m.triVals (fun a b c => φ (renamed p q a) (renamed p q b) (renamed p q c)) = {φ p p r, φ p p s} + m'.triVals φ := by
  have w := g.wf
  have d := S.done
  have w' := d.good.wf
  have k := d.keepsHoles w S.bd S.flag
  obtain ⟨x, y, ax, ay, sx, dx, sy, dy, hr, hr'⟩ : ∃ x y, m.hAlive x = true ∧ m.hAlive y = true ∧ m.hSrc x = p ∧ m.hSrc (m.hNext x) = q ∧
      m.hSrc y = q ∧ m.hSrc (m.hNext y) = p ∧ m.hRev x = y ∧ m.hRev y = x := by
    have ar := w.rev_alive _ a
    have e1 := w.src_rev _ a
    have e2 := w.src_rev _ ar
    have e3 := w.rev_rev _ a
    rw [e3] at e2
    rcases S.ends with ⟨rfl, rfl⟩ | ⟨rfl, rfl⟩
    · exact ⟨h, m.hRev h, a, ar, rfl, e1.symm, rfl, e2.symm, rfl, e3⟩
    · exact ⟨m.hRev h, h, ar, a, rfl, e2.symm, rfl, e1.symm, e3, rfl⟩
  have out : ∀ z, m.hAlive z = true → SamePair (m.hSrc z) (m.hSrc (m.hNext z)) p q → z = x ∨ z = y := by
    rintro z az (⟨e1, e2⟩ | ⟨e1, e2⟩)
    · exact Or.inl (g.simple.no_dup _ _ az ax (e1.trans sx.symm) (e2.trans dx.symm))
    · exact Or.inr (g.simple.no_dup _ _ az ay (e1.trans sy.symm) (e2.trans dy.symm))
  have gone : ∀ z, m.hAlive z = true → SamePair (m.hSrc z) (m.hSrc (m.hNext z)) p q → m'.fAlive (m.hFace z) = false := by
    intro z az sp
    cases e : m'.fAlive (m.hFace z)
    · rfl
    · exact absurd sp (((d.faces _).1 e).2 z az rfl)
  have sx' : SamePair (m.hSrc x) (m.hSrc (m.hNext x)) p q := Or.inl ⟨sx, dx⟩
  have sy' : SamePair (m.hSrc y) (m.hSrc (m.hNext y)) p q := Or.inr ⟨sy, dy⟩
  have nb : ∀ z, m.hAlive z = true → SamePair (m.hSrc z) (m.hSrc (m.hNext z)) p q → m.hBd z = false := by
    intro z az sp
    cases e : m.hBd z
    · rfl
    · have := ((d.kept z).1 (S.flag z az e)).2
      rw [gone z az sp] at this; cases this
  have tx := g.tri.onTri ax (nb x ax sx')
  have ty := g.tri.onTri ay (nb y ay sy')
  have D := Diamond.mk' w g.simple ax tx (by rw [hr]; exact ty)
  have df := D.dface
  rw [hr] at df
  have ax1 := w.next_alive _ ax
  have ax2 := w.next_alive _ ax1
  have ay1 := w.next_alive _ ay
  have ay2 := w.next_alive _ ay1
  have rq : m.hSrc (m.hNext (m.hNext x)) ≠ q := fun e => g.simple.no_loop _ ax1 (by rw [dx, e])
  have sq : m.hSrc (m.hNext (m.hNext y)) ≠ q := fun e => g.simple.no_loop _ ay2 (by
    have : m.hNext (m.hNext (m.hNext y)) = y := ty
    rw [this, sy, e])
  have pq : p ≠ q := fun e => g.simple.no_loop _ ax (by rw [sx, dx, e])
  refine ⟨_, _, ⟨x, ax, tx, sx, dx, rfl⟩, ⟨y, ay, ty, sy, dy, rfl⟩, fun {A φ} cy => ?_⟩
  have cyr := cyclic_renamed cy p q
  have ⟨R, this, e⟩ := triVals_replace (φ := fun a b c => φ (renamed p q a) (renamed p q b) (renamed p q c)) (φ' := φ)
    (C := [m.hFace x, m.hFace y]) (C' := []) w w' k (by simpa using df) (by simp) ?_ (by simp) ?_ ?_
  · rw [List.map_nil] at e
    have e : m'.triVals φ = R := e.trans (zero_add _)
    rw [e]
    simp only [List.map_cons, List.map_nil, w.atCorners_eq cyr ax tx, w.atCorners_eq cyr ay ty, sx, dx, sy, dy] at this
    simp only [renamed, if_true, if_neg pq, if_neg rq, if_neg sq] at this
    exact this
  · intro f hf
    simp only [List.mem_cons, List.not_mem_nil, or_false] at hf
    rcases hf with rfl | rfl
    · refine ⟨w.face_alive _ ax, fun c => ?_⟩
      have := c x ax rfl; rw [nb x ax sx'] at this; cases this
    · refine ⟨w.face_alive _ ay, fun c => ?_⟩
      have := c y ay rfl; rw [nb y ay sy'] at this; cases this
  · intro f
    simp only [List.not_mem_nil, not_false_eq_true, and_true, List.mem_cons, or_false, not_or]
    rw [d.faces]
    refine and_congr_right fun af => ⟨fun H => ⟨?_, ?_⟩, fun ⟨c1, c2⟩ z az fz sp => ?_⟩
    · rintro rfl; exact H x ax rfl sx'
    · rintro rfl; exact H y ay rfl sy'
    · rcases out z az sp with rfl | rfl
      · exact c1 fz.symm
      · exact c2 fz.symm
  · intro f af hf nh
    have af' : m'.fAlive f = true := by
      rw [d.faces]
      refine ⟨af, fun z az fz sp => hf ?_⟩
      rcases out z az sp with rfl | rfl <;> simp [fz]
    refine atCorners_same w w' cyr cy af (g.onTri_face af nh) (fun z az fz => ?_) (fun z u v az fz hu hv => ?_)
    · have az' := (d.kept z).2 ⟨az, by rw [fz]; exact af'⟩
      exact ⟨az', (d.same z az').2.1.trans fz, (d.same z az').1⟩
    · have au : m.hAlive u = true := by rw [hu]; exact w.next_alive _ az
      have av : m.hAlive v = true := by rw [hv]; exact w.next_alive _ au
      rw [S.src z az, S.src u au, S.src v av]
      rfl

theorem SplitStep.triVals [Scalar F] (g : m.Good) {h he : Nat} (S : SplitStep m m' h he) {φ : Nat → Nat → Nat → A} (cy : Cyclic φ) :
    let p := m.hSrc he
    let q := m.hSrc (m.hRev he)
    let r := m.hSrc (m.hNext (m.hNext he))
    let s := m.hSrc (m.hNext (m.hNext (m.hRev he)))
    ∃ R : Multiset A, m.triVals φ = {φ p q r, φ q p s} + R ∧
      m'.triVals φ = {φ m.vFresh q r, φ q m.vFresh s, φ p m.vFresh r, φ m.vFresh p s} + R := by
  intro p q r s
  have w := g.wf
  have R := S.R
  have w' := (S.done g).good.wf
  have k := S.keepsHoles g
  obtain ⟨a, ar, a0, a1, a2, a3, -, -, -, -, t, -, -, t', d1, d2, d3, d4, d5, d6, d7, d8, d9, d10, d11, d12, d13, d14, d15, df⟩ := S.D
  have f0 : m.hFace (m.hNext he) = m.hFace he := w.face_next _ a
  have f1 : m.hFace (m.hNext (m.hNext he)) = m.hFace he := (w.face_next _ a0).trans f0
  have f2 : m.hFace (m.hNext (m.hRev he)) = m.hFace (m.hRev he) := w.face_next _ ar
  have f3 : m.hFace (m.hNext (m.hNext (m.hRev he))) = m.hFace (m.hRev he) := (w.face_next _ a2).trans f2
  have A' : ∀ x, m.HA x → m'.HA x := fun x ax => (R.hal x).2 (Or.inl ax)
  have A0 : m'.HA m.hFresh := (R.hal _).2 (by simp)
  have A3 : m'.HA (m.hFresh + 3) := (R.hal _).2 (by simp)
  have lt1 := (w.fBound _ (w.face_alive _ a)).2
  have lt2 := (w.fBound _ (w.face_alive _ ar)).2
  have sq : m.hSrc (m.hNext he) = q := (w.src_rev _ a).symm
  have sp : m.hSrc (m.hNext (m.hRev he)) = p := by
    have := w.src_rev _ ar
    rw [w.rev_rev _ a] at this
    exact this.symm
  have C0 : m.atCorners φ (m.hFace he) = φ p q r := by rw [w.atCorners_eq cy a t, sq]
  have C1 : m.atCorners φ (m.hFace (m.hRev he)) = φ q p s := by rw [w.atCorners_eq cy ar t', sp]
  have D0 : m'.atCorners φ (m.hFace he) = φ m.vFresh q r := by
    have := w'.atCorners_eq cy (A' _ a) (by unfold Mesh.OnTri; rw [R.N_, R.N0, R.N01])
    rw [R.F_, R.N_, R.N0, R.S_, R.S01, R.SO _ a0 (fun e => d2 e.symm), sq] at this
    exact this
  have D1 : m'.atCorners φ (m.hFace (m.hRev he)) = φ q m.vFresh s := by
    have := w'.atCorners_eq cy (A' _ ar) (by unfold Mesh.OnTri; rw [R.Nr, R.N11, R.N3])
    rw [R.Fr, R.Nr, R.N11, R.S11, R.SO _ a3 (fun e => d5 e.symm), R.SO _ ar (fun e => d1 e.symm)] at this
    exact this
  have D2 : m'.atCorners φ m.fFresh = φ p m.vFresh r := by
    have := w'.atCorners_eq cy A0 (by unfold Mesh.OnTri; rw [R.Nn, R.N02, R.N1])
    rw [R.Fn, R.Nn, R.N02, R.Sn, R.S02, R.SO _ a1 (fun e => d3 e.symm)] at this
    exact this
  have D3 : m'.atCorners φ (m.fFresh + 1) = φ m.vFresh p s := by
    have := w'.atCorners_eq cy A3 (by unfold Mesh.OnTri; rw [R.Nrn, R.N2, R.N12])
    rw [R.Frn, R.Nrn, R.N2, R.Srn, R.S12, R.SO _ a2 (fun e => d4 e.symm), sp] at this
    exact this
  have ⟨T, this, this'⟩ := triVals_replace (φ := φ) (φ' := φ) (C := [m.hFace he, m.hFace (m.hRev he)])
    (C' := [m.hFace he, m.hFace (m.hRev he), m.fFresh, m.fFresh + 1]) w w' k (by simpa using df)
    (by simp only [List.nodup_cons, List.mem_cons, List.not_mem_nil, or_false, not_or, not_false_eq_true, List.nodup_nil, and_true]
        exact ⟨⟨df, by omega, by omega⟩, ⟨by omega, by omega⟩, by omega⟩) ?_ ?_ ?_ ?_
  · simp only [List.map_cons, List.map_nil, C0, C1, D0, D1, D2, D3] at this this'
    exact ⟨T, this, this'⟩
  · intro f hf
    simp only [List.mem_cons, List.not_mem_nil, or_false] at hf
    rcases hf with rfl | rfl
    · refine ⟨w.face_alive _ a, fun c => ?_⟩
      have := c he a rfl; rw [S.b0] at this; cases this
    · refine ⟨w.face_alive _ ar, fun c => ?_⟩
      have := c _ ar rfl; rw [S.b1] at this; cases this
  · have B0 : m'.hBd m.hFresh = false := R.BN 0 (by omega)
    have B3 := R.BN 3 (by omega)
    intro f hf
    simp only [List.mem_cons, List.not_mem_nil, or_false] at hf
    rcases hf with rfl | rfl | rfl | rfl
    · refine ⟨(R.fal _).2 (Or.inl (w.face_alive _ a)), fun c => ?_⟩
      have := c he (A' _ a) R.F_; rw [R.B _ a, S.b0] at this; cases this
    · refine ⟨(R.fal _).2 (Or.inl (w.face_alive _ ar)), fun c => ?_⟩
      have := c _ (A' _ ar) R.Fr; rw [R.B _ ar, S.b1] at this; cases this
    · refine ⟨(R.fal _).2 (by simp), fun c => ?_⟩
      have := c _ A0 R.Fn; rw [B0] at this; cases this
    · refine ⟨(R.fal _).2 (by simp), fun c => ?_⟩
      have := c _ A3 R.Frn; rw [B3] at this; cases this
  · intro f
    simp only [List.mem_cons, List.not_mem_nil, or_false, not_or]
    rw [R.fal]
    constructor
    · rintro ⟨h1, c1, c2, c3, c4⟩
      rcases h1 with h1 | h1 | h1
      · exact ⟨h1, c1, c2⟩
      · exact absurd h1 c3
      · exact absurd h1 c4
    · rintro ⟨h1, c1, c2⟩
      have := (w.fBound _ h1).2
      exact ⟨Or.inl h1, c1, c2, by omega, by omega⟩
  · intro f af hf nh
    simp only [List.mem_cons, List.not_mem_nil, or_false, not_or] at hf
    have ne : ∀ x, m.hFace x = f → x ≠ he ∧ x ≠ m.hRev he ∧ x ≠ m.hNext he ∧ x ≠ m.hNext (m.hNext he) ∧ x ≠ m.hNext (m.hRev he) ∧
        x ≠ m.hNext (m.hNext (m.hRev he)) := by
      intro x fx
      refine ⟨?_, ?_, ?_, ?_, ?_, ?_⟩ <;> rintro rfl
      · exact hf.1 fx.symm
      · exact hf.2 fx.symm
      · exact hf.1 (by rw [← fx, f0])
      · exact hf.1 (by rw [← fx, f1])
      · exact hf.2 (by rw [← fx, f2])
      · exact hf.2 (by rw [← fx, f3])
    refine atCorners_same w w' cy cy af (g.onTri_face af nh) (fun x ax fx => ?_) (fun x u v ax fx hu hv => ?_)
    · obtain ⟨e0, e1, e2, e3, e4, e5⟩ := ne x fx
      exact ⟨A' x ax, (R.FO x ax e0 e1 e2 e3 e4 e5).trans fx, R.NO x ax e0 e1 e2 e3 e4 e5⟩
    · have au : m.hAlive u = true := by rw [hu]; exact w.next_alive _ ax
      have fu : m.hFace u = f := by rw [hu, w.face_next _ ax, fx]
      have av : m.hAlive v = true := by rw [hv]; exact w.next_alive _ au
      have fv : m.hFace v = f := by rw [hv, w.face_next _ au, fu]
      rw [R.SO x ax (ne x fx).1, R.SO u au (ne u fu).1, R.SO v av (ne v fv).1]

theorem flipState_triVals (g : m.Good) {h : Nat} (a : m.hAlive h = true) (n1 : m.hBd h = false) (n2 : m.hBd (m.hRev h) = false)
    (w' : (flipState m h).WF) {φ : Nat → Nat → Nat → A} (cy : Cyclic φ) :
    let p := m.hSrc h
    let q := m.hSrc (m.hRev h)
    let r := m.hSrc (m.hNext (m.hNext h))
    let s := m.hSrc (m.hNext (m.hNext (m.hRev h)))
    ∃ R : Multiset A, m.triVals φ = {φ p q r, φ q p s} + R ∧ (flipState m h).triVals φ = {φ s r p, φ r s q} + R := by
  intro p q r s
  have w := g.wf
  have t := g.tri.onTri a n1
  have t' := g.tri.onTri (w.rev_alive _ a) n2
  have k := flipState_keepsHoles g a t t' n1 n2
  have D := Diamond.mk' w g.simple a t t'
  obtain ⟨a, ar, a0, a1, a2, a3, -, -, -, -, -, -, -, -, d1, d2, d3, d4, d5, d6, d7, d8, d9, d10, d11, d12, d13, d14, d15, df⟩ := D
  have f0 : m.hFace (m.hNext h) = m.hFace h := w.face_next _ a
  have f1 : m.hFace (m.hNext (m.hNext h)) = m.hFace h := (w.face_next _ a0).trans f0
  have f2 : m.hFace (m.hNext (m.hRev h)) = m.hFace (m.hRev h) := w.face_next _ ar
  have f3 : m.hFace (m.hNext (m.hNext (m.hRev h))) = m.hFace (m.hRev h) := (w.face_next _ a2).trans f2
  have sq : m.hSrc (m.hNext h) = q := (w.src_rev _ a).symm
  have sp : m.hSrc (m.hNext (m.hRev h)) = p := by
    have := w.src_rev _ ar
    rw [w.rev_rev _ a] at this
    exact this.symm
  have fe : ∀ x, (flipState m h).hFace x = if x = m.hNext (m.hNext (m.hRev h)) then m.hFace (m.hRev h) else
      if x = m.hNext h then m.hFace (m.hRev h) else if x = m.hRev h then m.hFace (m.hRev h) else
      if x = m.hNext (m.hRev h) then m.hFace h else if x = m.hNext (m.hNext h) then m.hFace h else if x = h then m.hFace h else m.hFace x :=
    fun x => by simp only [flipState, upd]
  have C0 : m.atCorners φ (m.hFace h) = φ p q r := by rw [w.atCorners_eq cy a t, sq]
  have C1 : m.atCorners φ (m.hFace (m.hRev h)) = φ q p s := by rw [w.atCorners_eq cy ar t', sp]
  have N0 : (flipState m h).hNext h = m.hNext (m.hNext h) := by simp [flipState, upd, d1, d2, d3, d4, d5]
  have N1 : (flipState m h).hNext (m.hNext (m.hNext h)) = m.hNext (m.hRev h) := by
    simp [flipState, upd, d10.symm, d14, d7.symm, d13]
  have N2 : (flipState m h).hNext (m.hNext (m.hRev h)) = h := by simp [flipState, upd, d11.symm, d15, d8.symm]
  have N3 : (flipState m h).hNext (m.hRev h) = m.hNext (m.hNext (m.hRev h)) := by simp [flipState, upd, d6, d9]
  have N4 : (flipState m h).hNext (m.hNext (m.hNext (m.hRev h))) = m.hNext h := by simp [flipState, upd, d12.symm]
  have N5 : (flipState m h).hNext (m.hNext h) = m.hRev h := by simp [flipState, upd]
  have S0 : (flipState m h).hSrc h = s := by simp [flipState, upd, d1, s]
  have S3 : (flipState m h).hSrc (m.hRev h) = r := by simp [flipState, upd, r]
  have SO : ∀ x, x ≠ h → x ≠ m.hRev h → (flipState m h).hSrc x = m.hSrc x := fun x e1 e2 => by simp [flipState, upd, e1, e2]
  have FA : (flipState m h).hFace h = m.hFace h := by rw [fe]; simp [d1, d2, d5]
  have FB : (flipState m h).hFace (m.hRev h) = m.hFace (m.hRev h) := by rw [fe]; simp
  have A' : ∀ x, m.HA x → (flipState m h).HA x := fun _ ax => ax
  have D0 : (flipState m h).atCorners φ (m.hFace h) = φ s r p := by
    have := w'.atCorners_eq cy (A' _ a) (by unfold Mesh.OnTri; rw [N0, N1, N2])
    rw [FA, N0, N1, S0, SO _ d3.symm d7.symm, SO _ d4.symm d8.symm, sp] at this
    exact this
  have D1 : (flipState m h).atCorners φ (m.hFace (m.hRev h)) = φ r s q := by
    have := w'.atCorners_eq cy (A' _ ar) (by unfold Mesh.OnTri; rw [N3, N4, N5])
    rw [FB, N3, N4, S3, SO _ d5.symm d9.symm, SO _ d2.symm d6.symm, sq] at this
    exact this
  have ⟨T, this, this'⟩ := triVals_replace (φ := φ) (φ' := φ) (C := [m.hFace h, m.hFace (m.hRev h)])
    (C' := [m.hFace h, m.hFace (m.hRev h)]) w w' k (by simpa using df) (by simpa using df) ?_ ?_ (fun _ => Iff.rfl) ?_
  · simp only [List.map_cons, List.map_nil, C0, C1, D0, D1] at this this'
    exact ⟨T, this, this'⟩
  · intro f hf
    simp only [List.mem_cons, List.not_mem_nil, or_false] at hf
    rcases hf with rfl | rfl
    · refine ⟨w.face_alive _ a, fun c => ?_⟩
      have := c h a rfl; rw [n1] at this; cases this
    · refine ⟨w.face_alive _ ar, fun c => ?_⟩
      have := c _ ar rfl; rw [n2] at this; cases this
  · intro f hf
    simp only [List.mem_cons, List.not_mem_nil, or_false] at hf
    rcases hf with rfl | rfl
    · refine ⟨w.face_alive _ a, fun c => ?_⟩
      have : m.hBd h = true := c h a FA
      rw [n1] at this; cases this
    · refine ⟨w.face_alive _ ar, fun c => ?_⟩
      have : m.hBd (m.hRev h) = true := c _ ar FB
      rw [n2] at this; cases this
  · intro f af hf nh
    simp only [List.mem_cons, List.not_mem_nil, or_false, not_or] at hf
    have ne : ∀ x, m.hFace x = f → x ≠ h ∧ x ≠ m.hRev h ∧ x ≠ m.hNext h ∧ x ≠ m.hNext (m.hNext h) ∧ x ≠ m.hNext (m.hRev h) ∧
        x ≠ m.hNext (m.hNext (m.hRev h)) := by
      intro x fx
      refine ⟨?_, ?_, ?_, ?_, ?_, ?_⟩ <;> rintro rfl
      · exact hf.1 fx.symm
      · exact hf.2 fx.symm
      · exact hf.1 (by rw [← fx, f0])
      · exact hf.1 (by rw [← fx, f1])
      · exact hf.2 (by rw [← fx, f2])
      · exact hf.2 (by rw [← fx, f3])
    refine atCorners_same w w' cy cy af (g.onTri_face af nh) (fun x ax fx => ?_) (fun x u v ax fx hu hv => ?_)
    · obtain ⟨e0, e1, e2, e3, e4, e5⟩ := ne x fx
      exact ⟨ax, by rw [fe]; simp [e0, e1, e2, e3, e4, e5, fx], by simp [flipState, upd, e0, e1, e2, e3, e4, e5]⟩
    · have au : m.hAlive u = true := by rw [hu]; exact w.next_alive _ ax
      have fu : m.hFace u = f := by rw [hu, w.face_next _ ax, fx]
      have fv : m.hFace v = f := by rw [hv, w.face_next _ au, fu]
      rw [SO x (ne x fx).1 (ne x fx).2.1, SO u (ne u fu).1 (ne u fu).2.1, SO v (ne v fv).1 (ne v fv).2.1]

end TinyMesh
