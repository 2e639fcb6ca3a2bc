import Verif.Proof.SurfB
import Verif.Proof.EditA
import Verif.Proof.CtxG
import Verif.Spec.Undo
/-
An edit followed by the one that takes it back.
-/
namespace TinyMesh
variable {F A : Type} {m m' m'' : Mesh F}

theorem HasTri_unique (s : m.Simple) {a b c d : Nat} (t : m.HasTri a b c) (t' : m.HasTri a b d) : c = d := by
  obtain ⟨x, ax, -, x1, x2, rfl⟩ := t
  obtain ⟨y, ay, -, y1, y2, rfl⟩ := t'
  rw [s.no_dup _ _ ax ay (x1.trans y1.symm) (x2.trans y2.symm)]

/-- where the flipped edge and the corners beside it are -/
theorem flipState_ends (g : m.Good) {h : Nat} (a : m.hAlive h = true) (n1 : m.hBd h = false) (n2 : m.hBd (m.hRev h) = false) :
    (flipState m h).hSrc h = m.hSrc (m.hNext (m.hNext (m.hRev h))) ∧ (flipState m h).hSrc (m.hRev h) = m.hSrc (m.hNext (m.hNext h)) ∧
    (flipState m h).hSrc ((flipState m h).hNext ((flipState m h).hNext h)) = m.hSrc h ∧
    (flipState m h).hSrc ((flipState m h).hNext ((flipState m h).hNext (m.hRev h))) = m.hSrc (m.hRev h) := by
  have w := g.wf
  have t := g.tri.onTri a n1
  have t' := g.tri.onTri (w.rev_alive _ a) n2
  obtain ⟨a, ar, a0, a1, a2, a3, -, -, -, -, -, -, -, -, d1, d2, d3, d4, d5, d6, d7, d8, d9, d10, d11, d12, d13, d14, d15, df⟩ :=
    Diamond.mk' w g.simple a t t'
  have sp : m.hSrc (m.hNext (m.hRev h)) = m.hSrc h := by
    have := w.src_rev _ ar
    rw [w.rev_rev _ a] at this
    exact this.symm
  have N0 : (flipState m h).hNext h = m.hNext (m.hNext h) := by simp [flipState, upd, d1, d2, d3, d4, d5]
  have N1 : (flipState m h).hNext (m.hNext (m.hNext h)) = m.hNext (m.hRev h) := by
    simp [flipState, upd, d10.symm, d14, d7.symm, d13]
  have N3 : (flipState m h).hNext (m.hRev h) = m.hNext (m.hNext (m.hRev h)) := by simp [flipState, upd, d6, d9]
  have N4 : (flipState m h).hNext (m.hNext (m.hNext (m.hRev h))) = m.hNext h := by simp [flipState, upd, d12.symm]
  have S0 : (flipState m h).hSrc h = m.hSrc (m.hNext (m.hNext (m.hRev h))) := by simp [flipState, upd, d1]
  have S3 : (flipState m h).hSrc (m.hRev h) = m.hSrc (m.hNext (m.hNext h)) := by simp [flipState, upd]
  have SO : ∀ x, x ≠ h → x ≠ m.hRev h → (flipState m h).hSrc x = m.hSrc x := fun x e1 e2 => by simp [flipState, upd, e1, e2]
  refine ⟨S0, S3, ?_, ?_⟩
  · rw [N0, N1, SO _ (by intro e; simp_all) (by intro e; simp_all), sp]
  · rw [N3, N4, SO _ (by intro e; simp_all) (by intro e; simp_all), ← w.src_rev _ a]

/-- the two triangles of a half-edge off the holes -/
theorem tris_at (g : m.Good) {h : Nat} (a : m.hAlive h = true) (n1 : m.hBd h = false) (n2 : m.hBd (m.hRev h) = false) :
    m.HasTri (m.hSrc h) (m.hSrc (m.hRev h)) (m.hSrc (m.hNext (m.hNext h))) ∧
    m.HasTri (m.hSrc (m.hRev h)) (m.hSrc h) (m.hSrc (m.hNext (m.hNext (m.hRev h)))) := by
  have w := g.wf
  have ar := w.rev_alive _ a
  have := w.src_rev _ ar
  rw [w.rev_rev _ a] at this
  exact ⟨⟨h, a, g.tri.onTri a n1, rfl, (w.src_rev _ a).symm, rfl⟩, ⟨m.hRev h, ar, g.tri.onTri ar n2, rfl, this.symm, rfl⟩⟩

/-- flipping an edge again -/
theorem flip_again [Scalar F] (g : m.Good) {h : Nat} (a : m.hAlive h = true) (n1 : m.hBd h = false) (n2 : m.hBd (m.hRev h) = false)
    (run : flipHE h m = .ok true m') :
    let r := m.hSrc (m.hNext (m.hNext h))
    let s := m.hSrc (m.hNext (m.hNext (m.hRev h)))
    (flipHE h m' = .ok false m' ∧ (m.outDeg r < 4 ∨ m.outDeg s < 4)) ∨
    ∃ m'', flipHE h m' = .ok true m'' ∧ 4 ≤ m.outDeg r ∧ 4 ≤ m.outDeg s ∧ FlipDone m' m'' s r (m.hSrc h) (m.hSrc (m.hRev h)) ∧
      FlipDone m m' (m.hSrc h) (m.hSrc (m.hRev h)) r s ∧
      ∀ (A : Type) (φ : Nat → Nat → Nat → A), Cyclic φ → m''.triVals φ = m.triVals φ := by
  have w := g.wf
  have ar := w.rev_alive _ a
  show (_ ∧ (m.outDeg (m.hSrc (m.hNext (m.hNext h))) < 4 ∨ m.outDeg (m.hSrc (m.hNext (m.hNext (m.hRev h)))) < 4)) ∨ ∃ m'', _ ∧
    4 ≤ m.outDeg (m.hSrc (m.hNext (m.hNext h))) ∧ 4 ≤ m.outDeg (m.hSrc (m.hNext (m.hNext (m.hRev h)))) ∧ _ ∧ _ ∧ _
  rcases flipHE_cases g a (g.tri.onTri a n1) (g.tri.onTri ar n2) with e | ⟨m1, e, hm, d⟩ <;> rw [run] at e <;> cases e
  obtain ⟨E0, E1, E2, E3⟩ := flipState_ends g a n1 n2
  rw [← hm] at E0 E1 E2 E3
  have hr : m'.hRev h = m.hRev h := by rw [hm]; rfl
  have a' : m'.hAlive h = true := by rw [d.hAlive]; exact a
  have n1' : m'.hBd h = false := by rw [d.bd]; exact n1
  have n2' : m'.hBd (m'.hRev h) = false := by rw [hr, d.bd]; exact n2
  have w' := d.good.wf
  have ar' := w'.rev_alive _ a'
  have t := d.good.tri.onTri a' n1'
  have t' := d.good.tri.onTri ar' n2'
  have nj : ¬ m'.Joined (m.hSrc h) (m.hSrc (m.hRev h)) := by
    rw [d.edges]
    rintro (⟨-, hh⟩ | hh)
    · exact hh (Or.inl ⟨rfl, rfl⟩)
    · rcases hh with ⟨e, -⟩ | ⟨e, -⟩
      · exact d.distinct.2.1 e
      · exact d.distinct.2.2.1 e
  have eq := flipHE_eq w' a' t t'
  have R := d.degR
  have S := d.degS
  have nadj : ¬ m'.adjB (m.hSrc h) (m.hSrc (m.hRev h)) = true := by
    rw [adjB_iff w' (by rw [d.vAlive]; exact w.src_alive _ a)]
    exact nj
  rw [hr, E0, E1, E2, E3] at eq
  rcases flipHE_cases d.good a' t t' with e | ⟨m2, e, hm2, d2⟩
  · refine Or.inl ⟨e, ?_⟩
    by_contra hc
    rw [not_or] at hc
    rw [if_neg (by simp only [not_or]; exact ⟨by omega, by omega, nadj⟩), e] at eq
    cases eq
  · refine Or.inr ⟨m2, e, ?_, ?_, ?_, d, fun A φ cy => ?_⟩
    · by_contra hc
      rw [if_pos (Or.inr (Or.inl (by omega))), e] at eq
      cases eq
    · by_contra hc
      rw [if_pos (Or.inl (by omega)), e] at eq
      cases eq
    · rw [hr, E0, E1, E2, E3] at d2
      exact d2
    · have g2 : (flipState m' h).WF := by rw [← hm2]; exact d2.good.wf
      obtain ⟨R1, e1, e2⟩ := flipState_triVals g a n1 n2 (by rw [← hm]; exact w') cy
      obtain ⟨R2, e3, e4⟩ := flipState_triVals d.good a' n1' n2' g2 cy
      rw [← hm] at e2
      rw [← hm2] at e4
      rw [hr, E0, E1, E2, E3] at e3 e4
      rw [e2, add_right_inj] at e3
      rw [e4, e1, e3, Multiset.pair_comm]

theorem FlipDone.restored {p q r s : Nat} (d : FlipDone m m' p q r s) (d2 : FlipDone m' m'' s r p q) (j : m.Joined p q)
    (sym : ∀ a b, m.Joined a b → m.Joined b a) (nj : ¬ m.Joined r s)
    (t : ∀ (A : Type) (φ : Nat → Nat → Nat → A), Cyclic φ → m''.triVals φ = m.triVals φ) : Restored m m'' := by
  refine ⟨d2.good, d2.hes.trans d.hes, d2.vs.trans d.vs, d2.fs.trans d.fs, d2.pos.trans d.pos, d2.lock.trans d.lock, d2.bd.trans d.bd,
    fun a b => ?_, fun v => ?_, t⟩
  · have j' := sym _ _ j
    have nj' : ¬ m.Joined s r := fun h => nj (sym _ _ h)
    rw [d2.edges, d.edges]
    constructor
    · rintro (⟨(⟨h, -⟩ | h), h2⟩ | h)
      · exact h
      · exact absurd (h.elim (fun h => Or.inr ⟨h.1, h.2⟩) (fun h => Or.inl ⟨h.1, h.2⟩)) h2
      · rcases h with ⟨rfl, rfl⟩ | ⟨rfl, rfl⟩
        · exact j
        · exact j'
    · intro h
      by_cases c : SamePair a b p q
      · exact Or.inr c
      · refine Or.inl ⟨Or.inl ⟨h, c⟩, ?_⟩
        rintro (⟨rfl, rfl⟩ | ⟨rfl, rfl⟩)
        · exact nj' h
        · exact nj h
  · have h1 := d.degP
    have h2 := d.degQ
    have h3 := d.degR
    have h4 := d.degS
    have k1 := d2.degP
    have k2 := d2.degQ
    have k3 := d2.degR
    have k4 := d2.degS
    by_cases e1 : v = p
    · subst e1; omega
    by_cases e2 : v = q
    · subst e2; omega
    by_cases e3 : v = r
    · subst e3; omega
    by_cases e4 : v = s
    · subst e4; omega
    rw [d2.degO v e4 e3 e1 e2, d.degO v e1 e2 e3 e4]

/-- a split does not change the number of neighbours of the ends -/
theorem SplitDone.deg_end {mid : Vec3 F → Vec3 F → Vec3 F} {p q r s n x y : Nat} (g : m.Good) (d : SplitDone mid m m' p q r s n)
    (hx : SamePair x y p q) (j : m.Joined x y) : m'.outDeg x = m.outDeg x := by
  have nn : ∀ v, ¬ m.Joined v n := by
    rintro v ⟨h, a, -, e⟩
    have := g.wf.src_alive _ (g.wf.next_alive _ a)
    rw [e, d.fresh] at this
    cases this
  have xn : x ≠ n := by
    rintro rfl
    obtain ⟨h, a, e, -⟩ := j
    have := g.wf.src_alive _ a
    rw [e, d.fresh] at this
    cases this
  have e : m'.nbSet x = insert n ((m.nbSet x).erase y) := by
    ext b
    rw [d.good.wf.mem_nbSet, Finset.mem_insert, Finset.mem_erase, g.wf.mem_nbSet, d.edges]
    have xy : x ≠ y := by
      obtain ⟨h, a, rfl, rfl⟩ := j
      exact g.simple.no_loop _ a
    have hb : SamePair x b p q ↔ b = y := by
      rcases hx with ⟨rfl, rfl⟩ | ⟨rfl, rfl⟩ <;> simp only [SamePair] <;> constructor
      · rintro (⟨-, e⟩ | ⟨e, -⟩)
        · exact e
        · exact absurd e xy
      · exact fun e => Or.inl ⟨trivial, e⟩
      · rintro (⟨e, -⟩ | ⟨-, e⟩)
        · exact absurd e xy
        · exact e
      · exact fun e => Or.inr ⟨trivial, e⟩
    rw [hb]
    constructor
    · rintro (⟨h1, h2⟩ | ⟨h, -⟩ | ⟨h, -⟩)
      · exact Or.inr ⟨h2, h1⟩
      · exact absurd h xn
      · exact Or.inl h
    · rintro (h | ⟨h1, h2⟩)
      · exact Or.inr (Or.inr ⟨h, hx.elim (fun h => Or.inl h.1) (fun h => Or.inr (Or.inl h.1))⟩)
      · exact Or.inl ⟨h2, h1⟩
  rw [← d.good.card_nbSet, ← g.card_nbSet, e, Finset.card_insert_of_notMem, Finset.card_erase_of_mem]
  · have : 0 < (m.nbSet x).card := Finset.card_pos.2 ⟨y, by rw [g.wf.mem_nbSet]; exact j⟩
    omega
  · rw [g.wf.mem_nbSet]; exact j
  · rw [Finset.mem_erase, g.wf.mem_nbSet]
    exact fun h => nn x h.2

/-- the four triangles at the new vertex -/
theorem SplitStep.tris4 [Scalar F] (g : m.Good) {h he : Nat} (S : SplitStep m m' h he) :
    let p := m.hSrc he
    let q := m.hSrc (m.hRev he)
    let r := m.hSrc (m.hNext (m.hNext he))
    let s := m.hSrc (m.hNext (m.hNext (m.hRev he)))
    m'.HasTri m.vFresh q r ∧ m'.HasTri q m.vFresh s ∧ m'.HasTri p m.vFresh r ∧ m'.HasTri m.vFresh p s := by
  intro p q r s
  have w := g.wf
  have R := S.R
  have D := S.D
  have al : ∀ x, m.hAlive x = true → m'.hAlive x = true := fun x ax => (R.hal x).2 (Or.inl ax)
  have sq : m.hSrc (m.hNext he) = q := (w.src_rev _ D.a).symm
  have sp : m.hSrc (m.hNext (m.hRev he)) = p := by
    have := w.src_rev _ D.ar
    rw [w.rev_rev _ D.a] at this
    exact this.symm
  refine ⟨⟨he, al _ D.a, ?_, R.S_, ?_, ?_⟩, ⟨m.hRev he, al _ D.ar, ?_, R.SO _ D.ar D.d1.symm, ?_, ?_⟩,
    ⟨m.hFresh, (R.hal _).2 (by simp), ?_, R.Sn, ?_, ?_⟩, ⟨m.hFresh + 3, (R.hal _).2 (by simp), ?_, R.Srn, ?_, ?_⟩⟩
  · show m'.hNext (m'.hNext (m'.hNext he)) = he
    rw [R.N_, R.N0, R.N01]
  · rw [R.N_, R.SO _ D.a0 D.d2.symm, sq]
  · rw [R.N_, R.N0, R.S01]
  · show m'.hNext (m'.hNext (m'.hNext (m.hRev he))) = m.hRev he
    rw [R.Nr, R.N11, R.N3]
  · rw [R.Nr, R.S11]
  · rw [R.Nr, R.N11, R.SO _ D.a3 D.d5.symm]
  · show m'.hNext (m'.hNext (m'.hNext m.hFresh)) = m.hFresh
    rw [R.Nn, R.N02, R.N1]
  · rw [R.Nn, R.S02]
  · rw [R.Nn, R.N02, R.SO _ D.a1 D.d3.symm]
  · show m'.hNext (m'.hNext (m'.hNext (m.hFresh + 3))) = m.hFresh + 3
    rw [R.Nrn, R.N2, R.N12]
  · rw [R.Nrn, R.SO _ D.a2 D.d4.symm, sp]
  · rw [R.Nrn, R.N2, R.S12]

theorem Cyclic.renamed {φ : Nat → Nat → Nat → A} (cy : Cyclic φ) (f : Nat → Nat) : Cyclic (fun a b c => φ (f a) (f b) (f c)) :=
  fun a b c => cy (f a) (f b) (f c)

theorem renamed_self (x y : Nat) : renamed x x y = y := by
  unfold renamed
  split
  · rename_i e; exact e.symm
  · rfl

theorem take_pair {x y a b : A} {M R T : Multiset A} (h : {x, y} + M = T + R) (e : T = {x, y} + {a, b}) : M = {a, b} + R := by
  rw [e, add_assoc, add_right_inj] at h
  exact h

theorem four_split (x y a b : A) : ({a, b, x, y} : Multiset A) = {x, y} + {a, b} ∧ ({x, y, a, b} : Multiset A) = {x, y} + {a, b} := by
  simp only [Multiset.insert_eq_cons, ← Multiset.singleton_add]
  constructor <;> abel

/-- a split, and then the new vertex or the end `x` of the edge moved onto the other one -/
theorem SplitStep.back [Scalar F] (g : m.Good) {h he k u v x : Nat} (S : SplitStep m m' h he) (hx : x = m.hSrc he ∨ x = m.hSrc (m.hRev he))
    (a : m'.hAlive k = true) (C : Collapsed m' m'' k u v) (uv : (u = m.vFresh ∧ v = x) ∨ (u = x ∧ v = m.vFresh))
    {φ : Nat → Nat → Nat → A} (cy : Cyclic φ) :
    m''.triVals φ = m.triVals (fun a b c => φ (renamed u x a) (renamed u x b) (renamed u x c)) := by
  have w := g.wf
  have d := S.done g
  obtain ⟨T1, T2, T3, T4⟩ := S.tris4 g
  obtain ⟨r', s', t1, t2, kk⟩ := C.triVals d.good a
  have K := kk cy
  have nv : ∀ y, m.vAlive y = true → y ≠ m.vFresh := by
    rintro y ay rfl
    have := d.fresh
    rw [ay] at this; cases this
  have nD := S.D
  have ap := w.src_alive _ nD.a
  have aq := w.src_alive _ nD.ar
  have ar := w.src_alive _ nD.a1
  have as := w.src_alive _ nD.a3
  have np := nv _ ap
  have nq := nv _ aq
  have nr := nv _ ar
  have ns := nv _ as
  have sm := d.good.simple
  have lp : ∀ {a b c : Nat}, m'.HasTri a b c → b ≠ c ∧ c ≠ a := by
    rintro a b c ⟨y, ay, t, rfl, rfl, rfl⟩
    have a1 := d.good.wf.next_alive _ ay
    have a2 := d.good.wf.next_alive _ a1
    have := sm.no_loop _ a2
    rw [show m'.hNext (m'.hNext (m'.hNext y)) = y from t] at this
    exact ⟨sm.no_loop _ a1, this⟩
  have qr := (lp T1).1
  have qs := (lp T2).2
  have pr := (lp T3).2
  have ps := (lp T4).1
  have pq : m.hSrc he ≠ m.hSrc (m.hRev he) := by
    rw [w.src_rev _ nD.a]
    exact g.simple.no_loop _ nD.a
  rcases hx with rfl | rfl <;> rcases uv with ⟨rfl, rfl⟩ | ⟨rfl, rfl⟩
  · obtain rfl := HasTri_unique sm t1 T4
    obtain rfl := HasTri_unique sm t2 T3
    obtain ⟨R, e1, e2⟩ := S.triVals g (cy.renamed (renamed m.vFresh (m.hSrc he)))
    rw [K] at e2
    rw [e1]
    simp only [renamed, np.symm, pq, pq.symm, pr, ps.symm, if_true, if_false] at e2 ⊢
    refine take_pair e2 ?_
    rw [(four_split _ _ _ _).1, Multiset.pair_comm (φ m.vFresh m.vFresh _)]
  · obtain rfl := HasTri_unique sm t2 T4
    obtain rfl := HasTri_unique sm t1 T3
    obtain ⟨R, e1, e2⟩ := S.triVals g (cy.renamed (renamed (m.hSrc he) m.vFresh))
    rw [K] at e2
    rw [triVals_congr w (ψ := fun a b c => φ (renamed (m.hSrc he) m.vFresh a) (renamed (m.hSrc he) m.vFresh b)
      (renamed (m.hSrc he) m.vFresh c)) (fun a b c ha hb hc => by
        rw [renamed_self, renamed_self, renamed_self]; simp [renamed, nv a ha, nv b hb, nv c hc]), e1]
    simp only [renamed, np, nq, nr, ns, if_true, if_false] at e2 ⊢
    refine take_pair e2 ?_
    rw [(four_split _ _ _ _).1]
  · obtain rfl := HasTri_unique sm t1 T1
    obtain rfl := HasTri_unique sm t2 T2
    obtain ⟨R, e1, e2⟩ := S.triVals g (cy.renamed (renamed m.vFresh (m.hSrc (m.hRev he))))
    rw [K] at e2
    rw [e1]
    simp only [renamed, nq.symm, pq, pq.symm, qr.symm, qs, if_true, if_false] at e2 ⊢
    refine take_pair e2 ?_
    rw [(four_split _ _ _ _).2]
  · obtain rfl := HasTri_unique sm t2 T1
    obtain rfl := HasTri_unique sm t1 T2
    obtain ⟨R, e1, e2⟩ := S.triVals g (cy.renamed (renamed (m.hSrc (m.hRev he)) m.vFresh))
    rw [K] at e2
    rw [triVals_congr w (ψ := fun a b c => φ (renamed (m.hSrc (m.hRev he)) m.vFresh a) (renamed (m.hSrc (m.hRev he)) m.vFresh b)
      (renamed (m.hSrc (m.hRev he)) m.vFresh c)) (fun a b c ha hb hc => by
        rw [renamed_self, renamed_self, renamed_self]; simp [renamed, nv a ha, nv b hb, nv c hc]), e1]
    simp only [renamed, np, nq, nr, ns, if_true, if_false] at e2 ⊢
    refine take_pair e2 ?_
    rw [(four_split _ _ _ _).2, Multiset.pair_comm (φ (m.hSrc (m.hRev he)) (m.hSrc (m.hRev he)) _)]

end TinyMesh
