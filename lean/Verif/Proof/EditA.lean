import Verif.Proof.SplitGood
import Verif.Proof.CollapseGood
import Verif.Spec.Edit
import Verif.Proof.Count
/-
The outcomes of the local edits in the terms of Spec/Edit.lean.
-/
namespace TinyMesh
open Orbit
variable {F : Type} {m m' : Mesh F}

/-- Changing the key of one member of a list without repetition. -/
theorem countP_upd {f : Nat → Nat} {l : List Nat} (nd : l.Nodup) {a : Nat} (ha : a ∈ l) (x v : Nat) :
    l.countP (fun h => upd f a x h == v) + (if f a = v then 1 else 0) =
      l.countP (fun h => f h == v) + (if x = v then 1 else 0) := by
  induction l with
  | nil => cases ha
  | cons b l ih =>
    rw [List.nodup_cons] at nd
    rw [List.countP_cons, List.countP_cons]
    rcases List.mem_cons.1 ha with rfl | h
    · have : l.countP (fun h => upd f a x h == v) = l.countP (fun h => f h == v) := by
        apply List.countP_congr
        intro y hy
        have : y ≠ a := fun e => nd.1 (e ▸ hy)
        simp [upd, this]
      rw [this]
      simp [upd]
      split <;> split <;> omega
    · have := ih nd.2 h
      have hb : b ≠ a := fun e => nd.1 (e ▸ h)
      simp only [upd_ne f x hb]
      omega

theorem Mesh.WF.dst_rev (w : m.WF) {h : Nat} (a : m.HA h) : m.hSrc (m.hNext h) = m.hSrc (m.hRev h) := (w.src_rev _ a).symm

theorem Mesh.WF.joined_iff (w : m.WF) {a b : Nat} :
    m.Joined a b ↔ ∃ h, m.HA h ∧ m.hSrc h = a ∧ m.hSrc (m.hRev h) = b := by
  constructor
  · rintro ⟨h, ah, h1, h2⟩; exact ⟨h, ah, h1, by rw [w.src_rev _ ah]; exact h2⟩
  · rintro ⟨h, ah, h1, h2⟩; exact ⟨h, ah, h1, by rw [← w.src_rev _ ah]; exact h2⟩

theorem Mesh.WF.joined_symm (w : m.WF) {a b : Nat} (h : m.Joined a b) : m.Joined b a := by
  obtain ⟨h, ah, h1, h2⟩ := w.joined_iff.1 h
  exact w.joined_iff.2 ⟨_, w.rev_alive _ ah, h2, by rw [w.rev_rev _ ah]; exact h1⟩

/-! Flip -/

theorem adjB_iff (w : m.WF) {u v : Nat} (a : m.vAlive u = true) : m.adjB u v = true ↔ m.Joined u v := w.mem_adj a

theorem flip_done (g : m.Good) {he : Nat} (a : m.HA he) (t : m.OnTri he) (t' : m.OnTri (m.hRev he))
    (h0 : 4 < m.outDeg (m.hSrc he)) (h2 : 4 < m.outDeg (m.hSrc (m.hRev he)))
    (hj : ¬ m.Joined (m.hSrc (m.hNext (m.hNext he))) (m.hSrc (m.hNext (m.hNext (m.hRev he))))) :
    FlipDone m (flipState m he) (m.hSrc he) (m.hSrc (m.hRev he)) (m.hSrc (m.hNext (m.hNext he)))
      (m.hSrc (m.hNext (m.hNext (m.hRev he)))) := by
  have w := g.wf
  have D := Diamond.mk' w g.simple a t t'
  have ar := D.ar
  have adj : ¬ m.adjB (m.hSrc (m.hNext (m.hNext he))) (m.hSrc (m.hNext (m.hNext (m.hRev he)))) = true := by
    rw [adjB_iff w (w.src_alive _ D.a1)]; exact hj
  have g' : (flipState m he).Good := ⟨flip_wf w D, flip_tri w g.tri D, flip_simple w g.simple D (by omega) adj⟩
  have w' := g'.wf
  obtain ⟨r, hr⟩ : ∃ r, m.hRev he = r := ⟨_, rfl⟩
  obtain ⟨e1, he1⟩ : ∃ r, m.hNext (m.hNext he) = r := ⟨_, rfl⟩
  obtain ⟨e3, he3⟩ : ∃ r, m.hNext (m.hNext (m.hRev he)) = r := ⟨_, rfl⟩
  have hrr : m.hRev r = he := by rw [← hr]; exact w.rev_rev _ a
  have sne := g.simple.no_loop _ a
  rw [← w.src_rev _ a] at sne
  -- corners of the two triangles
  have n1 := g.simple.no_loop _ D.a1
  rw [D.n1] at n1
  have n0 := g.simple.no_loop _ D.a0
  rw [← w.src_rev _ a] at n0
  have n3 := g.simple.no_loop _ D.a3
  rw [D.n3] at n3
  have n2 := g.simple.no_loop _ D.a2
  have e2 : m.hSrc (m.hNext (m.hRev he)) = m.hSrc he := by rw [← w.src_rev _ ar, w.rev_rev _ a]
  rw [e2] at n2
  have tips := w.tips_ne g.simple a t' (by omega)
  have src' : (flipState m he).hSrc = upd (upd m.hSrc he (m.hSrc e3)) r (m.hSrc e1) := by
    rw [← he1, ← he3, ← hr]; rfl
  have rev' : (flipState m he).hRev = m.hRev := rfl
  have al' : (flipState m he).hAlive = m.hAlive := rfl
  have mh := (w.hDense.mem he).2 a
  have mr : r ∈ m.hes := (w.hDense.mem r).2 (hr ▸ ar)
  have ner : he ≠ r := by rw [← hr]; exact (w.rev_ne _ a).symm
  have cnt : ∀ v, (flipState m he).outDeg v + (if m.hSrc he = v then 1 else 0) + (if m.hSrc r = v then 1 else 0) =
      m.outDeg v + (if m.hSrc e3 = v then 1 else 0) + (if m.hSrc e1 = v then 1 else 0) := by
    intro v
    have c1 := countP_upd (f := m.hSrc) w.hDense.nodup mh (m.hSrc e3) v
    have c2 := countP_upd (f := upd m.hSrc he (m.hSrc e3)) w.hDense.nodup mr (m.hSrc e1) v
    rw [upd_ne _ _ ner.symm] at c2
    have : (flipState m he).outDeg v = m.hes.countP (fun h => upd (upd m.hSrc he (m.hSrc e3)) r (m.hSrc e1) h == v) := by
      unfold Mesh.outDeg; rw [src']; rfl
    unfold Mesh.outDeg at this ⊢
    omega
  rw [he3] at n2 n3 tips ⊢
  rw [he1] at n0 n1 tips ⊢
  rw [hr] at sne n0 n3 ar ⊢
  refine ⟨g', rfl, rfl, rfl, rfl, rfl, rfl, rfl, rfl, rfl, rfl, rfl, rfl, ?_, ?_, ?_, ?_, ?_, ?_, ?_⟩
  · exact ⟨sne, n1.symm, n2, n0, n3.symm, tips⟩
  · intro x y
    rw [w'.joined_iff, w.joined_iff]
    simp only [Mesh.HA, al', rev', src']
    constructor
    · rintro ⟨h, ah, h1, h3⟩
      by_cases c1 : h = he
      · subst c1
        rw [upd_ne _ _ ner, upd_same] at h1
        rw [hr, upd_same] at h3
        exact Or.inr (Or.inr ⟨h1.symm, h3.symm⟩)
      by_cases c2 : h = r
      · subst c2
        rw [upd_same] at h1
        rw [hrr, upd_ne _ _ ner, upd_same] at h3
        exact Or.inr (Or.inl ⟨h1.symm, h3.symm⟩)
      have c3 : m.hRev h ≠ he := fun e => c2 (by rw [← w.rev_rev _ ah, e, hr])
      have c4 : m.hRev h ≠ r := fun e => c1 (by rw [← w.rev_rev _ ah, e, hrr])
      rw [upd_ne _ _ c2, upd_ne _ _ c1] at h1
      rw [upd_ne _ _ c4, upd_ne _ _ c3] at h3
      refine Or.inl ⟨⟨h, ah, h1, h3⟩, ?_⟩
      rintro (⟨q1, q2⟩ | ⟨q1, q2⟩)
      · exact c1 (g.simple.no_dup _ _ ah a (by rw [h1, q1]) (by rw [w.dst_rev ah, w.dst_rev a, h3, q2, hr]))
      · exact c2 (g.simple.no_dup _ _ ah ar (by rw [h1, q1]) (by rw [w.dst_rev ah, w.dst_rev ar, h3, q2, hrr]))
    · rintro (⟨⟨h, ah, h1, h3⟩, hn⟩ | ⟨q1, q2⟩ | ⟨q1, q2⟩)
      · have c1 : h ≠ he := by
          rintro rfl; exact hn (Or.inl ⟨h1.symm, by rw [← h3, hr]⟩)
        have c2 : h ≠ r := by
          rintro rfl; exact hn (Or.inr ⟨h1.symm, by rw [← h3, hrr]⟩)
        have c3 : m.hRev h ≠ he := fun e => c2 (by rw [← w.rev_rev _ ah, e, hr])
        have c4 : m.hRev h ≠ r := fun e => c1 (by rw [← w.rev_rev _ ah, e, hrr])
        exact ⟨h, ah, by rw [upd_ne _ _ c2, upd_ne _ _ c1, h1], by rw [upd_ne _ _ c4, upd_ne _ _ c3, h3]⟩
      · exact ⟨r, ar, by rw [upd_same, q1], by rw [hrr, upd_ne _ _ ner, upd_same, q2]⟩
      · exact ⟨he, a, by rw [upd_ne _ _ ner, upd_same, q1], by rw [hr, upd_same, q2]⟩
  · have := cnt (m.hSrc he)
    simp only [if_true, if_neg sne.symm, if_neg n1, if_neg n2.symm] at this; omega
  · have := cnt (m.hSrc r)
    simp only [if_true, if_neg sne, if_neg n0.symm, if_neg n3] at this; omega
  · have := cnt (m.hSrc e1)
    simp only [if_true, if_neg n1.symm, if_neg n0, if_neg tips.symm] at this; omega
  · have := cnt (m.hSrc e3)
    simp only [if_true, if_neg n3.symm, if_neg n2, if_neg tips] at this; omega
  · intro v p1 p2 p3 p4
    have := cnt v
    simp only [if_neg p1.symm, if_neg p2.symm, if_neg p3.symm, if_neg p4.symm] at this; omega

/-- Every outcome of a flip between two triangles. -/
theorem flipHE_cases [Scalar F] (g : m.Good) {he : Nat} (a : m.HA he) (t : m.OnTri he) (t' : m.OnTri (m.hRev he)) :
    flipHE he m = .ok false m ∨ ∃ m', flipHE he m = .ok true m' ∧ m' = flipState m he ∧
      FlipDone m m' (m.hSrc he) (m.hSrc (m.hRev he)) (m.hSrc (m.hNext (m.hNext he)))
      (m.hSrc (m.hNext (m.hNext (m.hRev he)))) := by
  rw [flipHE_eq g.wf a t t']
  by_cases c : m.outDeg (m.hSrc he) ≤ 4 ∨ m.outDeg (m.hSrc (m.hRev he)) ≤ 4 ∨
        m.adjB (m.hSrc (m.hNext (m.hNext he))) (m.hSrc (m.hNext (m.hNext (m.hRev he)))) = true
  · left; rw [if_pos c]
  · right
    rw [if_neg c]
    refine ⟨_, rfl, rfl, ?_⟩
    rw [not_or, not_or, adjB_iff g.wf (g.wf.src_alive _ (g.wf.next_alive _ (g.wf.next_alive _ a)))] at c
    exact flip_done g a t t' (by omega) (by omega) c.2.2

/-! Split -/

/-- the midpoint as computed by `splitHE` -/
def midPoint [Scalar F] (p q : Vec3 F) : Vec3 F := Vec3.smul (Scalar.lit 1 2) (Vec3.add p q)

theorem split_done [Scalar F] (g : m.Good) {he rev he0 he1 he2 he3 : Nat} (D : Diamond m he rev he0 he1 he2 he3)
    (R : SplitRel m m' he rev he0 he1 he2 he3) (hd : 2 < m.outDeg (m.hSrc rev)) (b0 : m.hBd he = false)
    (b1 : m.hBd rev = false) :
    SplitDone midPoint m m' (m.hSrc he) (m.hSrc rev) (m.hSrc he1) (m.hSrc he3) m.vFresh := by
  have w := g.wf
  have vv : m.hSrc he ≠ m.hSrc rev := by
    have := g.simple.no_loop _ D.a; rw [← w.src_rev _ D.a, D.hrev] at this; exact this
  have g' : m'.Good := ⟨split_wf w D R vv, split_tri w g.tri D R, split_simple w g.simple D R hd⟩
  have w' := g'.wf
  have nv : m.vAlive m.vFresh = false := by
    cases h : m.vAlive m.vFresh
    · rfl
    · have := (w.vBound _ h).2; omega
  have vne : ∀ h, m.HA h → m.hSrc h ≠ m.vFresh := fun h ah e => by
    have := w.src_alive _ ah; rw [e, nv] at this; cases this
  have nh : ∀ i, ¬ m.HA (m.hFresh + i) := fun i h => by have := (w.hBound _ h).2; omega
  have rne : rev ≠ he := D.d1.symm
  refine ⟨g', fun v av => ⟨(R.val v).2 (Or.inl av), R.pos v av, R.lock v av⟩, nv, (R.val _).2 (Or.inr rfl),
    fun v hv => (R.val v).1 hv, by rw [R.vs]; simp, by rw [R.hes]; simp, by rw [R.fs]; simp, R.posN, R.lockN, ?_, ?_, ?_⟩
  · unfold Mesh.outDeg
    rw [R.hes, List.countP_append]
    have c1 : m.hes.countP (fun h => m'.hSrc h == m.vFresh) = m.hes.count he := by
      unfold List.count
      apply List.countP_congr
      intro h hh
      have ah := (w.hDense.mem h).1 hh
      by_cases c : h = he
      · subst c; simp [R.S_]
      · simp [R.SO h ah c, c, vne h ah]
    rw [c1, List.count_eq_one_of_mem w.hDense.nodup ((w.hDense.mem he).2 D.a)]
    have e0 : m'.hSrc m.hFresh ≠ m.vFresh := by rw [R.Sn]; exact vne _ D.a
    have e1 : m'.hSrc (m.hFresh + 1) ≠ m.vFresh := by rw [R.S01]; exact vne _ D.a1
    have e5 : m'.hSrc (m.hFresh + 5) ≠ m.vFresh := by rw [R.S12]; exact vne _ D.a3
    simp [R.S02, R.S11, R.Srn, e0, e1, e5]
  · intro x y
    rw [w'.joined_iff, w.joined_iff]
    have sr : m'.hSrc rev = m.hSrc rev := R.SO _ D.ar rne
    constructor
    · rintro ⟨h, ah, h1, h2⟩
      rcases (R.hal h).1 ah with ho | rfl | rfl | rfl | rfl | rfl | rfl
      · rw [R.RO h ho] at h2
        by_cases c1 : h = he
        · subst c1
          rw [R.S_] at h1
          rw [D.hrev, sr] at h2
          exact Or.inr (Or.inl ⟨h1.symm, Or.inr (Or.inl h2.symm)⟩)
        by_cases c2 : h = rev
        · subst c2
          rw [sr] at h1
          rw [D.hrev', R.S_] at h2
          exact Or.inr (Or.inr ⟨h2.symm, Or.inr (Or.inl h1.symm)⟩)
        have c3 : m.hRev h ≠ he := fun e => c2 (by rw [← w.rev_rev _ ho, e, D.hrev])
        rw [R.SO h ho c1] at h1
        rw [R.SO _ (w.rev_alive _ ho) c3] at h2
        refine Or.inl ⟨⟨h, ho, h1, h2⟩, ?_⟩
        rintro (⟨q1, q2⟩ | ⟨q1, q2⟩)
        · exact c1 (g.simple.no_dup _ _ ho D.a (by rw [h1, q1]) (by rw [w.dst_rev ho, w.dst_rev D.a, h2, q2, D.hrev]))
        · exact c2 (g.simple.no_dup _ _ ho D.ar (by rw [h1, q1]) (by rw [w.dst_rev ho, w.dst_rev D.ar, h2, q2, D.hrev']))
      · rw [R.Sn] at h1; rw [R.Rn, R.Srn] at h2
        exact Or.inr (Or.inr ⟨h2.symm, Or.inl h1.symm⟩)
      · rw [R.S01] at h1; rw [R.R1, R.S02] at h2
        exact Or.inr (Or.inr ⟨h2.symm, Or.inr (Or.inr (Or.inl h1.symm))⟩)
      · rw [R.S02] at h1; rw [R.R2, R.S01] at h2
        exact Or.inr (Or.inl ⟨h1.symm, Or.inr (Or.inr (Or.inl h2.symm))⟩)
      · rw [R.Srn] at h1; rw [R.R3, R.Sn] at h2
        exact Or.inr (Or.inl ⟨h1.symm, Or.inl h2.symm⟩)
      · rw [R.S11] at h1; rw [R.R4, R.S12] at h2
        exact Or.inr (Or.inl ⟨h1.symm, Or.inr (Or.inr (Or.inr h2.symm))⟩)
      · rw [R.S12] at h1; rw [R.R5, R.S11] at h2
        exact Or.inr (Or.inr ⟨h2.symm, Or.inr (Or.inr (Or.inr h1.symm))⟩)
    · have al : ∀ h, m.HA h → m'.HA h := fun h ah => (R.hal h).2 (Or.inl ah)
      have A0 : m'.HA m.hFresh := (R.hal _).2 (by simp)
      have A1 : m'.HA (m.hFresh + 1) := (R.hal _).2 (by simp)
      have A2 : m'.HA (m.hFresh + 2) := (R.hal _).2 (by simp)
      have A3 : m'.HA (m.hFresh + 3) := (R.hal _).2 (by simp)
      have A4 : m'.HA (m.hFresh + 4) := (R.hal _).2 (by simp)
      have A5 : m'.HA (m.hFresh + 5) := (R.hal _).2 (by simp)
      rintro (⟨⟨h, ah, h1, h2⟩, hn⟩ | ⟨rfl, (rfl | rfl | rfl | rfl)⟩ | ⟨rfl, (rfl | rfl | rfl | rfl)⟩)
      · have c1 : h ≠ he := by
          rintro rfl; exact hn (Or.inl ⟨h1.symm, by rw [← h2, D.hrev]⟩)
        have c2 : h ≠ rev := by
          rintro rfl; exact hn (Or.inr ⟨h1.symm, by rw [← h2, D.hrev']⟩)
        have c3 : m.hRev h ≠ he := fun e => c2 (by rw [← w.rev_rev _ ah, e, D.hrev])
        exact ⟨h, al h ah, by rw [R.SO h ah c1, h1], by rw [R.RO h ah, R.SO _ (w.rev_alive _ ah) c3, h2]⟩
      · exact ⟨_, A3, R.Srn, by rw [R.R3, R.Sn]⟩
      · exact ⟨_, al _ D.a, R.S_, by rw [R.RO _ D.a, D.hrev, sr]⟩
      · exact ⟨_, A2, R.S02, by rw [R.R2, R.S01]⟩
      · exact ⟨_, A4, R.S11, by rw [R.R4, R.S12]⟩
      · exact ⟨_, A0, R.Sn, by rw [R.Rn, R.Srn]⟩
      · exact ⟨_, al _ D.ar, sr, by rw [R.RO _ D.ar, D.hrev', R.S_]⟩
      · exact ⟨_, A1, R.S01, by rw [R.R1, R.S02]⟩
      · exact ⟨_, A5, R.S12, by rw [R.R5, R.S11]⟩
  · intro h ah hs
    unfold Mesh.OnTri
    have B := fun i hi => R.BN i hi
    rcases (R.hal h).1 ah with ho | rfl | rfl | rfl | rfl | rfl | rfl
    · by_cases c1 : h = he
      · subst c1
        rw [R.RO _ ho, D.hrev, R.B _ ho, R.B _ D.ar]
        simp only [R.N_, R.N0, R.N01, R.Nr, R.N11, R.N3, b0, b1, and_self]
      · rw [R.SO h ho c1] at hs; exact absurd hs (vne h ho)
    · rw [R.Sn] at hs; exact absurd hs (vne _ D.a)
    · rw [R.S01] at hs; exact absurd hs (vne _ D.a1)
    · rw [R.R2]
      simp only [R.N02, R.N1, R.Nn, R.N01, R.N_, R.N0, B 1 (by omega), B 2 (by omega), and_self]
    · rw [R.R3]
      have := B 0 (by omega)
      simp only [R.Nrn, R.N2, R.N12, R.Nn, R.N02, R.N1, this, B 3 (by omega), and_self, Nat.add_zero] at this ⊢
    · rw [R.R4]
      simp only [R.N11, R.N3, R.Nr, R.N12, R.Nrn, R.N2, B 4 (by omega), B 5 (by omega), and_self]
    · rw [R.S12] at hs; exact absurd hs (vne _ D.a3)

/-- `splitHE h` returns true with state `m'`; `he` is the half-edge that is shortened. -/
structure SplitStep [Scalar F] (m m' : Mesh F) (h he : Nat) : Prop where
  side : he = h ∨ he = m.hRev h
  a : m.HA he
  run : splitHE h m = .ok true m'
  D : Diamond m he (m.hRev he) (m.hNext he) (m.hNext (m.hNext he)) (m.hNext (m.hRev he)) (m.hNext (m.hNext (m.hRev he)))
  R : SplitRel m m' he (m.hRev he) (m.hNext he) (m.hNext (m.hNext he)) (m.hNext (m.hRev he))
    (m.hNext (m.hNext (m.hRev he)))
  d0 : 2 < m.outDeg (m.hSrc he)
  d1 : 2 < m.outDeg (m.hSrc (m.hRev he))
  b0 : m.hBd he = false
  b1 : m.hBd (m.hRev he) = false

/-- Every outcome of `splitHE` on a mesh on which the library works. -/
theorem splitHE_cases [Scalar F] (g : m.Good) {h : Nat} (a : m.HA h) :
    splitHE h m = .ok false m ∨ ∃ m' he, SplitStep m m' h he := by
  have w := g.wf
  have key : ∀ he, (he = h ∨ he = m.hRev h) → m.HA he →
      splitHE h m = splitTail he (m.hRev he) (m.hSrc he) (m.hSrc (m.hRev he)) m →
      splitHE h m = .ok false m ∨ ∃ m' he, SplitStep m m' h he := by
    intro he hh ah e
    by_cases h0 : m.outDeg (m.hSrc he) < 3
    · left
      rw [e]; unfold splitTail
      simp [w.degree_ok (w.src_alive _ ah), h0]
    by_cases h1 : m.outDeg (m.hSrc (m.hRev he)) < 3
    · left
      rw [e]; unfold splitTail
      simp [w.degree_ok (w.src_alive _ ah), h0, w.degree_ok (w.src_alive _ (w.rev_alive _ ah)), h1]
    cases b0 : m.hBd he
    case true =>
      left
      rw [e]; unfold splitTail
      simp [w.degree_ok (w.src_alive _ ah), h0, w.degree_ok (w.src_alive _ (w.rev_alive _ ah)), h1, getBd_ok ah, b0]
    cases b1 : m.hBd (m.hRev he)
    case true =>
      left
      rw [e]; unfold splitTail
      simp [w.degree_ok (w.src_alive _ ah), h0, w.degree_ok (w.src_alive _ (w.rev_alive _ ah)), h1, getBd_ok ah, b0,
        getRev_ok ah, getBd_ok (w.rev_alive _ ah), b1]
    right
    have D := Diamond.mk' w g.simple ah (g.tri.onTri ah b0) (g.tri.onTri (w.rev_alive _ ah) b1)
    obtain ⟨m', e', R⟩ := splitTail_ok w D g.simple h0 h1 b0 b1
    exact ⟨m', he, hh, ah, by rw [e, e'], D, R, by omega, by omega, b0, b1⟩
  have e := splitHE_tail w a
  by_cases c : m.outDeg (m.hSrc h) < m.outDeg (m.hSrc (m.hRev h))
  · rw [if_pos c] at e
    exact key _ (Or.inr rfl) (w.rev_alive _ a) (by rw [w.rev_rev _ a]; exact e)
  · rw [if_neg c] at e
    exact key _ (Or.inl rfl) a e

theorem SplitStep.done [Scalar F] (g : m.Good) {h he : Nat} (S : SplitStep m m' h he) :
    SplitDone midPoint m m' (m.hSrc he) (m.hSrc (m.hRev he)) (m.hSrc (m.hNext (m.hNext he)))
      (m.hSrc (m.hNext (m.hNext (m.hRev he)))) m.vFresh :=
  split_done g S.D S.R S.d1 S.b0 S.b1

/-! Collapse -/

theorem Dense.length_removed {al al' : Nat → Bool} {ix ix' : Nat → Int} {l l' : List Nat} (d : Dense al ix l)
    (d' : Dense al' ix' l') (rm : List Nat) (nd : rm.Nodup) (h : ∀ x, al' x = true ↔ al x = true ∧ x ∉ rm)
    (hr : ∀ x ∈ rm, al x = true) : l'.length + rm.length = l.length := by
  have : l.Perm (l' ++ rm) := by
    rw [List.perm_ext_iff_of_nodup d.nodup]
    · intro x
      rw [List.mem_append, d.mem, d'.mem, h]
      constructor
      · intro hx
        by_cases c : x ∈ rm
        · exact Or.inr c
        · exact Or.inl ⟨hx, c⟩
      · rintro (⟨hx, _⟩ | hx)
        · exact hx
        · exact hr x hx
    · rw [List.nodup_append]
      refine ⟨d'.nodup, nd, ?_⟩
      intro x hx y hy e
      rw [d'.mem, h] at hx
      exact hx.2 (e ▸ hy)
  rw [this.length_eq, List.length_append]

theorem collapse_done [Scalar F] (g : m.Good) {he rev a b c d o0 o1 o2 o3 v0 v1 v2 v3 : Nat}
    (G : CollapseGuard m he rev) (D : Diamond m he rev a b c d)
    (W : Wings m he rev a b c d o0 o1 o2 o3 v0 v1 v2 v3)
    (R : CollapseRel m m' he rev a b c d o0 o1 o2 o3 v0 v1 v2 v3) : CollapseDone m m' v0 v2 := by
  have w := g.wf
  have g' := collapse_good g G D W R
  have w' := g'.wf
  have A2 : m.vAlive v2 = true := by have := w.src_alive _ D.ar; rw [W.sr] at this; exact this
  refine ⟨g', ⟨he, D.a, W.s, by rw [← w.src_rev _ D.a, D.hrev, W.sr]⟩, R.val, fun v _ => ⟨by rw [R.pos], by rw [R.lock]⟩,
    ?_, ?_, ?_, ?_, fun h hh => ((R.hal h).1 hh).1, fun f hf => ((R.fal f).1 hf).1, ?_, ?_,
    fun h hh => ⟨by rw [R.nx], by rw [R.fc], R.src h ((R.hal h).1 hh).1⟩⟩
  · exact w.vDense.length_removed w'.vDense [v2] (by simp) (by simpa using R.val) (by simpa using A2)
  · exact w.hDense.length_removed w'.hDense [he, rev, a, b, c, d]
      (by simp [D.d1, D.d2, D.d3, D.d4, D.d5, D.d6, D.d7, D.d8, D.d9, D.d10, D.d11, D.d12, D.d13, D.d14, D.d15])
      (by simpa using R.hal) (by
        have := D.a; have := D.ar; have := D.a0; have := D.a1; have := D.a2; have := D.a3
        simp_all [Mesh.HA])
  · exact w.fDense.length_removed w'.fDense [m.hFace he, m.hFace rev] (by simpa using D.dface) (by simpa using R.fal)
      (by simpa using ⟨w.face_alive _ D.a, w.face_alive _ D.ar⟩)
  · intro x y
    constructor
    · rintro ⟨h, ah, h1, h2⟩
      have ho := ((R.hal h).1 ah).1
      refine ⟨?_, _, _, ⟨h, ho, rfl, rfl⟩, ?_, ?_⟩
      · rw [← h1, ← h2]; exact g'.simple.no_loop _ ah
      · rw [← h1, R.src h ho]
      · rw [← h2, R.nx, R.src _ (w.next_alive _ ho)]
    · rintro ⟨hne, a', b', ⟨h, ah, h1, h2⟩, ha, hb⟩
      have key : ∀ h, m'.HA h → m.hSrc h = a' → m.hSrc (m.hNext h) = b' → m'.Joined x y := by
        intro h ah h1 h2
        have ho := ((R.hal h).1 ah).1
        exact ⟨h, ah, by rw [R.src h ho, h1, ha], by rw [R.nx, R.src _ (w.next_alive _ ho), h2, hb]⟩
      -- every removed half-edge but the two of the edge itself has a copy
      have T0 : m'.HA o0 := (R.hal _).2 ⟨W.a0, W.q0⟩
      have T1 : m'.HA o1 := (R.hal _).2 ⟨W.a1, W.q1⟩
      have T2 : m'.HA o2 := (R.hal _).2 ⟨W.a2, W.q2⟩
      have T3 : m'.HA o3 := (R.hal _).2 ⟨W.a3, W.q3⟩
      have S' : ∀ o, m.HA o → m'.hSrc (m'.hNext o) = if m.hSrc (m.hNext o) = v2 then v0 else m.hSrc (m.hNext o) :=
        fun o ao => by rw [R.nx, R.src _ (w.next_alive _ ao)]
      rcases cases6 h he rev a b c d with rfl | rfl | rfl | rfl | rfl | rfl | hh
      · exfalso; apply hne
        rw [← ha, ← hb, ← h1, ← h2, W.s, D.n, W.sa, if_neg W.v02, if_pos rfl]
      · exfalso; apply hne
        rw [← ha, ← hb, ← h1, ← h2, W.sr, D.nr, W.sc, if_pos rfl, if_neg W.v02]
      · refine ⟨o0, T0, ?_, ?_⟩
        · rw [R.src _ W.a0, W.so0, if_neg W.v02, ← ha, ← h1, W.sa, if_pos rfl]
        · rw [S' _ W.a0, W.t0, if_neg W.v12, ← hb, ← h2, D.n0, W.sb, if_neg W.v12]
      · refine ⟨o1, T1, ?_, ?_⟩
        · rw [R.src _ W.a1, W.so1, if_neg W.v12, ← ha, ← h1, W.sb, if_neg W.v12]
        · rw [S' _ W.a1, W.t1, if_pos rfl, ← hb, ← h2, D.n1, W.s, if_neg W.v02]
      · refine ⟨o2, T2, ?_, ?_⟩
        · rw [R.src _ W.a2, W.so2, if_pos rfl, ← ha, ← h1, W.sc, if_neg W.v02]
        · rw [S' _ W.a2, W.t2, if_neg W.v23.symm, ← hb, ← h2, D.n2, W.sd, if_neg W.v23.symm]
      · refine ⟨o3, T3, ?_, ?_⟩
        · rw [R.src _ W.a3, W.so3, if_neg W.v23.symm, ← ha, ← h1, W.sd, if_neg W.v23.symm]
        · rw [S' _ W.a3, W.t3, if_neg W.v02, ← hb, ← h2, D.n3, W.sr, if_pos rfl]
      · exact key h ((R.hal h).2 ⟨ah, hh⟩) h1 h2
  · intro f
    have eh : m.hSrc (m.hNext he) = v2 := by rw [← w.src_rev _ D.a, D.hrev, W.sr]
    have er : m.hSrc (m.hNext rev) = v0 := by rw [← w.src_rev _ D.ar, D.hrev', W.s]
    rw [R.fal]
    constructor
    · rintro ⟨af, f1, f2⟩
      refine ⟨af, fun x ax hx sp => ?_⟩
      rcases sp with ⟨e1, e2⟩ | ⟨e1, e2⟩
      · exact f1 (by rw [← hx, g.simple.no_dup x he ax D.a (by rw [e1, W.s]) (by rw [e2, eh])])
      · exact f2 (by rw [← hx, g.simple.no_dup x rev ax D.ar (by rw [e1, W.sr]) (by rw [e2, er])])
    · rintro ⟨af, hf⟩
      exact ⟨af, fun e => hf he D.a e.symm (Or.inl ⟨W.s, eh⟩), fun e => hf rev D.ar e.symm (Or.inr ⟨W.sr, er⟩)⟩
  · intro h
    constructor
    · intro ah
      have := w'.face_alive _ ah
      rw [R.fc] at this
      exact ⟨((R.hal h).1 ah).1, this⟩
    · rintro ⟨ah, af⟩
      obtain ⟨-, f1, f2⟩ := (R.fal _).1 af
      refine (R.hal h).2 ⟨ah, ?_, ?_, ?_, ?_, ?_, ?_⟩
      · rintro rfl; exact f1 rfl
      · rintro rfl; exact f2 rfl
      · rintro rfl; exact f1 (by rw [← D.n, w.face_next _ D.a])
      · rintro rfl; exact f1 (by rw [← D.n0, w.face_next _ D.a0, ← D.n, w.face_next _ D.a])
      · rintro rfl; exact f2 (by rw [← D.nr, w.face_next _ D.ar])
      · rintro rfl; exact f2 (by rw [← D.n2, w.face_next _ D.a2, ← D.nr, w.face_next _ D.ar])

/-- Every outcome of `collapseHE`: nothing happened, or one end was removed, or the end to be removed has a NaN coordinate
and the program was aborted by an assertion. -/
theorem collapseHE_outcome [Scalar F] (g : m.Good) {h : Nat} (a : m.HA h) :
    collapseHE h m = .ok false m ∨
    (∃ m' p q, collapseHE h m = .ok true m' ∧ SamePair p q (m.hSrc h) (m.hSrc (m.hRev h)) ∧ CollapseDone m m' p q ∧
      m.outDeg p ≤ m.outDeg q ∧ m'.hFresh = m.hFresh ∧ m'.vFresh = m.vFresh ∧ m'.fFresh = m.fFresh) ∨
    (collapseHE h m = .err .abort ∧ ∃ v, m.vAlive v = true ∧ ¬ (m.vPos v).eq (m.vPos v) = true) := by
  rcases collapseHE_cases g a with h1 | ⟨he, rev, hs, hdeg, G, a', b', c', d', o0, o1, o2, o3, v0, v1, v2, v3, D, W, h2⟩
  · exact Or.inl h1
  · have e0 := W.s
    have e2 := W.sr
    rcases h2 with ⟨hp, m', e, R⟩ | ⟨hp, e⟩
    · refine Or.inr (Or.inl ⟨m', v0, v2, e, ?_, collapse_done g G D W R, by rw [← e0, ← e2]; exact hdeg, R.hfr, R.vfr,
        R.ffr⟩)
      rcases hs with ⟨rfl, rfl⟩ | ⟨rfl, rfl⟩
      · exact Or.inl ⟨e0.symm, e2.symm⟩
      · exact Or.inr ⟨e0.symm, e2.symm⟩
    · refine Or.inr (Or.inr ⟨e, v2, ?_, hp⟩)
      have := g.wf.src_alive _ D.ar; rw [W.sr] at this; exact this

end TinyMesh
