import Verif.Proof.FillC
/-
The loop of `holeFillMinDihedral_` that connects the new half-edges, and the removal of the filled face.
-/
set_option linter.unusedSimpArgs false
namespace TinyMesh
open Orbit
variable {F : Type}

theorem rmF_slots {m : Mesh F} (d : Dense m.fAlive m.fIdx m.fs) {f z : Nat} (a : m.fAlive f = true) (hz : m.fs.getLast? = some z)
    (ne : z ≠ f) :
    ∃ m', removeFace f m = .ok () m' ∧ Dense m'.fAlive m'.fIdx m'.fs ∧ RmF m m' f ∧ m'.fs.length + 1 = m.fs.length ∧
      ∀ (i g : Nat), m.fs[i]? = some g → g ≠ f → i + 1 < m.fs.length → m'.fs[i]? = some g := by
  obtain ⟨z', hz', az, hh⟩ := d.remove a
  rw [hz] at hz'
  cases Option.some.inj hz'
  rcases hh with ⟨h1, h2⟩ | ⟨h1, h3, h2⟩
  · refine ⟨{ m with
                  fs := (m.fs.set (m.fIdx f).toNat z).dropLast
                  fIdx := upd (upd m.fIdx z (m.fIdx f)) f (-1)
                  fAlive := upd m.fAlive f false }, ?_, h2, by constructor <;> rfl, ?_, ?_⟩
    · unfold removeFace
      simp only [a, if_true, d.arrayAt a, hz, az, BEq.rfl, Bool.and_self]
      rw [if_pos h1]
    · have : m.fs ≠ [] := by intro e; rw [e] at hz; simp at hz
      have := List.length_pos_of_ne_nil this
      simp only [List.length_dropLast, List.length_set]
      omega
    · intro i g hi hg hl
      dsimp only
      rw [List.getElem?_dropLast, if_pos (by rw [List.length_set]; omega), List.getElem?_set_ne, hi]
      intro e
      obtain ⟨k, hk, e1, e2⟩ := d.at a
      rw [e2] at e
      have : k = i := by omega
      subst this
      rw [List.getElem?_eq_getElem hk, e1] at hi
      exact hg (Option.some.inj hi).symm
  · exact absurd h3 ne

section
variable {m0 m1 : Mesh F} {hs : List Nat} {tris : List Tri3} {s : HeMaps}

/-- what holds of the links to the opposite half-edges while they are being set -/
structure RevInv (m0 : Mesh F) (hs : List Nat) (s : HeMaps) (r : Nat → Nat) : Prop where
  new : ∀ e h, s.pair2he.lookup e = some h → ¬ IsSide hs.length e → r h = 0 ∨ s.pair2he.lookup (e.2, e.1) = some (r h)
  old : ∀ h, h < m0.hFresh → r h = m0.hRev h

theorem LinkInv.get (L : LinkInv m0 hs tris s m1) {e : Nat × Nat} (h : e ∈ allDirs tris) : ∃ x, s.pair2he.lookup e = some x :=
  Option.isSome_iff_exists.1 ((L.keys e).2 (.inr h))

theorem LinkInv.bd_false (L : LinkInv m0 hs tris s m1) {e : Nat × Nat} (h : e ∈ allDirs tris) {x : Nat}
    (hx : s.pair2he.lookup e = some x) : m1.hBd x = false := by
  obtain ⟨t, ht, h⟩ := mem_allDirs.1 h
  obtain ⟨j, hj⟩ := List.getElem?_of_mem ht
  obtain ⟨a, b, c, d⟩ := L.tri j t hj
  rw [mem_dirs] at h
  rcases h with rfl | rfl | rfl
  · rw [d.la] at hx; rw [← Option.some.inj hx]; exact d.ba
  · rw [d.lb] at hx; rw [← Option.some.inj hx]; exact d.bb
  · rw [d.lc] at hx; rw [← Option.some.inj hx]; exact d.bc

theorem fillLinkRev_ok (w : m0.WF) (ha : ∀ h ∈ hs, m0.hAlive h = true) (I : MapInv m0 hs s m1) (L : LinkInv m0 hs tris s m1)
    (p : Poly hs.length tris) {r : Nat → Nat} (R : RevInv m0 hs s r) {e : Nat × Nat} {h : Nat} (he : e ∈ allDirs tris)
    (hl : s.pair2he.lookup e = some h) :
    ∃ r', fillLinkRev s h { m1 with hRev := r } = .ok () { m1 with hRev := r' } ∧ RevInv m0 hs s r' ∧ r' h ≠ 0 ∧
      ∀ x, r x ≠ 0 → r' x ≠ 0 := by
  have al := I.alive ha hl
  unfold fillLinkRev
  simp only [bind_apply, getRev, al, if_true]
  have pos : ∀ e x, s.pair2he.lookup e = some x → x ≠ 0 := by
    intro e x hx h0
    subst h0
    rcases (I.hal 0).1 (I.alive ha hx) with h | h
    · have := (w.hBound 0 h).1; omega
    · have := w.hBound _ (w.fHe_ok _ (w.face_alive _ (ha _ (List.getElem_mem (show 0 < hs.length by have := p.three; omega))))).1
      omega
  by_cases sd : IsSide hs.length e
  · rw [I.side e sd] at hl
    have a0 := ha h (List.mem_of_getElem? hl)
    have hb := w.hBound h a0
    have : r h ≠ 0 := by
      rw [R.old h hb.2]
      have := w.hBound _ (w.rev_alive h a0)
      omega
    rw [if_neg this]
    exact ⟨r, rfl, R, this, fun _ h => h⟩
  · by_cases hr : r h = 0
    · rw [if_pos hr]
      obtain ⟨sw, nsw⟩ := p.swap e he sd
      obtain ⟨q, hq⟩ := L.get sw
      have aq := I.alive ha hq
      simp only [(I.back e h).2 hl, Option.getD_some, hq]
      have hne : h ≠ q := by
        rintro rfl
        have := I.inj hl hq
        exact p.ne e he (congrArg Prod.fst this)
      have b1 := L.bd_false he hl
      have b2 := L.bd_false sw hq
      refine ⟨upd (upd r h q) q h, ?_, ⟨?_, ?_⟩, ?_, ?_⟩
      · have hbd : upd (upd m1.hBd h false) q false = m1.hBd := by
          funext x
          unfold upd
          split
          · next e => rw [e, b2]
          · split
            · next e => rw [e, b1]
            · rfl
        simp only [bind_apply, setRev, setBd, al, aq, if_true, hbd]
      · intro e' h' hl' sd'
        by_cases e1 : h' = q
        · subst e1
          rw [upd_same]
          have := I.inj hl' hq
          subst this
          exact .inr hl
        · rw [upd_ne _ _ e1]
          by_cases e2 : h' = h
          · subst e2
            rw [upd_same]
            have := I.inj hl' hl
            subst this
            exact .inr hq
          · rw [upd_ne _ _ e2]
            exact R.new e' h' hl' sd'
      · intro x hx
        have n1 := (I.new _ _ hl sd).1
        have n2 := (I.new _ _ hq nsw).1
        rw [upd_ne _ _ (by omega), upd_ne _ _ (by omega), R.old x hx]
      · rw [upd_ne _ _ hne, upd_same]
        exact pos _ _ hq
      · intro x hx
        unfold upd
        split
        · exact pos _ _ hl
        · split
          · exact pos _ _ hq
          · exact hx
    · rw [if_neg hr]
      exact ⟨r, rfl, R, hr, fun _ h => h⟩

theorem linkFaces_ok (w : m0.WF) (ha : ∀ h ∈ hs, m0.hAlive h = true) (I : MapInv m0 hs s m1) (L : LinkInv m0 hs tris s m1)
    (p : Poly hs.length tris) : ∀ (js : List Nat), (∀ j ∈ js, j < tris.length) → ∀ (r : Nat → Nat), RevInv m0 hs s r →
    ∃ r', linkFaces s (js.map (fun j => m0.fFresh + j)) { m1 with hRev := r } = .ok () { m1 with hRev := r' } ∧ RevInv m0 hs s r' ∧
      (∀ x, r x ≠ 0 → r' x ≠ 0) ∧
      ∀ j ∈ js, ∀ t, tris[j]? = some t → ∀ e ∈ dirs t, ∀ h, s.pair2he.lookup e = some h → r' h ≠ 0 := by
  intro js
  induction js with
  | nil =>
    intro _ r R
    exact ⟨r, rfl, R, fun _ h => h, by simp⟩
  | cons j js ih =>
    intro hj r R
    have hjl := hj j List.mem_cons_self
    have ht := List.getElem?_eq_getElem hjl
    obtain ⟨a, b, c, d⟩ := L.tri j _ ht
    have mem : tris[j] ∈ tris := List.getElem_mem hjl
    have ma : (tris[j].1, tris[j].2.1) ∈ allDirs tris := mem_allDirs.2 ⟨_, mem, by simp [dirs]⟩
    have mb : (tris[j].2.1, tris[j].2.2) ∈ allDirs tris := mem_allDirs.2 ⟨_, mem, by simp [dirs]⟩
    have mc : (tris[j].2.2, tris[j].1) ∈ allDirs tris := mem_allDirs.2 ⟨_, mem, by simp [dirs]⟩
    have nb := p.ne _ ma
    have nc := p.ne _ mb
    have na := p.ne _ mc
    dsimp only at na nb nc
    have nab : a ≠ b := by
      rintro rfl
      exact nb (congrArg Prod.fst (I.inj d.la d.lb))
    have nac : a ≠ c := by
      rintro rfl
      exact na (congrArg Prod.fst (I.inj d.la d.lc)).symm
    have nbc : b ≠ c := by
      rintro rfl
      exact nc (congrArg Prod.fst (I.inj d.lb d.lc))
    have h0 : 0 < m0.hFresh := by
      have := w.hBound _ (ha _ (List.getElem_mem (show 0 < hs.length by have := p.three; omega)))
      omega
    have bnd : ∀ e x, s.pair2he.lookup e = some x → 0 < x ∧ x < m1.hFresh := by
      intro e x hx
      have := I.hFr
      rcases (I.hal x).1 (I.alive ha hx) with h | h
      · have := w.hBound x h; omega
      · omega
    have pa := bnd _ _ d.la
    have pb := bnd _ _ d.lb
    have pc := bnd _ _ d.lc
    have aa := I.alive ha d.la
    have ab := I.alive ha d.lb
    have ac := I.alive ha d.lc
    have af : m1.fAlive (m0.fFresh + j) = true := by
      rw [L.fal]; right; rw [L.fFr]; omega
    obtain ⟨r1, e1, R1, n1, k1⟩ := fillLinkRev_ok w ha I L p R ma d.la
    obtain ⟨r2, e2, R2, n2, k2⟩ := fillLinkRev_ok w ha I L p R1 mb d.lb
    obtain ⟨r3, e3, R3, n3, k3⟩ := fillLinkRev_ok w ha I L p R2 mc d.lc
    obtain ⟨r4, e4, R4, k4, n4⟩ := ih (fun i hi => hj i (List.mem_cons_of_mem _ hi)) r3 R3
    refine ⟨r4, ?_, R4, fun x h => k4 x (k3 x (k2 x (k1 x h))), ?_⟩
    · rw [List.map_cons]
      simp only [linkFaces, bind_apply, getFHe, af, if_true, d.fh]
      have loop : ∀ k, circLoop faceStep (fun x _ => do fillLinkRev s x; pure (false, ())) a (k + 3) a () { m1 with hRev := r } =
          .ok () { m1 with hRev := r3 } := by
        intro k
        have ga : ∀ r, getNext a { m1 with hRev := r } = .ok b { m1 with hRev := r } := fun r => by simp [getNext, aa, d.na]
        have gb : ∀ r, getNext b { m1 with hRev := r } = .ok c { m1 with hRev := r } := fun r => by simp [getNext, ab, d.nb]
        have gc : ∀ r, getNext c { m1 with hRev := r } = .ok a { m1 with hRev := r } := fun r => by simp [getNext, ac, d.nc]
        have q1 : ¬ (b = a ∨ b = 0) := by omega
        have q2 : ¬ (c = a ∨ c = 0) := by omega
        simp only [circLoop, bind_apply, e1, pure_apply, faceStep, Bool.false_eq_true, if_false, ga, q1, e2, gb, q2, e3, gc, true_or, if_true]
      have : circ faceStep a () (fun x _ => do fillLinkRev s x; pure (false, ())) { m1 with hRev := r } = .ok () { m1 with hRev := r3 } := by
        unfold circ
        rw [if_neg (by omega)]
        have := loop (m1.hFresh - 3)
        rw [show m1.hFresh - 3 + 3 = m1.hFresh by omega] at this
        exact this
      rw [this]
      exact e4
    · intro i hi t ht' e he h hl
      rcases List.mem_cons.1 hi with rfl | hi
      · rw [ht] at ht'
        cases Option.some.inj ht'
        rw [mem_dirs] at he
        rcases he with rfl | rfl | rfl
        · rw [d.la] at hl; cases Option.some.inj hl; exact k4 _ (k3 _ (k2 _ n1))
        · rw [d.lb] at hl; cases Option.some.inj hl; exact k4 _ (k3 _ n2)
        · rw [d.lc] at hl; cases Option.some.inj hl; exact k4 _ n3
      · exact n4 i hi t ht' e he h hl

end
end TinyMesh
