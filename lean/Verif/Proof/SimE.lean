import Verif.Proof.SimD
import Verif.Proof.RemE
/-
One candidate of the queue of simplification, and the flips.
-/
namespace TinyMesh
open Orbit

section
variable {m m' : Mesh XR} {p : Nat → E3}

/-- moving a vertex -/
theorem Mesh.AtE.move (A : m.AtE p) {u : Nat} {v : Vec3 XR} {x : E3} (hv : v.Is x) :
    ({ m with vPos := upd m.vPos u v } : Mesh XR).AtE (Function.update p u x) := by
  intro y ay
  by_cases c : y = u
  · subst c
    simpa [upd] using hv
  · simpa [upd, c] using A y ay

/-- one candidate that has not been removed -/
theorem qemPass_step (g : m.Good) (A : m.AtE p) {nv : Nat} (hn : m.vs.length ≤ nv) {target nr : Int} (lt : nr < target)
    {q : List (Nat × Vec3 XR)} {rm : List Nat} {ck : Nat → Bool} {h : Nat} {v : Vec3 XR} {x : E3} (a : m.hAlive h = true) (nr' : h ∉ rm)
    (hv : v.Is x) {e : Nat} (he : e = if m.outDeg (m.hSrc (m.hRev h)) < m.outDeg (m.hSrc h) then m.hRev h else h)
    {m1 : Mesh XR} (hm1 : m1 = { m with vPos := upd m.vPos (m.hSrc h) v }) {six : List Nat}
    (hs : six = [h, m.hNext h, m.hNext (m.hNext h), m.hRev h, m.hNext (m.hRev h), m.hNext (m.hNext (m.hRev h))]) :
    (m.Contractible p (fun u => ck (m.vIdx u).toNat = true) h x →
      (collapseHE h m1 = .ok false m1 ∧
        qemPass nv target ((h, v) :: q) rm ck nr m = qemPass nv target q (six ++ rm) (upd ck (m.vIdx (m.hSrc h)).toNat true) nr m1) ∨
      ∃ m', collapseHE h m1 = .ok true m' ∧ CollapseDone m1 m' (m.hSrc e) (m.hSrc (m.hRev e)) ∧
        qemPass nv target ((h, v) :: q) rm ck nr m =
          qemPass nv target q (six ++ rm) (upd ck (m.vIdx (m.hSrc h)).toNat true) (nr + 2) m') ∧
    (¬ m.Contractible p (fun u => ck (m.vIdx u).toNat = true) h x →
      qemPass nv target ((h, v) :: q) rm ck nr m = qemPass nv target q rm ck nr m) := by
  have w := g.wf
  have as := w.src_alive _ a
  obtain ⟨b, hb, hc⟩ := qemAllowed_exact g A hn ck a hv
  constructor
  · intro C
    have hbt := hc.2 C
    have g1 : m1.Good := by subst hm1; exact Mesh.SameButPos.good (m := m) rfl g
    have A1 : m1.AtE (Function.update p (m.hSrc h) x) := by subst hm1; exact A.move hv
    have a1 : m1.hAlive h = true := by subst hm1; exact a
    have hn1 : m1.vs.length ≤ nv := by subst hm1; exact hn
    have as1 : m1.vAlive (m.hSrc h) = true := by subst hm1; exact as
    have es : setPos (m.hSrc h) v m = .ok () m1 := by subst hm1; simp [setPos, as]
    have ix : m1.vIdx (m.hSrc h) = m.vIdx (m.hSrc h) := by subst hm1; rfl
    have he1 : e = if m1.outDeg (m1.hSrc (m1.hRev h)) < m1.outDeg (m1.hSrc h) then m1.hRev h else h := by subst hm1; exact he
    have red : ∀ b m2, collapseHE h m1 = .ok b m2 → qemPass nv target ((h, v) :: q) rm ck nr m =
        qemPass nv target q (six ++ rm) (upd ck (m.vIdx (m.hSrc h)).toNat true) (if b then nr + 2 else nr) m2 := by
      intro b' m2 run
      rw [qemPass, if_pos lt, if_neg nr', bind_apply, hb, hbt]
      dsimp only
      rw [if_pos rfl, bind_apply, sixHalfedges_ok w a, ← hs]; dsimp only
      rw [bind_apply, getSrc_ok a]; dsimp only
      rw [bind_apply, es]; dsimp only
      rw [bind_apply, getVIdx_ok as1]; dsimp only
      rw [bind_apply, inRange_ok g1.wf hn1 as1]; dsimp only
      rw [bind_apply, run, ix]
    rcases collapseHE_outcome g1 a1 with r | ⟨m2, y, z, r, -⟩ | ⟨r, u, au, hu⟩
    · exact Or.inl ⟨r, by simpa using red _ _ r⟩
    · refine Or.inr ⟨m2, r, ?_, by simpa using red _ _ r⟩
      have := collapseHE_side g1 a1 he1 r
      subst hm1
      exact this
    · exfalso
      have nan : ∀ v, m1.vAlive v = true → (m1.vPos v).eq (m1.vPos v) = true := by
        rcases caps_exact.nan with h | h
        · exact h.elim
        · exact h m1 ⟨_, A1⟩
      exact hu (nan u au)
  · intro C
    have hbf : b = false := by
      cases b with
      | false => rfl
      | true => exact absurd (hc.1 rfl) C
    rw [qemPass, if_pos lt, if_neg nr', bind_apply, hb, hbf]
    rfl

end

section
variable {F : Type} {m m' : Mesh F}

theorem FlipDone.sixSum (w : m.WF) {p q r s : Nat} (d : FlipDone m m' p q r s)
    (ap : m.vAlive p = true) (aq : m.vAlive q = true) (ar : m.vAlive r = true) (as : m.vAlive s = true) :
    m'.sixSum < m.sixSum ↔ valenceScore (m.outDeg p - 1) (m.outDeg q - 1) (m.outDeg r + 1) (m.outDeg s + 1) 6 6 6 6 <
      valenceScore (m.outDeg p) (m.outDeg q) (m.outDeg r) (m.outDeg s) 6 6 6 6 := by
  have S := sum_four w.vDense.nodup (f := fun v => ((m'.outDeg v : Int) - 6).natAbs) (g := fun v => ((m.outDeg v : Int) - 6).natAbs)
    ((w.vDense.mem p).2 ap) ((w.vDense.mem q).2 aq)
    ((w.vDense.mem r).2 ar) ((w.vDense.mem s).2 as) d.distinct (fun v h1 h2 h3 h4 => by
      rw [d.degO v h1 h2 h3 h4])
  have e1 := d.degP; have e2 := d.degQ; have e3 := d.degR; have e4 := d.degS
  unfold Mesh.sixSum
  rw [d.vs]
  unfold valenceScore
  omega

variable [Scalar F]

/-- the body of the loop of flips of simplification -/
theorem qemFlipOne_iff (g : m.Good) {i h : Nat} (hi : m.hes[i]? = some h) :
    (∃ m', m.Inner h ∧ flipHE h m = .ok true m' ∧ m'.sixSum < m.sixSum ∧ m'.Good ∧ m'.hes = m.hes ∧ qemFlipOne i m = .ok () m') ∨
    (¬ (m.Inner h ∧ ∃ m', flipHE h m = .ok true m' ∧ m'.sixSum < m.sixSum) ∧ qemFlipOne i m = .ok () m) := by
  have w := g.wf
  obtain ⟨c, rfl⟩ := List.getElem?_eq_some_iff.1 hi
  have a := hes_alive w c
  have ar := w.rev_alive _ a
  have an := w.next_alive _ a
  have v0 := w.src_alive _ a
  have v1 := w.src_alive _ an
  have arn := w.next_alive _ ar
  have v2 := w.src_alive _ (w.next_alive _ an)
  have v3 := w.src_alive _ (w.next_alive _ arn)
  have I := w.inner_iff a
  unfold qemFlipOne
  simp only [bind_apply, halfedgeAt_ok c, getFace_ok a, w.fIsBoundary_ok (w.face_alive _ a)]
  split
  · next b => exact Or.inr ⟨fun h => (by rw [(I.1 h.1).1] at b; cases b), rfl⟩
  next b1 =>
  simp only [bind_apply, getRev_ok a, getFace_ok ar, w.fIsBoundary_ok (w.face_alive _ ar)]
  split
  · next b => exact Or.inr ⟨fun h => (by rw [(I.1 h.1).2] at b; cases b), rfl⟩
  next b2 =>
  have inner : m.Inner m.hes[i] := I.2 ⟨by simpa using b1, by simpa using b2⟩
  simp only [bind_apply, getSrc_ok a, getDst_ok a an, getNext_ok a, getDst_ok an (w.next_alive _ an), getNext_ok ar,
    getDst_ok arn (w.next_alive _ arn), w.degree_ok v0, w.degree_ok v1, w.degree_ok v2, w.degree_ok v3]
  rcases flipHE_cases g a (g.onTri a (I.1 inner).1) (g.onTri ar (I.1 inner).2) with e | ⟨m', e, hm, d⟩
  · refine Or.inr ⟨fun h => ?_, ?_⟩
    · obtain ⟨m', e', -⟩ := h.2
      rw [e] at e'; cases e'
    · split
      · simp [e]
      · rfl
  · have D := d.sixSum w v0 (w.src_alive _ ar) v2 v3
    rw [w.src_rev _ a] at D
    split
    · next c' =>
      refine Or.inl ⟨m', inner, e, D.2 c', d.good, d.hes, ?_⟩
      simp [e]
    · next c' =>
      refine Or.inr ⟨fun h => ?_, rfl⟩
      obtain ⟨m'', e', h'⟩ := h.2
      rw [e] at e'; cases e'
      exact c' (D.1 h')

/-- the loop of flips of simplification -/
theorem qemFlips_six (g : m.Good) : ∃ m', forHalfedges qemFlipOne m = .ok () m' ∧ m'.Good ∧ m'.sixSum ≤ m.sixSum := by
  have run : ∀ (i : Nat) (m : Mesh F), m.Good → i < m.hes.length →
      (∃ a m', qemFlipOne i m = .ok a m' ∧ (m'.Good ∧ m'.sixSum ≤ m.sixSum) ∧ m'.hes.length = m.hes.length) ∨
        ∃ e, False ∧ qemFlipOne i m = .err e := by
    intro i m g c
    rcases qemFlipOne_iff g (List.getElem?_eq_getElem c) with ⟨m', -, -, h1, h2, h3, e⟩ | ⟨-, e⟩
    · exact Or.inl ⟨_, _, e, ⟨h2, h1.le⟩, by rw [h3]⟩
    · exact Or.inl ⟨_, _, e, ⟨g, le_rfl⟩, rfl⟩
  rcases Runs.forHalfedges (I := Mesh.Good) (E := fun _ => False) (R := fun m m' : Mesh F => m'.sixSum ≤ m.sixSum)
    ⟨fun _ => le_rfl, fun h h' => h'.trans h⟩ run m g with ⟨u, m', e, i, r⟩ | ⟨e, h, -⟩
  · exact ⟨m', e, i, r⟩
  · exact h.elim

end
end TinyMesh
