import Verif.Proof.RemE
import Verif.Proof.FrontO
import Verif.Model.Context
import Verif.Props.CollapseFace
import Verif.Spec.Repair
/-
The repair steps of context coherent completion: search in a ring for an edge to treat.
-/
namespace TinyMesh
open Orbit
variable {F : Type}

section
variable {m : Mesh F} {β : Type}

/-- a circulator loop that leaves the mesh alone until it stops -/
theorem circLoop_find {step : Nat → M F Nat} {body : Nat → β → M F (Bool × β)} {st : Nat → Nat} (start p : Nat) (b0 b1 : β)
    {Q : Nat → Prop} {P : Nat → Mesh F → Prop} {E : Nat → Err → Prop}
    (hstep : ∀ i, i < p → step (st^[i] start) m = .ok (st^[i + 1] start) m)
    (hb : ∀ i, i < p → (body (st^[i] start) b0 m = .ok (false, b0) m ∧ Q (st^[i] start)) ∨
      (∃ m', body (st^[i] start) b0 m = .ok (true, b1) m' ∧ P (st^[i] start) m') ∨
      ∃ e, E (st^[i] start) e ∧ (body (st^[i] start) b0 m = .err e ∨
        ∃ r m', body (st^[i] start) b0 m = .ok (false, r) m' ∧ step (st^[i] start) m' = .err e))
    (hp : st^[p] start = start) (hmin : ∀ i, 0 < i → i < p → st^[i] start ≠ start) (h0 : ∀ i, i < p → st^[i] start ≠ 0) :
    ∀ k i fuel, i + k = p → 0 < k → k ≤ fuel → (∀ j, j < i → Q (st^[j] start)) →
      (circLoop step body start fuel (st^[i] start) b0 m = .ok b0 m ∧ ∀ j, j < p → Q (st^[j] start)) ∨
      (∃ j m', j < p ∧ circLoop step body start fuel (st^[i] start) b0 m = .ok b1 m' ∧ P (st^[j] start) m') ∨
      ∃ j e, j < p ∧ circLoop step body start fuel (st^[i] start) b0 m = .err e ∧ E (st^[j] start) e := by
  intro k
  induction k with
  | zero => intro i fuel _ h; omega
  | succ k ih =>
    intro i fuel hik _ hf hq
    obtain ⟨fuel, rfl⟩ : ∃ f, fuel = f + 1 := ⟨fuel - 1, by omega⟩
    simp only [circLoop, bind_apply]
    rcases hb i (by omega) with ⟨e, q⟩ | ⟨m', e, q⟩ | ⟨e, q, e1 | ⟨r, m', e1, e2⟩⟩
    · have hq' : ∀ j, j < i + 1 → Q (st^[j] start) := fun j hj => by
        rcases Nat.lt_succ_iff_lt_or_eq.1 hj with h | rfl
        · exact hq j h
        · exact q
      simp only [e, Bool.false_eq_true, if_false, bind_apply, hstep i (by omega)]
      rcases Nat.eq_zero_or_pos k with hk | hk
      · subst hk
        have : st^[i + 1] start = start := by rw [show i + 1 = p by omega]; exact hp
        left
        exact ⟨by simp [this], fun j hj => hq' j (by omega)⟩
      · have h1 : st^[i + 1] start ≠ start := hmin (i + 1) (by omega) (by omega)
        have h2 : st^[i + 1] start ≠ 0 := h0 (i + 1) (by omega)
        simp only [h1, h2, or_self, if_false]
        exact ih (i + 1) fuel (by omega) hk (by omega) hq'
    · right; left
      exact ⟨i, m', by omega, by simp [e], q⟩
    · right; right
      exact ⟨i, e, by omega, by simp [e1], q⟩
    · right; right
      exact ⟨i, e, by omega, by simp [e1, e2], q⟩

/-- the loop over the half-edges that leave a vertex -/
theorem Mesh.WF.ring_find (w : m.WF) {v : Nat} (a : m.vAlive v = true) {body : Nat → β → M F (Bool × β)} (b0 b1 : β)
    {Q : Nat → Prop} {P : Nat → Mesh F → Prop} {E : Nat → Err → Prop}
    (hb : ∀ x, m.hAlive x = true → m.hSrc x = v → (body x b0 m = .ok (false, b0) m ∧ Q x) ∨
      (∃ m', body x b0 m = .ok (true, b1) m' ∧ P x m') ∨
      ∃ e, E x e ∧ (body x b0 m = .err e ∨ ∃ r m', body x b0 m = .ok (false, r) m' ∧ ringStep x m' = .err e)) :
    (circ ringStep (m.vHe v) b0 body m = .ok b0 m ∧ ∀ x, m.hAlive x = true → m.hSrc x = v → Q x) ∨
    (∃ x m', m.hAlive x = true ∧ m.hSrc x = v ∧ circ ringStep (m.vHe v) b0 body m = .ok b1 m' ∧ P x m') ∨
    ∃ x e, m.hAlive x = true ∧ m.hSrc x = v ∧ circ ringStep (m.vHe v) b0 body m = .err e ∧ E x e := by
  obtain ⟨ah, sh⟩ := w.vHe_ok v a
  have hsp := w.permSig.period_spec ah
  have hle := w.permSig.period_le ah
  have al : ∀ i, m.hAlive (m.sig^[i] (m.vHe v)) = true := fun i => w.permSig.iter ah i
  have sr : ∀ i, m.hSrc (m.sig^[i] (m.vHe v)) = v := fun i => by rw [w.sig_iter_src ah, sh]
  unfold circ
  simp only [w.ne0 ah, if_false]
  have := circLoop_find (step := ringStep) (body := body) (st := m.sig) (m.vHe v) (period m.sig (m.vHe v)) b0 b1 (Q := Q) (P := P) (E := E)
    (fun i _ => by rw [w.ringStep_ok (al i), ← Function.iterate_succ_apply' m.sig])
    (fun i _ => hb _ (al i) (sr i)) hsp.2.1 hsp.2.2 (fun i _ => w.ne0 (al i)) (period m.sig (m.vHe v)) 0 m.hFresh (by omega) hsp.1
    (by omega) (fun j hj => by omega)
  rw [Function.iterate_zero, id_eq] at this
  rcases this with ⟨e, q⟩ | ⟨j, m', _, e, q⟩ | ⟨j, e', _, e, q⟩
  · refine Or.inl ⟨e, fun x ax sx => ?_⟩
    have := (w.mem_ring a).2 ⟨ax, sx⟩
    rw [orbit, List.mem_map] at this
    obtain ⟨i, hi, rfl⟩ := this
    exact q i (List.mem_range.1 hi)
  · exact Or.inr (Or.inl ⟨_, m', al j, sr j, e, q⟩)
  · exact Or.inr (Or.inr ⟨_, e', al j, sr j, e, q⟩)

end

section
variable [Scalar F] {m m' : Mesh F}

/-- more rounds do not change the result -/
theorem repairLoop_mono {step : Nat → M F Bool} {t : Nat} : ∀ {k : Nat} {m m' : Mesh F} {b : Bool}, repairLoop step t k m = .ok b m' →
    ∀ k', k ≤ k' → repairLoop step t k' m = .ok b m'
  | 0, _, _, _, h, _, _ => by cases h
  | k + 1, m, m', b, h, 0, hk => by omega
  | k + 1, m, m', b, h, k' + 1, hk => by
    unfold repairLoop at h ⊢
    simp only [bind_apply, read_apply] at h ⊢
    split
    · next c => rw [if_pos c] at h; exact h
    · next c =>
      rw [if_neg c] at h
      simp only [bind_apply] at h ⊢
      cases e1 : vertexAt t m with
      | err e => rw [e1] at h; cases h
      | ok v m1 =>
        rw [e1] at h
        dsimp only at h ⊢
        cases e2 : step v m1 with
        | err e => rw [e2] at h; cases h
        | ok u m2 =>
          rw [e2] at h
          dsimp only at h ⊢
          cases u with
          | false => exact h
          | true =>
            simp only [if_true, bind_apply] at h ⊢
            cases e3 : repairLoop step t k m2 with
            | err e => rw [e3] at h; cases h
            | ok b' m3 =>
              rw [e3] at h
              rw [repairLoop_mono e3 k' (by omega)]
              exact h

theorem repairLoop_out {step : Nat → M F Bool} {t k : Nat} (h : m.vs.length ≤ t) : repairLoop step t (k + 1) m = .ok false m := by
  unfold repairLoop
  simp only [bind_apply, read_apply]
  rw [if_pos h]
  rfl

theorem repairLoop_in {step : Nat → M F Bool} {t k v : Nat} (h : m.vs[t]? = some v) : repairLoop step t (k + 1) m =
    match step v m with
    | .err e => .err e
    | .ok false m1 => .ok false m1
    | .ok true m1 => match repairLoop step t k m1 with
      | .err e => .err e
      | .ok _ m2 => .ok true m2 := by
  obtain ⟨c, rfl⟩ := List.getElem?_eq_some_iff.1 h
  have e1 : vertexAt (t : Int) m = .ok m.vs[t] m := by
    have : ¬ ((t : Int) < 0) := by omega
    simp [vertexAt, arrayAt, this, List.getElem?_eq_getElem c]
  conv_lhs => unfold repairLoop
  simp only [bind_apply, read_apply]
  rw [if_neg (by omega)]
  simp only [bind_apply, e1]
  cases e2 : step m.vs[t] m with
  | err e => rfl
  | ok u m1 =>
    cases u with
    | false => rfl
    | true =>
      simp only [if_true, bind_apply]
      cases repairLoop step t k m1 <;> rfl

end

/-! ### The steps -/
section
variable [ScalarX F] {m : Mesh F}

theorem Mesh.Shut.of (g : m.Good) (nf : ∀ h, m.hAlive h = true → m.hBd h = false) : m.Shut := by
  refine ⟨g, fun h a => ?_, nf⟩
  rcases g.tri.holds h a with t | t
  · exact t
  · have := (t h a rfl).1
    rw [nf h a] at this
    cases this

theorem splitLong_cases (g : m.Good) {v : Nat} (av : m.vAlive v = true) (lim : F) :
    (splitLong lim v m = .ok false m ∧ ∀ x, m.hAlive x = true → m.hSrc x = v →
      Scalar.lt lim (Vec3.length ((m.vPos (m.hSrc x)).sub (m.vPos (m.hSrc (m.hNext x))))) = true → splitHE x m = .ok false m) ∨
    (∃ x m' he, m.hAlive x = true ∧ m.hSrc x = v ∧
      Scalar.lt lim (Vec3.length ((m.vPos (m.hSrc x)).sub (m.vPos (m.hSrc (m.hNext x))))) = true ∧
      splitLong lim v m = .ok true m' ∧ SplitStep m m' x he) := by
  have w := g.wf
  unfold splitLong
  simp only [bind_apply, getVHe_ok av]
  have key := w.ring_find av (body := fun x _ => do
      let l ← heLength x
      if Scalar.lt lim l then do
        let b ← splitHE x
        pure (b, b)
      else pure (false, false)) false true
    (Q := fun x => Scalar.lt lim (Vec3.length ((m.vPos (m.hSrc x)).sub (m.vPos (m.hSrc (m.hNext x))))) = true → splitHE x m = .ok false m)
    (P := fun x m' => Scalar.lt lim (Vec3.length ((m.vPos (m.hSrc x)).sub (m.vPos (m.hSrc (m.hNext x))))) = true ∧ ∃ he, SplitStep m m' x he)
    (E := fun _ _ => False) (fun x ax sx => by
      simp only [bind_apply, heLength_ok w ax]
      split
      · next c =>
        rcases splitHE_cases g ax with e | ⟨m', he, S⟩
        · left; exact ⟨by simp [e], fun _ => e⟩
        · right; left; exact ⟨m', by simp [S.run], c, he, S⟩
      · next c => left; exact ⟨rfl, fun h => absurd h c⟩)
  rcases key with h | ⟨x, m', ax, sx, e, l, he, S⟩ | ⟨x, e, _, _, _, h⟩
  · exact Or.inl h
  · exact Or.inr ⟨x, m', he, ax, sx, l, e, S⟩
  · exact h.elim

theorem sideAngles_ok (w : m.WF) {x : Nat} (ax : m.hAlive x = true) : sideAngles x m = .ok
    (Vec3.angle (m.vPos (m.hSrc x)) (m.vPos (m.hSrc (m.hNext (m.hNext x)))) (m.vPos (m.hSrc (m.hNext x))),
      Vec3.angle (m.vPos (m.hSrc x)) (m.vPos (m.hSrc (m.hNext (m.hNext (m.hRev x))))) (m.vPos (m.hSrc (m.hNext x)))) m := by
  have n1 := w.next_alive _ ax
  have n2 := w.next_alive _ n1
  have r := w.rev_alive _ ax
  have r1 := w.next_alive _ r
  have r2 := w.next_alive _ r1
  unfold sideAngles
  simp [getSrc_ok ax, getPos_ok (w.src_alive _ ax), getDst_ok ax n1, getPos_ok (w.src_alive _ n1), getNext_ok ax, getDst_ok n1 n2,
    getPos_ok (w.src_alive _ n2), getRev_ok ax, getNext_ok r, getDst_ok r1 r2, getPos_ok (w.src_alive _ r2)]

end

theorem collapse_bd [Scalar F] {m m' : Mesh F} (g : m.Good) {h : Nat} (a : m.hAlive h = true) (run : collapseHE h m = .ok true m') : m'.hBd = m.hBd := by
  rcases collapseHE_cases g a with h1 | ⟨he, rev, hs, hdeg, G, a', b', c', d', o0, o1, o2, o3, v0, v1, v2, v3, D, W, ⟨hp, m2, e, R⟩ | ⟨hp, e⟩⟩
  · rw [run] at h1; cases h1
  · rw [run] at e; cases e; exact R.bd
  · rw [run] at e; cases e

section
variable {m : Mesh XR} {p : Nat → E3}

theorem seen_comm (x y z : E3) : seen x y z = seen z y x := by
  unfold seen
  rw [EuclideanGeometry.angle_comm]
  by_cases h : x = y ∨ z = y
  · rw [if_pos h, if_pos h.symm]
  · rw [if_neg h, if_neg fun h' => h h'.symm]

theorem angle_seen {a b c : Vec3 XR} {x y z : E3} (ha : a.Is x) (hb : b.Is y) (hc : c.Is z) : Vec3.angle a b c = XR.fin (seen x y z) := by
  unfold Vec3.angle seen
  dsimp only
  rw [(ha.sub hb).crossLen (hc.sub hb), (ha.sub hb).dot (hc.sub hb), X_atan2]
  by_cases h : x = y ∨ z = y
  · rw [if_pos h]
    rcases h with rfl | rfl
    · simp only [sub_self, inner_zero_left, norm_zero]
      norm_num
      exact Complex.arg_zero
    · simp only [sub_self, inner_zero_right, norm_zero]
      norm_num
      exact Complex.arg_zero
  · rw [if_neg h]
    rw [not_or] at h
    rw [angle_arg (sub_ne_zero.2 h.1) (sub_ne_zero.2 h.2)]
    rfl

theorem Mesh.AtE.refl_eq (A : m.AtE p) (v : Nat) (av : m.vAlive v = true) : (m.vPos v).eq (m.vPos v) = true := by
  rw [(A v av).coords]
  simp only [Vec3.eq, X_eq, Bool.and_eq_true, R_eq, and_self]

theorem sideAngles_exact (s : m.Shut) (A : m.AtE p) {x : Nat} (ax : m.hAlive x = true) :
    sideAngles x m = .ok (XR.fin (m.facing p x), XR.fin (m.facing p (m.hRev x))) m := by
  have w := s.good.wf
  have n1 := w.next_alive _ ax
  have n2 := w.next_alive _ n1
  have r := w.rev_alive _ ax
  have r1 := w.next_alive _ r
  have r2 := w.next_alive _ r1
  rw [sideAngles_ok w ax, angle_seen (A _ (w.src_alive _ ax)) (A _ (w.src_alive _ n2)) (A _ (w.src_alive _ n1)),
    angle_seen (A _ (w.src_alive _ ax)) (A _ (w.src_alive _ r2)) (A _ (w.src_alive _ n1))]
  unfold Mesh.facing
  rw [seen_comm (p (m.hSrc (m.hRev x))), w.src_rev _ ax]
  have : m.hSrc (m.hNext (m.hRev x)) = m.hSrc x := by rw [← w.src_rev _ r, w.rev_rev _ ax]
  rw [this]

theorem flipWide_cases (s : m.Shut) (A : m.AtE p) {v : Nat} (av : m.vAlive v = true) :
    (flipWide v m = .ok false m ∧ ∀ x, m.hAlive x = true → m.hSrc x = v → m.Wide p x → flipHE x m = .ok false m) ∨
    ∃ x m', m.hAlive x = true ∧ m.hSrc x = v ∧ m.Wide p x ∧ flipHE x m = .ok true m' ∧ flipWide v m = .ok true m' ∧
      FlipDone m m' (m.hSrc x) (m.hSrc (m.hRev x)) (m.hSrc (m.hNext (m.hNext x))) (m.hSrc (m.hNext (m.hNext (m.hRev x)))) := by
  have w := s.good.wf
  unfold flipWide
  simp only [bind_apply, getVHe_ok av]
  have key := w.ring_find av (body := fun x _ => do
      let (al, ar) ← sideAngles x
      if Scalar.lt Scalar.pi (al + ar) then do
        let b ← flipHE x
        pure (b, b)
      else pure (false, false)) false true
    (Q := fun x => m.Wide p x → flipHE x m = .ok false m)
    (P := fun x m' => m.Wide p x ∧ flipHE x m = .ok true m' ∧
      FlipDone m m' (m.hSrc x) (m.hSrc (m.hRev x)) (m.hSrc (m.hNext (m.hNext x))) (m.hSrc (m.hNext (m.hNext (m.hRev x)))))
    (E := fun _ _ => False) (fun x ax sx => by
      simp only [bind_apply, sideAngles_exact s A ax, X_pi, X_add, X_lt_iff, decide_eq_true_eq]
      split
      · next c =>
        rcases flipHE_cases s.good ax (s.tri x ax) (s.tri _ (w.rev_alive _ ax)) with e | ⟨m', e, -, D⟩
        · left; exact ⟨by simp [e], fun _ => e⟩
        · right; left; exact ⟨m', by simp [e], c, e, D⟩
      · next c => left; exact ⟨rfl, fun h => absurd h c⟩)
  rcases key with h | ⟨x, m', ax, sx, e, h1, h2, h3⟩ | ⟨x, e, _, _, _, h⟩
  · exact Or.inl h
  · exact Or.inr ⟨x, m', ax, sx, h1, h2, e, h3⟩
  · exact h.elim

theorem collapseThin_cases (s : m.Shut) (A : m.AtE p) {v : Nat} (av : m.vAlive v = true) :
    (collapseThin v m = .ok false m ∧ ∀ x, m.hAlive x = true → m.hSrc x = v → m.Thin p x → collapseHE x m = .ok false m) ∨
    ∃ x m', m.hAlive x = true ∧ m.hSrc x = v ∧ m.Thin p x ∧ collapseHE x m = .ok true m' ∧ collapseThin v m = .ok true m' := by
  have w := s.good.wf
  unfold collapseThin
  simp only [bind_apply, getVHe_ok av]
  have h10 : (10 : ℝ) ≠ 0 := by norm_num
  have key := w.ring_find av (body := fun x _ => do
      let (al, ar) ← sideAngles x
      let lim : XR := Scalar.pi / Scalar.lit 10 1
      if Scalar.lt al lim || Scalar.lt ar lim then do
        let b ← collapseHE x
        pure (b, b)
      else pure (false, false)) false true
    (Q := fun x => m.Thin p x → collapseHE x m = .ok false m)
    (P := fun x m' => m.Thin p x ∧ collapseHE x m = .ok true m')
    (E := fun _ _ => False) (fun x ax sx => by
      have e10 : (Scalar.pi / Scalar.lit 10 1 : XR) = XR.fin (Real.pi / 10) := by
        rw [X_pi, X_lit, X_div _ (by rw [R_lit]; norm_num), R_lit]
        norm_num
      simp only [bind_apply, sideAngles_exact s A ax, e10, X_lt_iff, Bool.or_eq_true, decide_eq_true_eq]
      split
      · next c =>
        obtain ⟨b, m', e, -, -⟩ := collapsedIf_ok s.good A.refl_eq ax
        cases b with
        | false =>
          rcases collapseHE_outcome s.good ax with h | ⟨_, _, _, h, _⟩ | ⟨h, _⟩
          · left; exact ⟨by simp [h], fun _ => h⟩
          · rw [e] at h; cases h
          · rw [e] at h; cases h
        | true => right; left; exact ⟨m', by simp [e], c, e⟩
      · next c => left; exact ⟨rfl, fun h => absurd h c⟩)
  rcases key with h | ⟨x, m', ax, sx, e, h1, h2⟩ | ⟨x, e, _, _, _, h⟩
  · exact Or.inl h
  · exact Or.inr ⟨x, m', ax, sx, h1, h2, e⟩
  · exact h.elim

end

/-- a half-edge of a face that has lost an edge is gone -/
theorem collapsedIf_gone [Scalar F] {m m' : Mesh F} (w : m.WF) {h x : Nat} (d : CollapsedIf true m m' h) (a : m.hAlive h = true) (ax : m.hAlive x = true)
    (fx : m.hFace x = m.hFace h ∨ m.hFace x = m.hFace (m.hRev h)) : m'.hAlive x = false := by
  rcases d with ⟨e, -⟩ | ⟨-, p, q, sp, D⟩
  · cases e
  cases hx : m'.hAlive x with
  | false => rfl
  | true =>
    exfalso
    have f := ((D.kept x).1 hx).2
    rw [D.faces] at f
    rcases fx with e | e
    · refine f.2 h a e.symm ?_
      rcases sp with ⟨h1, h2⟩ | ⟨h1, h2⟩
      · exact Or.inl ⟨h1.symm, h2.symm⟩
      · exact Or.inr ⟨h2.symm, h1.symm⟩
    · have ar := w.rev_alive _ a
      refine f.2 _ ar e.symm ?_
      have e1 : m.hSrc (m.hNext (m.hRev h)) = m.hSrc h := by rw [← w.src_rev _ ar, w.rev_rev _ a]
      rw [e1, w.src_rev _ a]
      rcases sp with ⟨h1, h2⟩ | ⟨h1, h2⟩
      · exact Or.inr ⟨h2.symm, h1.symm⟩
      · exact Or.inl ⟨h1.symm, h2.symm⟩

section
variable {m : Mesh XR} {p : Nat → E3}

theorem collapseSmall_cases (s : m.Shut) (A : m.AtE p) {v : Nat} (av : m.vAlive v = true) (lim : ℝ) :
    (collapseSmall (XR.fin lim) v m = .ok false m ∧
      ∀ x, m.hAlive x = true → m.hSrc x = v → m.areaOf p (m.fHe (m.hFace x)) < lim → collapseFace (m.hFace x) m = .ok false m) ∨
    (∃ x m', m.hAlive x = true ∧ m.hSrc x = v ∧ m.areaOf p (m.fHe (m.hFace x)) < lim ∧ collapseFace (m.hFace x) m = .ok true m' ∧
      collapseSmall (XR.fin lim) v m = .ok true m') ∨
    (∃ x m', m.hAlive x = true ∧ m.hSrc x = v ∧ m.areaOf p (m.fHe (m.hFace x)) < lim ∧ collapseFace (m.hFace x) m = .ok false m' ∧ m' ≠ m ∧
      collapseSmall (XR.fin lim) v m = .err .ub) := by
  have w := s.good.wf
  unfold collapseSmall
  simp only [bind_apply, getVHe_ok av]
  have key := w.ring_find av (body := fun x _ => do
      let f ← getFace x
      let i ← getFIdx f
      if i < 0 then pure (false, false)
      else do
        let a ← faceArea f
        if Scalar.lt a (XR.fin lim) then do
          let b ← collapseFace f
          pure (b, b)
        else pure (false, false)) false true
    (Q := fun x => m.areaOf p (m.fHe (m.hFace x)) < lim → collapseFace (m.hFace x) m = .ok false m)
    (P := fun x m' => m.areaOf p (m.fHe (m.hFace x)) < lim ∧ collapseFace (m.hFace x) m = .ok true m')
    (E := fun x e => m.areaOf p (m.fHe (m.hFace x)) < lim ∧ ∃ m', collapseFace (m.hFace x) m = .ok false m' ∧ m' ≠ m ∧ e = .ub) (fun x ax sx => by
      have af := w.face_alive _ ax
      have ah := (w.fHe_ok _ af).1
      obtain ⟨i1, i2⟩ := w.fDense.idx_lt af
      simp only [bind_apply, getFace_ok ax, getFIdx_ok af]
      rw [if_neg (by omega)]
      simp only [bind_apply, faceArea_exact s.good A af (s.tri _ ah), X_lt_iff, decide_eq_true_eq]
      split
      · next c =>
        rcases c66_collapse_face s.good A.refl_eq af with ⟨h, -⟩ | ⟨h, b1, b2, m1, m2, c1, g1, a1, c2, g2, e⟩
        · exact absurd (sides_three w af fun y ay _ => ⟨s.tri y ay, fun h => s.good.simple.no_loop y ay (by rw [h])⟩) h
        · cases b1 with
          | false =>
            obtain rfl : m1 = m := by
              rcases c1 with ⟨-, e⟩ | ⟨e, -⟩
              · exact e
              · cases e
            cases b2 with
            | false =>
              obtain rfl : m2 = m1 := by
                rcases c2 with ⟨-, e⟩ | ⟨e, -⟩
                · exact e
                · cases e
              left
              exact ⟨by simp [e], fun _ => e⟩
            | true =>
              right; right
              have an := w.next_alive _ ah
              have gone := collapsedIf_gone w c2 a1 ax (Or.inr (by rw [w.rev_rev _ an, w.face_next _ ah, (w.fHe_ok _ af).2]))
              refine ⟨.ub, ⟨c, m2, e, fun h => ?_, rfl⟩, Or.inr ⟨false, m2, by simp [e], by simp [ringStep, getRev, gone]⟩⟩
              rw [h, ax] at gone
              cases gone
          | true =>
            have gone := collapsedIf_gone w c1 ah ax (Or.inl (w.fHe_ok _ af).2.symm)
            cases b2 with
            | false =>
              obtain rfl : m2 = m1 := by
                rcases c2 with ⟨-, e⟩ | ⟨e, -⟩
                · exact e
                · cases e
              right; right
              refine ⟨.ub, ⟨c, m2, e, fun h => ?_, rfl⟩, Or.inr ⟨false, m2, by simp [e], by simp [ringStep, getRev, gone]⟩⟩
              rw [h, ax] at gone
              cases gone
            | true => right; left; exact ⟨m2, by simp [e], c, e⟩
      · next c => left; exact ⟨rfl, fun h => absurd h c⟩)
  rcases key with h | ⟨x, m', ax, sx, e, h1, h2⟩ | ⟨x, e, ax, sx, er, h1, m', h2, h3, rfl⟩
  · exact Or.inl h
  · exact Or.inr (Or.inl ⟨x, m', ax, sx, h1, h2, e⟩)
  · exact Or.inr (Or.inr ⟨x, m', ax, sx, h1, h2, h3, er⟩)

end

end TinyMesh
