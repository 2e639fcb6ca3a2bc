import Verif.Proof.CtxF
import Mathlib.Analysis.Convex.Combination
/-
The repair loops of context coherent completion: they end; splits of long edges.
-/
namespace TinyMesh
open Orbit
variable {F : Type}

section
variable [Scalar F]

/-- a loop whose steps make a number smaller ends -/
theorem repairLoop_ends {step : Nat → M F Bool} {t : Nat} {I : Mesh F → Prop} (μ : Mesh F → Nat) {R : Mesh F → Mesh F → Prop}
    {Q : Nat → Mesh F → Prop} {E : Nat → Mesh F → Err → Prop} {T : Mesh F → Mesh F → Prop} (refl : ∀ m, R m m)
    (trans : ∀ {a b c}, R a b → R b c → R a c) (cp : ∀ {a b c}, T a b → R b c → T a c)
    (hs : ∀ m v, I m → m.vs[t]? = some v → (step v m = .ok false m ∧ Q v m) ∨
      (∃ m', step v m = .ok true m' ∧ I m' ∧ R m m' ∧ T m m' ∧ μ m' < μ m) ∨ ∃ e, step v m = .err e ∧ E v m e) :
    ∀ n m, μ m ≤ n → I m →
      (∃ b m', (∀ k, n + 1 ≤ k → repairLoop step t k m = .ok b m') ∧ I m' ∧ R m m' ∧ (∀ v, m'.vs[t]? = some v → Q v m') ∧
        (b = false → m' = m) ∧ (b = true → T m m')) ∨
      ∃ e m1 v, (∀ k, n + 1 ≤ k → repairLoop step t k m = .err e) ∧ I m1 ∧ R m m1 ∧ m1.vs[t]? = some v ∧ E v m1 e := by
  intro n
  induction n with
  | zero =>
    intro m hn i
    cases h : m.vs[t]? with
    | none =>
      left
      refine ⟨false, m, fun k hk => ?_, i, refl m, fun v hv => (by rw [h] at hv; cases hv), fun _ => rfl, fun h => (by cases h)⟩
      obtain ⟨k, rfl⟩ : ∃ k', k = k' + 1 := ⟨k - 1, by omega⟩
      exact repairLoop_out (List.getElem?_eq_none_iff.1 h)
    | some v =>
      rcases hs m v i h with ⟨e, q⟩ | ⟨m', _, _, _, _, l⟩ | ⟨e, h1, h2⟩
      · left
        refine ⟨false, m, fun k hk => ?_, i, refl m, fun v' hv => ?_, fun _ => rfl, fun h => (by cases h)⟩
        · obtain ⟨k, rfl⟩ : ∃ k', k = k' + 1 := ⟨k - 1, by omega⟩
          rw [repairLoop_in h, e]
        · rw [h] at hv; cases hv; exact q
      · omega
      · right
        refine ⟨e, m, v, fun k hk => ?_, i, refl m, h, h2⟩
        obtain ⟨k, rfl⟩ : ∃ k', k = k' + 1 := ⟨k - 1, by omega⟩
        rw [repairLoop_in h, h1]
  | succ n ih =>
    intro m hn i
    cases h : m.vs[t]? with
    | none =>
      left
      refine ⟨false, m, fun k hk => ?_, i, refl m, fun v hv => (by rw [h] at hv; cases hv), fun _ => rfl, fun h => (by cases h)⟩
      obtain ⟨k, rfl⟩ : ∃ k', k = k' + 1 := ⟨k - 1, by omega⟩
      exact repairLoop_out (List.getElem?_eq_none_iff.1 h)
    | some v =>
      rcases hs m v i h with ⟨e, q⟩ | ⟨m', e, i', r, tt, l⟩ | ⟨e, h1, h2⟩
      · left
        refine ⟨false, m, fun k hk => ?_, i, refl m, fun v' hv => ?_, fun _ => rfl, fun h => (by cases h)⟩
        · obtain ⟨k, rfl⟩ : ∃ k', k = k' + 1 := ⟨k - 1, by omega⟩
          rw [repairLoop_in h, e]
        · rw [h] at hv; cases hv; exact q
      · rcases ih m' (by omega) i' with ⟨b, m2, h1, h2, h3, h4, -⟩ | ⟨e', m1, v', h1, h2, h3, h4⟩
        · left
          refine ⟨true, m2, fun k hk => ?_, h2, trans r h3, h4, fun h => (by cases h), fun _ => cp tt h3⟩
          obtain ⟨k, rfl⟩ : ∃ k', k = k' + 1 := ⟨k - 1, by omega⟩
          rw [repairLoop_in h, e]
          dsimp only
          rw [h1 k (by omega)]
        · right
          refine ⟨e', m1, v', fun k hk => ?_, h2, trans r h3, h4⟩
          obtain ⟨k, rfl⟩ : ∃ k', k = k' + 1 := ⟨k - 1, by omega⟩
          rw [repairLoop_in h, e]
          dsimp only
          rw [h1 k (by omega)]
      · right
        refine ⟨e, m, v, fun k hk => ?_, i, refl m, h, h2⟩
        obtain ⟨k, rfl⟩ : ∃ k', k = k' + 1 := ⟨k - 1, by omega⟩
        rw [repairLoop_in h, h1]

/-- all targets -/
theorem repairAll_ends {step : Nat → M F Bool} {I : Mesh F → Prop} {R : Mesh F → Mesh F → Prop}
    {Q : Nat → Mesh F → Prop} {E : Mesh F → Err → Prop} {T : Mesh F → Mesh F → Prop} (refl : ∀ m, R m m)
    (trans : ∀ {a b c}, R a b → R b c → R a c) (cp : ∀ {a b c}, T a b → R b c → T a c) (cp' : ∀ {a b c}, R a b → T b c → T a c)
    (hs : ∀ t m, I m → ∃ N, (∃ b m', (∀ k, N ≤ k → repairLoop step t k m = .ok b m') ∧ I m' ∧ R m m' ∧ Q t m' ∧
        (b = false → m' = m) ∧ (b = true → T m m')) ∨
      ∃ e m1, (∀ k, N ≤ k → repairLoop step t k m = .err e) ∧ I m1 ∧ R m m1 ∧ E m1 e) :
    ∀ ts m, I m → (∃ N b m', (∀ k, N ≤ k → repairAll step k ts m = .ok b m') ∧ I m' ∧ R m m' ∧ (b = false → m' = m) ∧ (b = true → T m m') ∧
      ∀ t ∈ ts, ∃ m1, I m1 ∧ R m m1 ∧ R m1 m' ∧ Q t m1) ∨
      ∃ N e m1, (∀ k, N ≤ k → repairAll step k ts m = .err e) ∧ I m1 ∧ R m m1 ∧ E m1 e := by
  intro ts
  induction ts with
  | nil => intro m i; exact Or.inl ⟨0, false, m, fun _ _ => rfl, i, refl m, fun _ => rfl, fun h => (by cases h), fun t ht => (by cases ht)⟩
  | cons t ts ih =>
    intro m i
    obtain ⟨N, ⟨b, m1, h1, i1, r1, q1, c1, t1⟩ | ⟨e, m1, h1, i1, r1, x1⟩⟩ := hs t m i
    · rcases ih m1 i1 with ⟨N2, b2, m2, h2, i2, r2, c2, t2, q2⟩ | ⟨N2, e2, m2, h2, i2, r2, x2⟩
      · left
        refine ⟨max N N2, b || b2, m2, fun k hk => ?_, i2, trans r1 r2, fun h => ?_, fun h => ?_, fun t' ht => ?_⟩
        · rw [repairAll, bind_apply, h1 k (le_of_max_le_left hk)]
          dsimp only
          rw [bind_apply, h2 k (le_of_max_le_right hk)]
          rfl
        · rw [Bool.or_eq_false_iff] at h
          rw [c2 h.2, c1 h.1]
        · rw [Bool.or_eq_true] at h
          rcases h with h | h
          · exact cp (t1 h) r2
          · exact cp' r1 (t2 h)
        · rcases List.mem_cons.1 ht with rfl | ht
          · exact ⟨m1, i1, r1, r2, q1⟩
          · obtain ⟨m3, a, b, c, d⟩ := q2 t' ht
            exact ⟨m3, a, trans r1 b, c, d⟩
      · right
        refine ⟨max N N2, e2, m2, fun k hk => ?_, i2, trans r1 r2, x2⟩
        rw [repairAll, bind_apply, h1 k (le_of_max_le_left hk)]
        dsimp only
        rw [bind_apply, h2 k (le_of_max_le_right hk)]
    · right
      refine ⟨N, e, m1, fun k hk => ?_, i1, r1, x1⟩
      rw [repairAll, bind_apply, h1 k hk]

end

/-! ### Neighbours as a set -/

section
variable {m m' : Mesh F}

/-- the vertices joined to `v` -/
def Mesh.nbSet (m : Mesh F) (v : Nat) : Finset Nat := ((m.outs v).map fun h => m.hSrc (m.hNext h)).toFinset

theorem Mesh.WF.mem_outs (w : m.WF) {v h : Nat} : h ∈ m.outs v ↔ m.hAlive h = true ∧ m.hSrc h = v := by
  rw [Mesh.outs, List.mem_filter, w.hDense.mem, beq_iff_eq]

theorem Mesh.WF.mem_nbSet (w : m.WF) {v u : Nat} : u ∈ m.nbSet v ↔ m.Joined v u := by
  unfold Mesh.nbSet Mesh.Joined
  rw [List.mem_toFinset, List.mem_map]
  constructor
  · rintro ⟨h, hh, rfl⟩
    obtain ⟨a, s⟩ := w.mem_outs.1 hh
    exact ⟨h, a, s, rfl⟩
  · rintro ⟨h, a, s, rfl⟩
    exact ⟨h, w.mem_outs.2 ⟨a, s⟩, rfl⟩

theorem Mesh.Good.card_nbSet (g : m.Good) (v : Nat) : (m.nbSet v).card = m.outDeg v := by
  unfold Mesh.nbSet
  rw [List.toFinset_card_of_nodup, List.length_map, Mesh.outs, ← List.countP_eq_length_filter]
  · rfl
  · refine (g.wf.hDense.nodup.filter _).map_on ?_
    intro x hx y hy e
    obtain ⟨ax, sx⟩ := g.wf.mem_outs.1 hx
    obtain ⟨ay, sy⟩ := g.wf.mem_outs.1 hy
    exact g.simple.no_dup x y ax ay (sx.trans sy.symm) e

end

/-- the real part of a number, 0 for the others -/
noncomputable def XR.re : XR → ℝ
  | .fin r => r
  | _ => 0

/-- positions as points of space -/
noncomputable def Mesh.placed (m : Mesh XR) (v : Nat) : E3 := !₂[(m.vPos v).x.re, (m.vPos v).y.re, (m.vPos v).z.re]

section
variable {m m' : Mesh XR} {p : Nat → E3}

theorem Mesh.AtE.placed_eq (A : m.AtE p) {v : Nat} (a : m.vAlive v = true) : m.placed v = p v := by
  unfold Mesh.placed
  rw [(A v a).coords]
  ext i
  fin_cases i <;> rfl

theorem Mesh.AtE.placed (A : m.AtE p) : m.AtE m.placed := fun v a => by rw [A.placed_eq a]; exact A v a

theorem midPoint_is {a b : Vec3 XR} {x y : E3} (ha : a.Is x) (hb : b.Is y) : (midPoint a b).Is (midpoint ℝ x y) := by
  have : (Scalar.lit 1 2 : XR) = XR.fin (1 / 2) := by rw [X_lit, R_lit]; norm_num
  unfold midPoint
  rw [this, midpoint_eq_smul_add, invOf_eq_inv, ← one_div]
  exact (ha.add hb).smul _

/-- what a split does to a mesh of triangles without flags -/
structure Mesh.Grows (lim : ℝ) (m m' : Mesh XR) : Prop where
  vs : ∃ l, m'.vs = m.vs ++ l ∧ (m' = m ∨ l ≠ [])
  keeps : KeepsVerts m m'
  fresh : ∀ v, m'.vAlive v = true → m.vAlive v = true ∨ m'.vLock v = false
  hull : ∀ v, m'.vAlive v = true → m'.placed v ∈ convexHull ℝ {x | ∃ u, m.vAlive u = true ∧ m.placed u = x}
  short : ∀ v, m.vAlive v = true → m.ShortAt m.placed lim v → m'.ShortAt m'.placed lim v

theorem KeepsVerts.placed (k : KeepsVerts m m') {v : Nat} (a : m.vAlive v = true) : m'.placed v = m.placed v := by
  unfold Mesh.placed
  rw [(k v a).2.1]

theorem Mesh.Grows.refl (lim : ℝ) (m : Mesh XR) : m.Grows lim m :=
  ⟨⟨[], by simp, Or.inl rfl⟩, fun v a => ⟨a, rfl, rfl⟩, fun v a => Or.inl a, fun v a => subset_convexHull ℝ _ ⟨v, a, rfl⟩, fun v _ h => h⟩

theorem Mesh.Grows.trans {lim : ℝ} {m1 m2 m3 : Mesh XR} (h : m1.Grows lim m2) (h' : m2.Grows lim m3) : m1.Grows lim m3 := by
  obtain ⟨l, e, c⟩ := h.vs
  obtain ⟨l', e', c'⟩ := h'.vs
  refine ⟨⟨l ++ l', by rw [e', e, List.append_assoc], ?_⟩, fun v a => ?_, fun v a => ?_, fun v a => ?_, fun v a s => ?_⟩
  · rcases c with rfl | c
    · rcases c' with rfl | c'
      · exact Or.inl rfl
      · exact Or.inr (by simp [c'])
    · exact Or.inr (by simp [c])
  · obtain ⟨b1, b2, b3⟩ := h.keeps v a
    obtain ⟨c1, c2, c3⟩ := h'.keeps v b1
    exact ⟨c1, c2.trans b2, c3.trans b3⟩
  · rcases h'.fresh v a with b | b
    · rcases h.fresh v b with c | c
      · exact Or.inl c
      · right; rw [(h'.keeps v b).2.2]; exact c
    · exact Or.inr b
  · refine convexHull_min ?_ (convex_convexHull ℝ _) (h'.hull v a)
    rintro x ⟨u, au, rfl⟩
    exact h.hull u au
  · exact h'.short v (h.keeps v a).1 (h.short v a s)

/-- what the split loop keeps -/
structure Mesh.Sound (m : Mesh XR) : Prop where
  shut : m.Shut
  deg : m.Deg3
  at_ : m.AtE m.placed

/-- pieces of length `lim` needed at `v` -/
noncomputable def Mesh.pieces (lim : ℝ) (v : Nat) (m : Mesh XR) : Nat := ∑ u ∈ m.nbSet v, ⌈‖m.placed v - m.placed u‖ / lim⌉₊

theorem ceil_half {x : ℝ} (h : 1 < x) : ⌈x / 2⌉₊ < ⌈x⌉₊ := by
  have h1 : x ≤ ⌈x⌉₊ := Nat.le_ceil x
  have h2 : 1 < ⌈x⌉₊ := by
    have : (1 : ℝ) < ⌈x⌉₊ := lt_of_lt_of_le h h1
    exact_mod_cast this
  have h3 : ⌈x / 2⌉₊ ≤ ⌈x⌉₊ - 1 := by
    rw [Nat.ceil_le]
    have : (2 : ℝ) ≤ ⌈x⌉₊ := by exact_mod_cast h2
    rw [Nat.cast_sub h2.le]
    push_cast
    linarith
  omega

open Classical in
theorem split_step (s : m.Sound) {lim : ℝ} (hl : 0 < lim) {x he : Nat} (ax : m.hAlive x = true) (S : SplitStep m m' x he)
    (long : lim < m.lenOf m.placed x) :
    m'.Sound ∧ m.Grows lim m' ∧ m'.pieces lim (m.hSrc x) < m.pieces lim (m.hSrc x) := by
  have g := s.shut.good
  have w := g.wf
  have D := S.done g
  have w' := D.good.wf
  have nn : m.vAlive m.vFresh = false := D.fresh
  have ah := S.a
  have arh := w.rev_alive _ ah
  have src : m.hSrc (m.hNext he) = m.hSrc (m.hRev he) := (w.src_rev _ ah).symm
  have src' : m.hSrc (m.hNext (m.hRev he)) = m.hSrc he := by rw [← w.src_rev _ arh, w.rev_rev _ ah]
  have jpq : m.Joined (m.hSrc he) (m.hSrc (m.hRev he)) := ⟨he, ah, rfl, src⟩
  obtain ⟨pA, qA⟩ := w.joined_alive jpq
  have a2 := w.next_alive _ (w.next_alive _ ah)
  have b2 := w.next_alive _ (w.next_alive _ arh)
  have t1 := s.shut.tri _ ah
  have t2 := s.shut.tri _ arh
  have rA := w.src_alive _ a2
  have sA := w.src_alive _ b2
  have jrp : m.Joined (m.hSrc (m.hNext (m.hNext he))) (m.hSrc he) := ⟨_, a2, rfl, by rw [t1]⟩
  have jqr : m.Joined (m.hSrc (m.hRev he)) (m.hSrc (m.hNext (m.hNext he))) := ⟨_, w.next_alive _ ah, src, rfl⟩
  have jsq : m.Joined (m.hSrc (m.hNext (m.hNext (m.hRev he)))) (m.hSrc (m.hRev he)) := ⟨_, b2, rfl, by rw [t2]⟩
  have jps : m.Joined (m.hSrc he) (m.hSrc (m.hNext (m.hNext (m.hRev he)))) := ⟨_, w.next_alive _ arh, src', rfl⟩
  have flags : ∀ h, m'.hAlive h = true → m'.hBd h = false := by
    intro h a
    rcases (S.R.hal h).1 a with b | b | b | b | b | b | b
    · rw [S.R.B h b]; exact s.shut.noFlag h b
    · exact b ▸ S.R.BN 0 (by omega)
    · exact b ▸ S.R.BN 1 (by omega)
    · exact b ▸ S.R.BN 2 (by omega)
    · exact b ▸ S.R.BN 3 (by omega)
    · exact b ▸ S.R.BN 4 (by omega)
    · exact b ▸ S.R.BN 5 (by omega)
  have pn : (m'.vPos m.vFresh).Is (midpoint ℝ (m.placed (m.hSrc he)) (m.placed (m.hSrc (m.hRev he)))) := by
    rw [D.pos]; exact midPoint_is (s.at_ _ pA) (s.at_ _ qA)
  have at' : m'.AtE m'.placed := by
    have : m'.AtE (fun v => if v = m.vFresh then midpoint ℝ (m.placed (m.hSrc he)) (m.placed (m.hSrc (m.hRev he))) else m.placed v) := by
      intro v av
      dsimp only
      rcases D.only v av with b | b
      · rw [if_neg (by rintro rfl; rw [nn] at b; cases b), (D.keeps v b).2.1]
        exact s.at_ v b
      · rw [if_pos b, b]; exact pn
    exact this.placed
  have pnE : m'.placed m.vFresh = midpoint ℝ (m.placed (m.hSrc he)) (m.placed (m.hSrc (m.hRev he))) := (at' _ D.alive).unique pn
  have nbF : ∀ v u, m.Joined v u → u ≠ m.vFresh ∧ v ≠ m.vFresh := fun v u h => by
    obtain ⟨h1, h2⟩ := w.joined_alive h
    exact ⟨fun e => (by rw [e, nn] at h2; cases h2), fun e => (by rw [e, nn] at h1; cases h1)⟩
  have deg' : m'.Deg3 := by
    intro v av
    rcases D.only v av with b | b
    · refine (s.deg v b).trans ?_
      rw [← g.card_nbSet, ← D.good.card_nbSet]
      refine Finset.card_le_card_of_injOn (fun u => if SamePair v u (m.hSrc he) (m.hSrc (m.hRev he)) then m.vFresh else u) ?_ ?_
      · intro u hu
        rw [Finset.mem_coe, w.mem_nbSet] at hu
        rw [Finset.mem_coe, w'.mem_nbSet, D.edges]
        dsimp only
        split
        · next c =>
          refine Or.inr (Or.inr ⟨rfl, ?_⟩)
          rcases c with c | c
          · exact Or.inl c.1
          · exact Or.inr (Or.inl c.1)
        · next c => exact Or.inl ⟨hu, c⟩
      · intro u hu u' hu' e
        rw [Finset.mem_coe, w.mem_nbSet] at hu hu'
        have ne := g.simple.no_loop he ah
        rw [src] at ne
        dsimp only at e
        split at e
        · next c =>
          split at e
          · next c' =>
            rcases c with ⟨c1, c2⟩ | ⟨c1, c2⟩ <;> rcases c' with ⟨c3, c4⟩ | ⟨c3, c4⟩
            · rw [c2, c4]
            · exact absurd (c1.symm.trans c3) ne
            · exact absurd (c3.symm.trans c1) ne
            · rw [c2, c4]
          · exact absurd e.symm (nbF _ _ hu').1
        · split at e
          · exact absurd e (nbF _ _ hu).1
          · exact e
    · rw [b, D.degree]; omega
  have long' : lim < ‖m.placed (m.hSrc he) - m.placed (m.hSrc (m.hRev he))‖ := by
    unfold Mesh.lenOf at long
    rcases S.side with e | e
    · subst e; rw [src] at long; exact long
    · have e1 : m.hSrc he = m.hSrc (m.hNext x) := by rw [e, w.src_rev _ ax]
      have e2 : m.hSrc (m.hRev he) = m.hSrc x := by rw [e, w.rev_rev _ ax]
      rw [e1, e2, norm_sub_rev]; exact long
  have old : ∀ {v}, m.vAlive v = true → m'.placed v = m.placed v := fun {v} av => D.keeps.placed av
  refine ⟨⟨.of D.good flags, deg', at'⟩, ⟨⟨[m.vFresh], S.R.vs, Or.inr (by simp)⟩, D.keeps, fun v av => ?_, fun v av => ?_, fun v av sh => ?_⟩, ?_⟩
  · rcases D.only v av with b | b
    · exact Or.inl b
    · exact Or.inr (b ▸ D.unlocked)
  · rcases D.only v av with b | b
    · rw [old b]; exact subset_convexHull ℝ _ ⟨v, b, rfl⟩
    · rw [b, pnE]
      refine (convex_convexHull ℝ _).midpoint_mem (subset_convexHull ℝ _ ⟨_, pA, rfl⟩) (subset_convexHull ℝ _ ⟨_, qA, rfl⟩)
  · have np : v ≠ m.hSrc he := by
      rintro rfl
      exact absurd (sh _ jpq) (not_le.2 long')
    have nq : v ≠ m.hSrc (m.hRev he) := by
      rintro rfl
      have := sh _ (w.joined_symm jpq)
      rw [norm_sub_rev] at this
      exact absurd this (not_le.2 long')
    intro u ju
    rcases (D.edges v u).1 ju with ⟨j, -⟩ | ⟨e, -⟩ | ⟨e, e'⟩
    · rw [old av, old (w.joined_alive j).2]; exact sh u j
    · rw [e, nn] at av; cases av
    · rw [e, pnE, old av]
      have key : m.Joined v (m.hSrc he) → m.Joined v (m.hSrc (m.hRev he)) →
          ‖m.placed v - midpoint ℝ (m.placed (m.hSrc he)) (m.placed (m.hSrc (m.hRev he)))‖ ≤ lim := by
        intro j1 j2
        have h1 := sh _ j1
        have h2 := sh _ j2
        have : m.placed v - midpoint ℝ (m.placed (m.hSrc he)) (m.placed (m.hSrc (m.hRev he))) =
            (1 / 2 : ℝ) • (m.placed v - m.placed (m.hSrc he)) + (1 / 2 : ℝ) • (m.placed v - m.placed (m.hSrc (m.hRev he))) := by
          rw [midpoint_eq_smul_add, invOf_eq_inv]; module
        rw [this]
        refine (norm_add_le _ _).trans ?_
        rw [norm_smul, norm_smul]
        norm_num
        linarith
      rcases e' with e' | e' | e' | e'
      · exact absurd e' np
      · exact absurd e' nq
      · subst e'; exact key jrp (w.joined_symm jqr)
      · subst e'; exact key (w.joined_symm jps) jsq
  · -- the pieces
    have main : ∀ a b, m.Joined a b → SamePair a b (m.hSrc he) (m.hSrc (m.hRev he)) → m'.pieces lim a < m.pieces lim a := by
      intro a b jab sp
      obtain ⟨aA, bA⟩ := w.joined_alive jab
      have ne : m.hSrc he ≠ m.hSrc (m.hRev he) := by
        have := g.simple.no_loop he ah
        rwa [src] at this
      have set : m'.nbSet a = insert m.vFresh ((m.nbSet a).erase b) := by
        ext u
        rw [Finset.mem_insert, Finset.mem_erase, w'.mem_nbSet, w.mem_nbSet, D.edges]
        constructor
        · rintro (⟨j, n⟩ | ⟨e, -⟩ | ⟨e, -⟩)
          · right
            refine ⟨?_, j⟩
            rintro rfl
            exact n sp
          · rw [e, nn] at aA; cases aA
          · exact Or.inl e
        · rintro (e | ⟨n, j⟩)
          · refine Or.inr (Or.inr ⟨e, ?_⟩)
            rcases sp with ⟨e, -⟩ | ⟨e, -⟩
            · exact Or.inl e
            · exact Or.inr (Or.inl e)
          · refine Or.inl ⟨j, fun sp' => n ?_⟩
            rcases sp with ⟨e1, e2⟩ | ⟨e1, e2⟩ <;> rcases sp' with ⟨e3, e4⟩ | ⟨e3, e4⟩
            · rw [e2, e4]
            · exact absurd (e1.symm.trans e3) ne
            · exact absurd (e3.symm.trans e1) ne
            · rw [e2, e4]
      have mid : ‖m'.placed a - m'.placed m.vFresh‖ = ‖m.placed a - m.placed b‖ / 2 := by
        rw [pnE, old aA]
        rcases sp with ⟨e1, e2⟩ | ⟨e1, e2⟩
        · rw [e1, e2, ← dist_eq_norm, dist_left_midpoint, ← dist_eq_norm, Real.norm_eq_abs]
          norm_num; ring
        · rw [e1, e2, ← dist_eq_norm, dist_right_midpoint, ← dist_eq_norm, Real.norm_eq_abs, dist_comm]
          norm_num; ring
      have lo : 1 < ‖m.placed a - m.placed b‖ / lim := by
        rw [one_lt_div hl]
        rcases sp with ⟨e1, e2⟩ | ⟨e1, e2⟩
        · rw [e1, e2]; exact long'
        · rw [e1, e2, norm_sub_rev]; exact long'
      unfold Mesh.pieces
      rw [set, Finset.sum_insert, ← Finset.sum_erase_add _ _ (w.mem_nbSet.2 jab)]
      · have e : ∑ u ∈ (m.nbSet a).erase b, ⌈‖m'.placed a - m'.placed u‖ / lim⌉₊ = ∑ u ∈ (m.nbSet a).erase b, ⌈‖m.placed a - m.placed u‖ / lim⌉₊ := by
          refine Finset.sum_congr rfl fun u hu => ?_
          have j := w.mem_nbSet.1 (Finset.mem_erase.1 hu).2
          rw [old aA, old (w.joined_alive j).2]
        rw [e, mid, div_right_comm]
        have := ceil_half lo
        omega
      · intro h
        have j := w.mem_nbSet.1 (Finset.mem_erase.1 h).2
        exact (nbF _ _ j).1 rfl
    rcases S.side with e | e
    · subst e; exact main _ _ jpq (Or.inl ⟨rfl, rfl⟩)
    · have e2 : m.hSrc (m.hRev he) = m.hSrc x := by rw [e, w.rev_rev _ ax]
      rw [← e2]
      exact main _ _ (w.joined_symm jpq) (Or.inr ⟨rfl, rfl⟩)

/-- one step of the split loop -/
theorem splitLong_step (s : m.Sound) {lim : ℝ} (hl : 0 < lim) {v : Nat} (av : m.vAlive v = true) :
    (splitLong (XR.fin lim) v m = .ok false m ∧ m.ShortAt m.placed lim v) ∨
    ∃ m', splitLong (XR.fin lim) v m = .ok true m' ∧ m'.Sound ∧ m.Grows lim m' ∧ m'.pieces lim v < m.pieces lim v := by
  have g := s.shut.good
  have w := g.wf
  rcases splitLong_cases g av (XR.fin lim) with ⟨e, h⟩ | ⟨x, m', he, ax, sx, l, e, S⟩
  · left
    refine ⟨e, ?_⟩
    rintro u ⟨x, ax, sx, rfl⟩
    by_contra c
    rw [not_le] at c
    have long : Scalar.lt (XR.fin lim) (Vec3.length ((m.vPos (m.hSrc x)).sub (m.vPos (m.hSrc (m.hNext x))))) = true := by
      rw [lenOf_le w s.at_ ax, X_lt_iff]
      unfold Mesh.lenOf
      rw [sx]
      simpa using c
    have h1 := h x ax sx long
    obtain ⟨m', h2⟩ := (c12_split_iff g x ax).2 ⟨s.deg _ (w.src_alive _ ax), s.deg _ (w.src_alive _ (w.next_alive _ ax)),
      s.shut.noFlag _ ax, s.shut.noFlag _ (w.rev_alive _ ax)⟩
    rw [h1] at h2
    cases h2
  · right
    rw [lenOf_le w s.at_ ax, X_lt_iff, decide_eq_true_eq] at l
    obtain ⟨h1, h2, h3⟩ := split_step s hl ax S l
    rw [sx] at h3
    exact ⟨m', e, h1, h2, h3⟩

end

end TinyMesh
