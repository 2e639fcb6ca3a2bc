import Verif.Proof.SimA
/-
The whole of simplification.
-/
namespace TinyMesh
open Orbit
variable {F : Type} [Scalar F] {m m' : Mesh F}

/-- what `k` contractions and any number of flips and moves of inner vertices preserve -/
structure SimDone (k : Nat) (m m' : Mesh F) : Prop where
  num : Contracted k m m'
  keeps : KeepsBoundary m m'
  reuse : NoReuse m m'
  old : ∀ v, m'.vAlive v = true → m.vAlive v = true
  pieces : Corresp m m'
  holes : KeepsHoles m m'

theorem SimDone.refl (m : Mesh F) : SimDone 0 m m :=
  ⟨⟨rfl, rfl, rfl⟩, fun _ a b => ⟨a, b, rfl⟩, .refl m, fun _ h => h, .refl m, .refl m⟩

omit [Scalar F] in
theorem SimDone.trans {a b c : Mesh F} {k k' : Nat} (h : SimDone k a b) (h' : SimDone k' b c) : SimDone (k + k') a c := by
  refine ⟨⟨?_, ?_, ?_⟩, fun v al bd => ?_, h.reuse.trans h'.reuse, fun v a => h.old v (h'.old v a),
    h.pieces.trans h.reuse.vF h'.reuse.v h'.pieces, h.holes.trans h'.holes⟩
  · have := h.num.fs; have := h'.num.fs; omega
  · have := h.num.vs; have := h'.num.vs; omega
  · have := h.num.hes; have := h'.num.hes; omega
  · obtain ⟨a1, b1, p1⟩ := h.keeps v al bd
    obtain ⟨a2, b2, p2⟩ := h'.keeps v a1 b1
    exact ⟨a2, b2, p2.trans p1⟩

theorem SimDone.pre : Pre (F := F) (SimDone 0) where
  refl := SimDone.refl
  trans h h' := h.trans h'

theorem Flipped.simDone (g : m.Good) {p q r s : Nat} (S : Flipped m m' p q r s) : m'.Good ∧ SimDone 0 m m' := by
  have d := S.done
  refine ⟨d.good, ⟨by rw [d.fs]; rfl, by rw [d.vs]; rfl, by rw [d.hes]; rfl⟩, fun v a hb => ?_, S.noReuse, fun v a => by rw [← d.vAlive]; exact a,
    d.corresp g.wf S.tris.1 S.tris.2, S.holes⟩
  obtain ⟨h, ah, hs, bh⟩ := hb
  refine ⟨by rw [d.vAlive]; exact a, ⟨h, by rw [d.hAlive]; exact ah, (S.src h bh).trans hs, by rw [d.bd]; exact bh⟩, by rw [d.pos]⟩

theorem Mesh.SameButPos.simDone (g : m.Good) (s : m.SameButPos m') (h : ∀ v, m.AtBoundary v → m'.vPos v = m.vPos v) :
    m'.Good ∧ SimDone 0 m m' := by
  refine ⟨s.good g, ⟨by rw [s]; rfl, by rw [s]; rfl, by rw [s]; rfl⟩, fun v a hb => ⟨by rw [s]; exact a, ?_, h v hb⟩, s.noReuse,
    fun v a => by rw [s] at a; exact a, s.corresp, s.keepsHoles⟩
  rw [s]; exact hb

/-- a contraction of an edge neither end of which is at the boundary -/
theorem Collapsed.simDone (g : m.Good) {h p q : Nat} (S : Collapsed m m' h p q) (b : ¬ m.AtBoundary q) : m'.Good ∧ SimDone 1 m m' := by
  have d := S.done
  refine ⟨d.good, ⟨d.nf, d.nv, d.nh⟩, fun v a hb => ?_, S.noReuse, fun v a => ((d.alive v).1 a).1, d.corresp g,
    d.keepsHoles g.wf S.bd S.flag⟩
  have ne : v ≠ q := fun e => b (e ▸ hb)
  have a' := (d.alive v).2 ⟨a, ne⟩
  obtain ⟨x, ax, sx, bx⟩ := hb
  exact ⟨a', ⟨x, S.flag x ax bx, by rw [S.src x ax, sx, if_neg ne], by rw [S.bd]; exact bx⟩, (d.keeps v a').1⟩

/-- What has to be known about an extra invariant `J` of the positions, about the candidate positions (`V`) and the quadrics (`Q`),
and the errors that may then occur. -/
structure SimCaps (S : Solver F) (J : Mesh F → Prop) (V : Vec3 F → Prop) (Q : Mat4 F → Prop) (E : Err → Prop) : Prop
    extends Caps J E where
  lap : ∀ m, m.Good → J m → (E .throw ∨ smoothLaplacianDefault m ≠ .err .throw) ∧ ∀ m', smoothLaplacianDefault m = .ok () m' → J m'
  zero : Q Mat4.zero
  add : ∀ A B, Q A → Q B → Q (A.add B)
  quad : ∀ m, J m → ∀ a b c, m.vAlive a = true → m.vAlive b = true → m.vAlive c = true →
    (∃ K, quadric (m.vPos a) (m.vPos b) (m.vPos c) = some K ∧ Q K) ∨
      quadric (m.vPos a) (m.vPos b) (m.vPos c) = none ∧ E .throw
  cand : ∀ m, J m → ∀ A B a b, Q A → Q B → m.vAlive a = true → m.vAlive b = true → V (qemPos S A B (m.vPos a) (m.vPos b))
  set : ∀ m, J m → ∀ a v, V v → J { m with vPos := upd m.vPos a v }

variable {S : Solver F} {J : Mesh F → Prop} {V : Vec3 F → Prop} {Q : Mat4 F → Prop} {E : Err → Prop}

theorem sixHalfedges_ok (w : m.WF) {h : Nat} (a : m.hAlive h = true) : sixHalfedges h m =
    .ok [h, m.hNext h, m.hNext (m.hNext h), m.hRev h, m.hNext (m.hRev h), m.hNext (m.hNext (m.hRev h))] m := by
  have an := w.next_alive _ a
  have ar := w.rev_alive _ a
  have arn := w.next_alive _ ar
  simp [sixHalfedges, getNext_ok a, getNext_ok an, getRev_ok a, getNext_ok ar, getNext_ok arn]

/-- One pass over the queue. -/
theorem qemPass_outcome (C : SimCaps S J V Q E) (nv : Nat) (target : Int) : ∀ (q : List (Nat × Vec3 F)) (rm : List Nat)
    (ck : Nat → Bool) (nr : Int) (m : Mesh F), GoodAnd J m → m.vs.length ≤ nv → (∀ c ∈ q, (m.hAlive c.1 = true ∨ c.1 ∈ rm) ∧ V c.2) →
    (∃ (k : Nat) (m' : Mesh F), qemPass nv target q rm ck nr m = .ok (nr + 2 * k) m' ∧ GoodAnd J m' ∧ SimDone k m m' ∧
      (k = 0 ∨ nr + 2 * k ≤ target + 1)) ∨ ∃ e, E e ∧ qemPass nv target q rm ck nr m = .err e
  | [], rm, ck, nr, m, i, _, _ => Or.inl ⟨0, m, by simp [qemPass], i, .refl m, Or.inl rfl⟩
  | (h, v) :: q, rm, ck, nr, m, i, hn, hq => by
    obtain ⟨g, j⟩ := i
    have w := g.wf
    have hq' : ∀ c ∈ q, (m.hAlive c.1 = true ∨ c.1 ∈ rm) ∧ V c.2 := fun c hc => hq c (by simp [hc])
    unfold qemPass
    split
    case isFalse => exact Or.inl ⟨0, m, by simp, ⟨g, j⟩, .refl m, Or.inl rfl⟩
    case isTrue hlt =>
    split
    · exact qemPass_outcome C nv target q rm ck nr m ⟨g, j⟩ hn hq'
    next hrm =>
    have a : m.hAlive h = true := (hq (h, v) (by simp)).1.resolve_right hrm
    have hv : V v := (hq (h, v) (by simp)).2
    have as := w.src_alive _ a
    obtain ⟨b, hb, hbd⟩ := qemAllowed_ok g hn ck a v
    rw [bind_apply, hb]
    dsimp only
    split
    case isFalse => exact qemPass_outcome C nv target q rm ck nr m ⟨g, j⟩ hn hq'
    case isTrue hbt =>
    obtain ⟨b1, b2⟩ := hbd hbt
    rw [bind_apply, sixHalfedges_ok w a]; dsimp only
    rw [bind_apply, getSrc_ok a]; dsimp only
    have es : setPos (m.hSrc h) v m = .ok () { m with vPos := upd m.vPos (m.hSrc h) v } := by simp [setPos, as]
    rw [bind_apply, es]; dsimp only
    set m1 : Mesh F := { m with vPos := upd m.vPos (m.hSrc h) v } with hm1
    have s1 : m.SameButPos m1 := rfl
    obtain ⟨g1, d1⟩ := s1.simDone g (by
      intro u hu
      have : u ≠ m.hSrc h := fun e => b1 (e ▸ hu)
      simp [hm1, upd, this])
    have j1 : J m1 := C.set m j _ v hv
    have as1 : m1.vAlive (m.hSrc h) = true := as
    have a1 : m1.hAlive h = true := a
    rw [bind_apply, getVIdx_ok as1]; dsimp only
    rw [bind_apply, inRange_ok g1.wf hn as1]; dsimp only
    rw [bind_apply]
    rcases collapse_step g1 a1 with e | ⟨m2, p, q2, e, K⟩ | ⟨e, u, au, hu⟩
    · rw [e]; dsimp only
      rw [if_neg (by simp)]
      rcases qemPass_outcome C nv target q ([h, m.hNext h, m.hNext (m.hNext h), m.hRev h, m.hNext (m.hRev h),
        m.hNext (m.hNext (m.hRev h))] ++ rm) (upd ck (m1.vIdx (m.hSrc h)).toNat true) nr m1 ⟨g1, j1⟩ hn
        (fun c hc => ⟨(hq' c hc).1.imp id fun h => List.mem_append.2 (Or.inr h), (hq' c hc).2⟩)
        with ⟨k, m', e', i', d', l⟩ | h'
      · exact Or.inl ⟨k, m', e', i', by simpa using d1.trans d', l⟩
      · exact Or.inr h'
    · rw [e]; dsimp only
      rw [if_pos rfl]
      have bq : ¬ m1.AtBoundary q2 := by
        rcases K.ends with ⟨-, e2⟩ | ⟨-, e2⟩
        · rw [e2, g1.wf.src_rev _ a1]; exact b2
        · rw [e2]; exact b1
      obtain ⟨g2, d2⟩ := K.simDone g1 bq
      have j2 : J m2 := C.collapse j1 K.done
      have d12 := d1.trans d2
      rcases qemPass_outcome C nv target q ([h, m.hNext h, m.hNext (m.hNext h), m.hRev h, m.hNext (m.hRev h),
        m.hNext (m.hNext (m.hRev h))] ++ rm) (upd ck (m1.vIdx (m.hSrc h)).toNat true) (nr + 2) m2 ⟨g2, j2⟩
        (by have := d12.num.vs; omega)
        (fun c hc => ⟨by
          rcases (hq' c hc).1 with h1 | h1
          · by_cases hm : c.1 ∈ [h, m.hNext h, m.hNext (m.hNext h), m.hRev h, m.hNext (m.hRev h), m.hNext (m.hNext (m.hRev h))]
            · exact Or.inr (List.mem_append.2 (Or.inl hm))
            · exact Or.inl (K.gone c.1 h1 hm)
          · exact Or.inr (List.mem_append.2 (Or.inr h1)), (hq' c hc).2⟩)
        with ⟨k, m', e', i', d', l⟩ | h'
      · refine Or.inl ⟨k + 1, m', ?_, i', ?_, Or.inr ?_⟩
        · rw [e']; congr 1; push_cast; omega
        · have := d12.trans d'
          rwa [show 0 + 1 + k = k + 1 by omega] at this
        · push_cast
          rcases l with rfl | l
          · push_cast; omega
          · omega
      · exact Or.inr h'
    · rcases C.nan with hh | hh
      · rw [e]; exact Or.inr ⟨_, hh, rfl⟩
      · exact absurd (hh m1 j1 u au) hu

theorem qemFlipOne_cases (g : m.Good) {i : Nat} (c : i < m.hes.length) :
    qemFlipOne i m = .ok () m ∨ ∃ m' p q r s, qemFlipOne i m = .ok () m' ∧ Flipped m m' p q r s := by
  have w := g.wf
  have a := hes_alive w c
  set h := m.hes[i] with hh
  have ar := w.rev_alive _ a
  have an := w.next_alive _ a
  have arn := w.next_alive _ ar
  unfold qemFlipOne
  rw [bind_apply, halfedgeAt_ok c, ← hh]; dsimp only
  rw [bind_apply, getFace_ok a]; dsimp only
  rw [bind_apply, w.fIsBoundary_ok (w.face_alive _ a)]; dsimp only
  split
  · exact Or.inl rfl
  next b1 =>
  rw [bind_apply, getRev_ok a]; dsimp only
  rw [bind_apply, getFace_ok ar]; dsimp only
  rw [bind_apply, w.fIsBoundary_ok (w.face_alive _ ar)]; dsimp only
  split
  · exact Or.inl rfl
  next b2 =>
  rw [bind_apply, getSrc_ok a]; dsimp only
  rw [bind_apply, getDst_ok a an]; dsimp only
  rw [bind_apply, getNext_ok a]; dsimp only
  rw [bind_apply, getDst_ok an (w.next_alive _ an)]; dsimp only
  rw [bind_apply, getNext_ok ar]; dsimp only
  rw [bind_apply, getDst_ok arn (w.next_alive _ arn)]; dsimp only
  rw [bind_apply, w.degree_ok (w.src_alive _ a)]; dsimp only
  rw [bind_apply, w.degree_ok (w.src_alive _ an)]; dsimp only
  rw [bind_apply, w.degree_ok (w.src_alive _ (w.next_alive _ an))]; dsimp only
  rw [bind_apply, w.degree_ok (w.src_alive _ (w.next_alive _ arn))]; dsimp only
  split
  · rcases flip_step g a (by simpa using b1) (by simpa using b2) with e | ⟨m', p, q, r, s, e, S⟩
    · left; rw [bind_apply, e]; rfl
    · right; exact ⟨m', p, q, r, s, by rw [bind_apply, e]; rfl, S⟩
  · exact Or.inl rfl

theorem qemFlips_runs (C : Caps J E) : Runs (GoodAnd J) E (SimDone 0) (forHalfedges (qemFlipOne (F := F))) := by
  refine Runs.forHalfedges SimDone.pre fun i m h c => ?_
  obtain ⟨g, j⟩ := h
  rcases qemFlipOne_cases g c with e | ⟨m', p, q, r, s, e, K⟩
  · exact Or.inl ⟨_, _, e, ⟨⟨g, j⟩, .refl m⟩, rfl⟩
  · exact Or.inl ⟨_, _, e, ⟨⟨(K.simDone g).1, C.flip j K.done.vAlive K.done.pos⟩, (K.simDone g).2⟩, by rw [K.done.hes]⟩

theorem taubin_sim (C : Caps J E) : Runs (GoodAnd J) E (SimDone 0) (smoothTaubinDefault (F := F)) := by
  rintro m ⟨g, j⟩
  have k := c27_taubin (Scalar.lit 1 2 : F) (Scalar.lit 53 100) (n := 3) (by decide) g.wf
  rcases k with k | ⟨m', k, s, hp⟩
  · rcases (C.taubin m g j).1 with h | h
    · exact Or.inr ⟨_, h, k⟩
    · exact absurd k h
  · have := s.simDone g fun v hv => hp v (Or.inl hv)
    exact Or.inl ⟨_, _, k, ⟨this.1, (C.taubin m g j).2 m' k⟩, this.2⟩

theorem laplacian_sim (C : SimCaps S J V Q E) : Runs (GoodAnd J) E (SimDone 0) (smoothLaplacianDefault (F := F)) := by
  rintro m ⟨g, j⟩
  have k := c27_laplacian (Scalar.lit 1 1 : F) false 3 g.wf
  rcases k with k | ⟨m', k, s, hp⟩
  · rcases (C.lap m g j).1 with h | h
    · exact Or.inr ⟨_, h, k⟩
    · exact absurd k h
  · have := s.simDone g fun v hv => hp v (Or.inl hv)
    exact Or.inl ⟨_, _, k, ⟨this.1, (C.lap m g j).2 m' k⟩, this.2⟩

/-- One trial, without the flips and the smoothing. -/
theorem qemTrial_outcome (C : SimCaps S J V Q E) {ord : List (Nat × Vec3 F) → List (Nat × Vec3 F)} (ho : ∀ l, ∀ c ∈ ord l, c ∈ l)
    (target nr : Int) (m : Mesh F) (i : GoodAnd J m) :
    (∃ (k : Nat) (m' : Mesh F), qemTrial S ord target nr m = .ok (some (nr + 2 * k)) m' ∧ GoodAnd J m' ∧ SimDone k m m' ∧
      (k = 0 ∨ nr + 2 * k ≤ target + 1)) ∨ ∃ e, E e ∧ qemTrial S ord target nr m = .err e := by
  obtain ⟨g, j⟩ := i
  have w := g.wf
  unfold qemTrial
  simp only [bind_apply, read_apply]
  rcases quadrics_ok g (Nat.le_refl _) C.add (C.quad m j) m.fs (fun _ => Mat4.zero) (fun f hf => (w.fDense.mem f).1 hf)
    (fun _ => C.zero) with ⟨qs, e, hqs⟩ | ⟨x, hx, e⟩
  · rw [e]; dsimp only
    have ah : ∀ h ∈ m.hes, m.hAlive h = true := fun h hh => (w.hDense.mem h).1 hh
    rw [bind_apply, candidates_ok g S (Nat.le_refl _) qs m.hes ah]; dsimp only
    rw [bind_apply]
    rcases qemPass_outcome C m.vs.length target (ord (m.hes.map fun h => (h, candPos S m qs h))) [] (fun _ => false) nr m ⟨g, j⟩
      (Nat.le_refl _) (fun c hc => by
        obtain ⟨h, hh, rfl⟩ := List.mem_map.1 (ho _ c hc)
        exact ⟨Or.inl (ah h hh), C.cand m j _ _ _ _ (hqs _) (hqs _) (w.src_alive _ (ah h hh))
          (w.src_alive _ (w.next_alive _ (ah h hh)))⟩) with ⟨k, m', e3, i3, d3, l⟩ | ⟨x, hx, e3⟩
    · rw [e3]; exact Or.inl ⟨k, m', rfl, i3, d3, l⟩
    · rw [e3]; exact Or.inr ⟨x, hx, rfl⟩
  · rw [e]; exact Or.inr ⟨x, hx, rfl⟩

/-- All trials; they end within the given fuel. -/
theorem qemLoop_outcome (C : SimCaps S J V Q E) {ord : Nat → List (Nat × Vec3 F) → List (Nat × Vec3 F)}
    (ho : ∀ n l, ∀ c ∈ ord n l, c ∈ l) (target : Int) (T : Nat) (maxTrials : Int) (hT : maxTrials ≤ T) :
    ∀ (fuel n : Nat) (trial nr : Int) (m : Mesh F), GoodAnd J m → 0 ≤ trial → nr < target →
      (m.fs.length : Int) * (T + 1) + (T - trial) < fuel → (trial ≤ T ∨ 0 < fuel) →
      (∃ (k : Nat) (m' : Mesh F), qemLoop S ord target maxTrials fuel n trial nr m = .ok () m' ∧ GoodAnd J m' ∧ SimDone k m m' ∧
        nr + 2 * k ≤ target + 1) ∨ ∃ e, E e ∧ qemLoop S ord target maxTrials fuel n trial nr m = .err e
  | 0, n, trial, nr, m, i, h0, hlt, hf, h1 => by
    exfalso
    have : 0 ≤ (m.fs.length : Int) * (T + 1) := Int.mul_nonneg (by omega) (by omega)
    rcases h1 with h1 | h1
    · push_cast at hf; omega
    · omega
  | fuel + 1, n, trial, nr, m, i, h0, hlt, hf, h1 => by
    unfold qemLoop
    split
    case isFalse => exact Or.inl ⟨0, m, rfl, i, .refl m, by push_cast; omega⟩
    case isTrue ht =>
    simp only [bind_apply, read_apply]
    rcases qemTrial_outcome C (ho n) target nr m i with ⟨k, m1, e1, i1, d1, l1⟩ | ⟨x, hx, e1⟩
    swap
    · rw [e1]; exact Or.inr ⟨x, hx, rfl⟩
    rw [e1]; dsimp only
    rw [bind_apply]
    rcases qemFlips_runs C.toCaps m1 i1 with ⟨⟨⟩, m2, e2, i2, d2⟩ | ⟨x, hx, e2⟩
    swap
    · rw [e2]; exact Or.inr ⟨x, hx, rfl⟩
    rw [e2]; dsimp only
    rw [bind_apply]
    rcases taubin_sim C.toCaps m2 i2 with ⟨⟨⟩, m3, e3, i3, d3⟩ | ⟨x, hx, e3⟩
    swap
    · rw [e3]; exact Or.inr ⟨x, hx, rfl⟩
    rw [e3]; dsimp only
    have d13 : SimDone k m m3 := (d1.trans d2).trans d3
    have hl : nr + 2 * (k : Int) ≤ target + 1 := by
      rcases l1 with rfl | l1
      · push_cast; omega
      · exact l1
    split
    · exact Or.inl ⟨k, m3, rfl, i3, d13, hl⟩
    next hnr =>
    simp only [bind_apply, read_apply]
    have hfs := d13.num.fs
    by_cases hk : m3.fs.length < m.fs.length
    · rw [if_pos hk]
      have hmul : ((m3.fs.length : Int) + 1) * (T + 1) ≤ (m.fs.length : Int) * (T + 1) :=
        Int.mul_le_mul_of_nonneg_right (by omega) (by omega)
      rw [Int.add_mul] at hmul
      rcases qemLoop_outcome C ho target T maxTrials hT fuel (n + 1) (0 + 1) (nr + 2 * k) m3 i3 (by omega) (by omega)
        (by push_cast at hf ⊢; omega) (Or.inl (by omega)) with ⟨k', m', e', i', d', l'⟩ | h'
      · exact Or.inl ⟨k + k', m', e', i', d13.trans d', by push_cast; omega⟩
      · exact Or.inr h'
    · rw [if_neg hk]
      have hlen : m3.fs.length = m.fs.length := by omega
      rcases qemLoop_outcome C ho target T maxTrials hT fuel (n + 1) (trial + 1) (nr + 2 * k) m3 i3 (by omega) (by omega)
        (by rw [hlen]; push_cast at hf ⊢; omega) (Or.inl (by omega)) with ⟨k', m', e', i', d', l'⟩ | h'
      · exact Or.inl ⟨k + k', m', e', i', d13.trans d', by push_cast; omega⟩
      · exact Or.inr h'

/-- everything that `simplifyQEM` can do -/
theorem simplifyQEM_outcome (C : SimCaps S J V Q E) {ord : Nat → List (Nat × Vec3 F) → List (Nat × Vec3 F)}
    (ho : ∀ n l, ∀ c ∈ ord n l, c ∈ l) (g : m.Good) (j : J m) {target : Int} (ht : target ≠ 0) (maxTrials : Int)
    (hov : (m.fs.length : Int) - target ≤ 2147483647) :
    (∃ (k : Nat) (m' : Mesh F), simplifyQEM S ord target maxTrials m = .ok () m' ∧ GoodAnd J m' ∧ SimDone k m m' ∧
      (k = 0 ∨ target - 1 ≤ m'.fs.length) ∧ ((m.fs.length : Int) ≤ target → m' = m)) ∨
    ∃ e, E e ∧ simplifyQEM S ord target maxTrials m = .err e := by
  unfold simplifyQEM
  simp only [bind_apply, read_apply]
  rw [if_neg (by omega), if_neg ht]
  split
  · exact Or.inl ⟨0, m, rfl, ⟨g, j⟩, .refl m, Or.inl rfl, fun _ => rfl⟩
  next hp =>
  rw [bind_apply]
  rcases laplacian_sim C m ⟨g, j⟩ with ⟨⟨⟩, m1, e1, i1, d1⟩ | ⟨x, hx, e1⟩
  swap
  · rw [e1]; exact Or.inr ⟨x, hx, rfl⟩
  rw [e1]; dsimp only
  have hl1 : m1.fs.length = m.fs.length := by have := d1.num.fs; omega
  rcases qemLoop_outcome C ho ((m.fs.length : Int) - target) maxTrials.toNat maxTrials (Int.self_le_toNat _)
    ((m.fs.length + 1) * (maxTrials.toNat + 1) + 1) 0 0 0 m1 i1 (by omega) (by omega)
    (by rw [hl1]; push_cast; rw [Int.add_mul]; omega) (Or.inl (by omega)) with ⟨k, m', e', i', d', l'⟩ | h'
  · have d := d1.trans d'
    rw [Nat.zero_add] at d
    refine Or.inl ⟨k, m', e', i', d, Or.inr ?_, fun h => absurd h (by omega)⟩
    have := d.num.fs
    omega
  · exact Or.inr h'

/-! The two instances -/

theorem simCaps_any (S : Solver F) : SimCaps S (fun _ => True) (fun _ => True) (fun _ => True) (fun e => e = .abort ∨ e = .throw) where
  toCaps := caps_any
  lap _ _ _ := ⟨Or.inl (Or.inr rfl), fun _ _ => trivial⟩
  zero := trivial
  add _ _ _ _ := trivial
  quad m _ a b c _ _ _ := by
    cases h : quadric (m.vPos a) (m.vPos b) (m.vPos c) with
    | none => exact Or.inr ⟨rfl, Or.inr rfl⟩
    | some K => exact Or.inl ⟨K, rfl, trivial⟩
  cand _ _ _ _ _ _ _ _ _ _ := trivial
  set _ _ _ _ _ := trivial

end TinyMesh
