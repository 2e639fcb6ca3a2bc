import Verif.Proof.FillB
import Verif.Proof.Split
import Verif.Proof.CollapseExec
/-
`addNewTriangle` and the loop over the triangles: the state they produce.
-/
set_option linter.unusedSimpArgs false
namespace TinyMesh
open Orbit
variable {F : Type}

theorem Mesh.WF.faceLoop {m : Mesh F} (w : m.WF) {f : Nat} (a : m.fAlive f = true) :
    FaceLoop m f (orbit m.hNext (m.fHe f)) := by
  have hf := w.fHe_ok f a
  refine ⟨fun h => w.mem_loop a, w.permNext.nodup_orbit hf.1, ?_⟩
  intro p h hp
  have hs := w.permNext.period_spec hf.1
  have hlt : p < period m.hNext (m.fHe f) := by
    have := (List.getElem?_eq_some_iff.1 hp).1
    rwa [length_orbit] at this
  have get : ∀ q, q < period m.hNext (m.fHe f) → (orbit m.hNext (m.fHe f))[q]? = some (m.hNext^[q] (m.fHe f)) := by
    intro q hq
    simp [orbit, hq]
  rw [length_orbit, get _ (Nat.mod_lt _ hs.1), ← w.permNext.iter_mod hf.1]
  rw [get p hlt] at hp
  rw [Function.iterate_succ_apply', Option.some.inj hp]

/-! ### The maps -/

theorem lookup_snoc {κ ν : Type} [BEq κ] [LawfulBEq κ] [DecidableEq κ] (l : List (κ × ν)) (k k' : κ) (x : ν) (h : l.lookup k = none) :
    (l ++ [(k, x)]).lookup k' = if k' = k then some x else l.lookup k' := by
  rw [List.lookup_append]
  by_cases e : k' = k
  · subst e
    simp [h]
  · have : (k' == k) = false := by simpa using e
    simp [e, List.lookup, this]

theorem insert_pair {s : HeMaps} {e : Nat × Nat} {h : Nat} (hn : s.pair2he.lookup e = none) (e' : Nat × Nat) :
    (s.insert e h).pair2he.lookup e' = if e' = e then some h else s.pair2he.lookup e' := by
  unfold HeMaps.insert insertNew
  dsimp only
  rw [hn]
  simpa using lookup_snoc _ e e' h hn

theorem insert_he {s : HeMaps} {e : Nat × Nat} {h : Nat} (hn : s.he2pair.lookup h = none) (h' : Nat) :
    (s.insert e h).he2pair.lookup h' = if h' = h then some e else s.he2pair.lookup h' := by
  unfold HeMaps.insert
  dsimp only
  rw [hn]
  simpa using lookup_snoc _ h h' e hn

/-- the maps after the loop over the half-edges of the face -/
theorem collectPairs_ok (hs : List Nat) (nd : hs.Nodup) : ∀ (post pre : List Nat) (s : HeMaps), hs = pre ++ post →
    (∀ e h, s.pair2he.lookup e = some h ↔ e.2 = (e.1 + 1) % hs.length ∧ pre[e.1]? = some h) →
    (∀ e h, s.he2pair.lookup h = some e ↔ s.pair2he.lookup e = some h) →
    (∀ e h, (collectPairs hs.length pre.length post s).pair2he.lookup e = some h ↔
      e.2 = (e.1 + 1) % hs.length ∧ hs[e.1]? = some h) ∧
    (∀ e h, (collectPairs hs.length pre.length post s).he2pair.lookup h = some e ↔
      (collectPairs hs.length pre.length post s).pair2he.lookup e = some h) := by
  intro post
  induction post with
  | nil =>
    intro pre s e h1 h2
    rw [List.append_nil] at e
    subst e
    exact ⟨h1, h2⟩
  | cons x post ih =>
    intro pre s e h1 h2
    have hx : x ∉ pre := by
      rw [e] at nd
      intro hx
      exact (List.nodup_append.1 nd).2.2 x hx x List.mem_cons_self rfl
    have n1 : s.pair2he.lookup (pre.length, (pre.length + 1) % hs.length) = none := by
      rw [Option.eq_none_iff_forall_not_mem]
      intro h hh
      have := ((h1 _ h).1 hh).2
      dsimp only at this
      rw [List.getElem?_eq_none (Nat.le_refl _)] at this
      exact absurd this (by simp)
    have n2 : s.he2pair.lookup x = none := by
      rw [Option.eq_none_iff_forall_not_mem]
      intro h hh
      exact hx (List.mem_of_getElem? ((h1 _ _).1 ((h2 _ _).1 hh)).2)
    have := ih (pre ++ [x]) (s.insert (pre.length, (pre.length + 1) % hs.length) x) (by simp [e]) (by
      intro e' h
      rw [insert_pair n1]
      by_cases ee : e' = (pre.length, (pre.length + 1) % hs.length)
      · subst ee
        simp
      · rw [if_neg ee, h1]
        refine and_congr_right fun hd => ?_
        have : e'.1 ≠ pre.length := by
          intro h0
          exact ee (by ext; exact h0; rw [hd, h0])
        rcases Nat.lt_trichotomy e'.1 pre.length with hl | hl | hl
        · rw [List.getElem?_append_left hl]
        · exact absurd hl this
        · rw [List.getElem?_eq_none (by omega), List.getElem?_eq_none (by simp; omega)]) (by
      intro e' h
      rw [insert_pair n1, insert_he n2]
      by_cases e1 : h = x
      · subst e1
        rw [if_pos rfl]
        by_cases e2 : e' = (pre.length, (pre.length + 1) % hs.length)
        · simp [e2]
        · rw [if_neg e2]
          constructor
          · intro h0; exact absurd (Option.some.inj h0).symm e2
          · intro h0; rw [← h2, n2] at h0; exact absurd h0 (by simp)
      · rw [if_neg e1, h2]
        by_cases e2 : e' = (pre.length, (pre.length + 1) % hs.length)
        · rw [if_pos e2, e2, n1]
          constructor
          · intro h0; exact absurd h0 (by simp)
          · intro h0; exact absurd (Option.some.inj h0).symm e1
        · rw [if_neg e2])
    simpa [collectPairs] using this

/-! ### Half-edges of new triangles -/

/-- the vertices are the same -/
structure VSame (m m' : Mesh F) : Prop where
  vAlive : m'.vAlive = m.vAlive
  vPos : m'.vPos = m.vPos
  vHe : m'.vHe = m.vHe
  vIdx : m'.vIdx = m.vIdx
  vLock : m'.vLock = m.vLock
  vs : m'.vs = m.vs
  vFr : m'.vFresh = m.vFresh

theorem VSame.trans {m m1 m2 : Mesh F} (a : VSame m m1) (b : VSame m1 m2) : VSame m m2 :=
  ⟨b.1.trans a.1, b.2.trans a.2, b.3.trans a.3, b.4.trans a.4, b.5.trans a.5, b.6.trans a.6, b.7.trans a.7⟩

/-- what holds of the maps and of the new half-edges while triangles are added -/
structure MapInv (m0 : Mesh F) (hs : List Nat) (s : HeMaps) (m : Mesh F) : Prop where
  hD : Dense m.hAlive m.hIdx m.hes
  hal : ∀ h, m.hAlive h = true ↔ m0.hAlive h = true ∨ (m0.hFresh ≤ h ∧ h < m.hFresh)
  hFr : m0.hFresh ≤ m.hFresh
  back : ∀ e h, s.he2pair.lookup h = some e ↔ s.pair2he.lookup e = some h
  side : ∀ e, IsSide hs.length e → s.pair2he.lookup e = hs[e.1]?
  new : ∀ e h, s.pair2he.lookup e = some h → ¬ IsSide hs.length e → m0.hFresh ≤ h ∧ h < m.hFresh
  surj : ∀ h, m0.hFresh ≤ h → h < m.hFresh → ∃ e, ¬ IsSide hs.length e ∧ s.pair2he.lookup e = some h
  rev0 : ∀ h, m0.hFresh ≤ h → h < m.hFresh → m.hRev h = 0
  rev : ∀ h, h < m0.hFresh → m.hRev h = m0.hRev h
  len : m.hes.length + m0.hFresh = m0.hes.length + m.hFresh
  v : VSame m0 m

theorem MapInv.inj {m0 m : Mesh F} {hs s} (I : MapInv m0 hs s m) {e e' : Nat × Nat} {h : Nat} (a : s.pair2he.lookup e = some h)
    (b : s.pair2he.lookup e' = some h) : e = e' := by
  rw [← I.back] at a b
  rw [a] at b
  exact Option.some.inj b

/-- the links of old half-edges, and the faces, are the same -/
structure LinkSame (m m' : Mesh F) : Prop where
  fr : m.hFresh ≤ m'.hFresh
  src : ∀ x, x < m.hFresh → m'.hSrc x = m.hSrc x
  next : ∀ x, x < m.hFresh → m'.hNext x = m.hNext x
  face : ∀ x, x < m.hFresh → m'.hFace x = m.hFace x
  bd : ∀ x, x < m.hFresh → m'.hBd x = m.hBd x
  fAlive : m'.fAlive = m.fAlive
  fHe : m'.fHe = m.fHe
  fIdx : m'.fIdx = m.fIdx
  fs : m'.fs = m.fs
  fFr : m'.fFresh = m.fFresh

theorem LinkSame.refl (m : Mesh F) : LinkSame m m :=
  ⟨Nat.le_refl _, fun _ _ => rfl, fun _ _ => rfl, fun _ _ => rfl, fun _ _ => rfl, rfl, rfl, rfl, rfl, rfl⟩

theorem LinkSame.trans {m m1 m2 : Mesh F} (a : LinkSame m m1) (b : LinkSame m1 m2) : LinkSame m m2 :=
  ⟨a.fr.trans b.fr, fun x h => (b.src x (lt_of_lt_of_le h a.fr)).trans (a.src x h),
    fun x h => (b.next x (lt_of_lt_of_le h a.fr)).trans (a.next x h),
    fun x h => (b.face x (lt_of_lt_of_le h a.fr)).trans (a.face x h),
    fun x h => (b.bd x (lt_of_lt_of_le h a.fr)).trans (a.bd x h),
    b.fAlive.trans a.fAlive, b.fHe.trans a.fHe, b.fIdx.trans a.fIdx, b.fs.trans a.fs, b.fFr.trans a.fFr⟩

theorem MapInv.alive {m0 m : Mesh F} {hs s} (I : MapInv m0 hs s m) (ha : ∀ h ∈ hs, m0.hAlive h = true) {e : Nat × Nat} {h : Nat}
    (a : s.pair2he.lookup e = some h) : m.hAlive h = true := by
  rw [I.hal]
  by_cases sd : IsSide hs.length e
  · rw [I.side e sd] at a
    exact .inl (ha h (List.mem_of_getElem? a))
  · exact .inr (I.new e h a sd)

theorem pairHalfedge_ok {m0 m : Mesh F} {hs s} (hb : ∀ h, m0.hAlive h = true → 0 < h ∧ h < m0.hFresh) (I : MapInv m0 hs s m)
    (ha : ∀ h ∈ hs, m0.hAlive h = true) (i j : Nat) :
    ∃ h s' m', pairHalfedge s i j m = .ok (h, s') m' ∧ MapInv m0 hs s' m' ∧ s'.pair2he.lookup (i, j) = some h ∧
      (∀ e, e ≠ (i, j) → s'.pair2he.lookup e = s.pair2he.lookup e) ∧ LinkSame m m' ∧
      (∀ e x, s.pair2he.lookup e = some x → s'.pair2he.lookup e = some x) := by
  unfold pairHalfedge
  cases hl : s.pair2he.lookup (i, j) with
  | some h =>
    exact ⟨h, s, m, rfl, I, hl, fun _ _ => rfl, LinkSame.refl m, fun _ _ h => h⟩
  | none =>
    have fr0 : m.hAlive m.hFresh = false := by
      rw [Bool.eq_false_iff]
      intro h
      rcases (I.hal _).1 h with h | h
      · have := (hb _ h).2; have := I.hFr; omega
      · omega
    have nback : s.he2pair.lookup m.hFresh = none := by
      rw [Option.eq_none_iff_forall_not_mem]
      intro e he
      have := I.alive ha ((I.back _ _).1 he)
      rw [fr0] at this
      exact absurd this (by simp)
    have nside : ¬ IsSide hs.length (i, j) := by
      intro sd
      have := I.side _ sd
      rw [hl, List.getElem?_eq_getElem sd.1] at this
      exact absurd this (by simp)
    dsimp only
    refine ⟨m.hFresh, s.insert (i, j) m.hFresh, { m with
      hAlive := upd m.hAlive m.hFresh true
      hSrc := upd m.hSrc m.hFresh 0
      hNext := upd m.hNext m.hFresh 0
      hRev := upd m.hRev m.hFresh 0
      hFace := upd m.hFace m.hFresh 0
      hIdx := upd (upd m.hIdx m.hFresh (-1)) m.hFresh (m.hes.length : Int)
      hBd := upd m.hBd m.hFresh false
      hes := m.hes ++ [m.hFresh]
      hCap := pushCap m.hes.length m.hCap m.grow
      hEpoch := pushEpoch m.hes.length m.hCap m.hEpoch
      hFresh := m.hFresh + 1 }, ?_, ?_, ?_, ?_, ?_, ?_⟩
    · simp only [bind_apply, newHalfedge, pure_apply]
      rw [addHalfedge_ok (by exact upd_same _ _ _)]
    · have hF := I.hFr
      refine ⟨?_, ?_, ?_, ?_, ?_, ?_, ?_, ?_, ?_, ?_, ?_⟩
      · have := I.hD.push fr0
        have e : upd (upd m.hIdx m.hFresh (-1)) m.hFresh (m.hes.length : Int) = upd m.hIdx m.hFresh (m.hes.length : Int) := by
          funext x
          by_cases e : x = m.hFresh <;> simp [upd, e]
        dsimp only
        rw [e]
        exact this
      · intro h
        dsimp only
        by_cases e : h = m.hFresh
        · subst e
          rw [upd_same]
          simp only [true_iff]
          right; omega
        · rw [upd_ne _ _ e, I.hal]
          constructor
          · rintro (a | a)
            · exact .inl a
            · right; omega
          · rintro (a | a)
            · exact .inl a
            · right; omega
      · dsimp only; omega
      · intro e' h
        rw [insert_pair hl, insert_he nback]
        by_cases e1 : h = m.hFresh
        · subst e1
          rw [if_pos rfl]
          by_cases e2 : e' = (i, j)
          · simp [e2]
          · rw [if_neg e2]
            constructor
            · intro h0; exact absurd (Option.some.inj h0).symm e2
            · intro h0; rw [← I.back, nback] at h0; exact absurd h0 (by simp)
        · rw [if_neg e1, I.back]
          by_cases e2 : e' = (i, j)
          · rw [if_pos e2, e2, hl]
            constructor
            · intro h0; exact absurd h0 (by simp)
            · intro h0; exact absurd (Option.some.inj h0).symm e1
          · rw [if_neg e2]
      · intro e' sd
        rw [insert_pair hl, if_neg (by rintro rfl; exact nside sd), I.side e' sd]
      · intro e' h h0 sd
        dsimp only
        rw [insert_pair hl] at h0
        by_cases e2 : e' = (i, j)
        · rw [if_pos e2] at h0
          have := Option.some.inj h0
          omega
        · rw [if_neg e2] at h0
          have := I.new e' h h0 sd
          omega
      · intro h h1 h2
        dsimp only at h2
        by_cases e : h = m.hFresh
        · exact ⟨(i, j), nside, by rw [insert_pair hl, if_pos rfl, e]⟩
        · obtain ⟨e', h3, h4⟩ := I.surj h h1 (by omega)
          refine ⟨e', h3, ?_⟩
          rw [insert_pair hl, if_neg, h4]
          intro h5
          rw [h5, hl] at h4
          exact absurd h4 (by simp)
      · intro h h1 h2
        dsimp only at h2 ⊢
        by_cases e : h = m.hFresh
        · rw [e, upd_same]
        · rw [upd_ne _ _ e, I.rev0 h h1 (by omega)]
      · intro h h1
        dsimp only
        rw [upd_ne _ _ (by omega), I.rev h h1]
      · have := I.len
        dsimp only
        rw [List.length_append, List.length_singleton]
        omega
      · exact I.v.trans ⟨rfl, rfl, rfl, rfl, rfl, rfl, rfl⟩
    · rw [insert_pair hl, if_pos rfl]
    · intro e he
      rw [insert_pair hl, if_neg he]
    · refine ⟨by dsimp only; omega, ?_, ?_, ?_, ?_, rfl, rfl, rfl, rfl, rfl⟩ <;>
        (intro x hx; exact upd_ne _ _ (by omega))
    · intro e x hx
      rw [insert_pair hl, if_neg, hx]
      rintro rfl
      rw [hl] at hx
      exact absurd hx (by simp)

/-! ### Triangles -/

/-- one finished triangle -/
structure TriDone (m0 : Mesh F) (hs : List Nat) (s : HeMaps) (m : Mesh F) (g : Nat) (t : Tri3) (a b c : Nat) : Prop where
  la : s.pair2he.lookup (t.1, t.2.1) = some a
  lb : s.pair2he.lookup (t.2.1, t.2.2) = some b
  lc : s.pair2he.lookup (t.2.2, t.1) = some c
  na : m.hNext a = b
  nb : m.hNext b = c
  nc : m.hNext c = a
  fa : m.hFace a = g
  fb : m.hFace b = g
  fc : m.hFace c = g
  ba : m.hBd a = false
  bb : m.hBd b = false
  bc : m.hBd c = false
  sa : hs[t.1]?.map m0.hSrc = some (m.hSrc a)
  sb : hs[t.2.1]?.map m0.hSrc = some (m.hSrc b)
  sc : hs[t.2.2]?.map m0.hSrc = some (m.hSrc c)
  fh : m.fHe g = a

/-- what holds of the links while triangles are added -/
structure LinkInv (m0 : Mesh F) (hs : List Nat) (done : List Tri3) (s : HeMaps) (m : Mesh F) : Prop where
  keys : ∀ e, (s.pair2he.lookup e).isSome ↔ IsSide hs.length e ∨ e ∈ allDirs done
  fD : Dense m.fAlive m.fIdx m.fs
  fal : ∀ g, m.fAlive g = true ↔ m0.fAlive g = true ∨ (m0.fFresh ≤ g ∧ g < m.fFresh)
  fFr : m.fFresh = m0.fFresh + done.length
  fs : m.fs = m0.fs ++ List.range' m0.fFresh done.length
  fHe : ∀ g, g < m0.fFresh → m.fHe g = m0.fHe g
  tri : ∀ (j : Nat) t, done[j]? = some t → ∃ a b c, TriDone m0 hs s m (m0.fFresh + j) t a b c
  old : ∀ h, h < m0.hFresh → (∀ e ∈ allDirs done, s.pair2he.lookup e ≠ some h) →
    m.hSrc h = m0.hSrc h ∧ m.hNext h = m0.hNext h ∧ m.hFace h = m0.hFace h ∧ m.hBd h = m0.hBd h

theorem addNewTriangle_ok {m0 m : Mesh F} {hs : List Nat} {s : HeMaps} {done : List Tri3}
    (hb : ∀ h, m0.hAlive h = true → 0 < h ∧ h < m0.hFresh) (fb : ∀ g, m0.fAlive g = true → g < m0.fFresh)
    (ha : ∀ h ∈ hs, m0.hAlive h = true) (I : MapInv m0 hs s m) (L : LinkInv m0 hs done s m) {t : Tri3}
    (ht : t.1 < hs.length ∧ t.2.1 < hs.length ∧ t.2.2 < hs.length)
    (nd : (allDirs (done ++ [t])).Nodup) :
    ∃ s' m', addNewTriangle (hs.map m0.hSrc) t s m = .ok (m.fFresh, s') m' ∧ MapInv m0 hs s' m' ∧ LinkInv m0 hs (done ++ [t]) s' m' ∧
      (∀ e h, s.pair2he.lookup e = some h → s'.pair2he.lookup e = some h) := by
  obtain ⟨i0, i1, i2⟩ := t
  dsimp only at ht
  rw [allDirs_append, allDirs_cons, List.nodup_append] at nd
  obtain ⟨nd1, nd2, nd3⟩ := nd
  have nd2' : (i0, i1) ≠ (i1, i2) ∧ (i0, i1) ≠ (i2, i0) ∧ (i1, i2) ≠ (i2, i0) := by
    simp only [dirs, allDirs, List.flatMap_nil, List.append_nil, List.nodup_cons, List.mem_cons, List.not_mem_nil, or_false] at nd2
    exact ⟨fun e => nd2.1 (.inl e), fun e => nd2.1 (.inr e), fun e => nd2.2.1 e⟩
  have fresh : ∀ e ∈ dirs (i0, i1, i2), e ∉ allDirs done := fun e he hd => nd3 e hd e (by simp [allDirs, he]) rfl
  obtain ⟨a, s1, m1, r1, I1, k1, o1, l1, q1⟩ := pairHalfedge_ok hb I ha i0 i1
  obtain ⟨b, s2, m2, r2, I2, k2, o2, l2, q2⟩ := pairHalfedge_ok hb I1 ha i1 i2
  obtain ⟨c, s3, m3, r3, I3, k3, o3, l3, q3⟩ := pairHalfedge_ok hb I2 ha i2 i0
  have k2' : s3.pair2he.lookup (i1, i2) = some b := by rw [o3 _ nd2'.2.2, k2]
  have k1' : s3.pair2he.lookup (i0, i1) = some a := by rw [o3 _ nd2'.2.1, o2 _ nd2'.1, k1]
  have aa := I3.alive ha k1'
  have ab := I3.alive ha k2'
  have ac := I3.alive ha k3
  have nab : a ≠ b := fun e => nd2'.1 (I3.inj k1' (e ▸ k2'))
  have nac : a ≠ c := fun e => nd2'.2.1 (I3.inj k1' (e ▸ k3))
  have nbc : b ≠ c := fun e => nd2'.2.2 (I3.inj k2' (e ▸ k3))
  have ls := (l1.trans l2).trans l3
  have g0 : m3.fFresh = m.fFresh := ls.fFr
  have b0 := List.getElem?_eq_getElem ht.1
  have b1 := List.getElem?_eq_getElem ht.2.1
  have b2 := List.getElem?_eq_getElem ht.2.2
  have keep : ∀ e h, s.pair2he.lookup e = some h → s3.pair2he.lookup e = some h :=
    fun e h he => q3 e h (q2 e h (q1 e h he))
  have af : m3.fAlive m3.fFresh = false := by
    rw [Bool.eq_false_iff, ls.fAlive, g0]
    intro h
    rcases (L.fal _).1 h with h | h
    · have := fb _ h; have := L.fFr; omega
    · omega
  have other : ∀ e, e ∉ dirs (i0, i1, i2) → s3.pair2he.lookup e = s.pair2he.lookup e := by
    intro e he
    rw [mem_dirs] at he
    rw [o3 _ (fun h => he (.inr (.inr h))), o2 _ (fun h => he (.inr (.inl h))), o1 _ (fun h => he (.inl h))]
  refine ⟨s3, { m3 with
    hSrc := upd (upd (upd m3.hSrc a (m0.hSrc hs[i0])) b (m0.hSrc hs[i1])) c (m0.hSrc hs[i2])
    hNext := upd (upd (upd m3.hNext a b) b c) c a
    hBd := upd (upd (upd m3.hBd a false) b false) c false
    fAlive := upd m3.fAlive m3.fFresh true
    fHe := upd (upd m3.fHe m3.fFresh 0) m3.fFresh a
    fIdx := upd (upd m3.fIdx m3.fFresh (-1)) m3.fFresh (m3.fs.length : Int)
    fs := m3.fs ++ [m3.fFresh]
    fFresh := m3.fFresh + 1
    hFace := upd (upd (upd m3.hFace a m3.fFresh) b m3.fFresh) c m3.fFresh }, ?_, ?_, ?_, ?_⟩
  · simp only [addNewTriangle, bind_apply, r1, r2, r3]
    simp only [boundaryAt, List.getElem?_map, b0, b1, b2, Option.map_some, pure_apply, setSrc, setNext, setBd, newFace, setFace, setFHe, aa, ab, ac, if_true]
    rw [addFace_ok (by exact upd_same _ _ _)]
    simp only [aa, ab, ac, if_true, upd_same, g0]
  · exact ⟨I3.hD, I3.hal, I3.hFr, I3.back, I3.side, I3.new, I3.surj, I3.rev0, I3.rev, I3.len, I3.v.trans ⟨rfl, rfl, rfl, rfl, rfl, rfl, rfl⟩⟩
  · have lt : ∀ e x, s.pair2he.lookup e = some x → x < m.hFresh := by
      intro e x hx
      rcases (I.hal x).1 (I.alive ha hx) with h | h
      · exact lt_of_lt_of_le (hb x h).2 I.hFr
      · exact h.2
    have apart : ∀ e x, e ∉ dirs (i0, i1, i2) → s3.pair2he.lookup e = some x → x ≠ a ∧ x ≠ b ∧ x ≠ c := by
      intro e x he hx
      rw [mem_dirs] at he
      refine ⟨?_, ?_, ?_⟩
      · rintro rfl; exact he (.inl (I3.inj hx k1'))
      · rintro rfl; exact he (.inr (.inl (I3.inj hx k2')))
      · rintro rfl; exact he (.inr (.inr (I3.inj hx k3)))
    have len : m3.fs.length = m.fs.length := by rw [ls.fs]
    refine ⟨?_, ?_, ?_, ?_, ?_, ?_, ?_, ?_⟩
    · intro e
      rw [allDirs_append, List.mem_append]
      by_cases he : e ∈ dirs (i0, i1, i2)
      · have : (s3.pair2he.lookup e).isSome := by
          rw [mem_dirs] at he
          rcases he with rfl | rfl | rfl
          · rw [k1']; rfl
          · rw [k2']; rfl
          · rw [k3]; rfl
        simp [this, allDirs, he]
      · rw [other e he, L.keys]
        simp [allDirs, he]
    · have := L.fD.push (x := m3.fFresh) (by rw [← ls.fAlive]; exact af)
      have e : upd (upd m3.fIdx m3.fFresh (-1)) m3.fFresh (m3.fs.length : Int) = upd m.fIdx m3.fFresh (m.fs.length : Int) := by
        funext x
        by_cases e : x = m3.fFresh <;> simp [upd, e, len, ls.fIdx]
      dsimp only
      rw [e, ls.fAlive, ls.fs]
      exact this
    · intro g
      dsimp only
      have := L.fFr
      by_cases e : g = m3.fFresh
      · subst e
        rw [upd_same]
        simp only [true_iff]
        right; omega
      · rw [upd_ne _ _ e, ls.fAlive, L.fal]
        constructor
        · rintro (h | h)
          · exact .inl h
          · right; omega
        · rintro (h | h)
          · exact .inl h
          · right; omega
    · dsimp only
      rw [g0, L.fFr, List.length_append, List.length_singleton]
      omega
    · dsimp only
      rw [ls.fs, L.fs, List.length_append, List.length_singleton, List.range'_concat, g0, L.fFr, List.append_assoc, Nat.one_mul]
    · intro g hg
      dsimp only
      have := L.fFr
      rw [upd_ne _ _ (by omega), upd_ne _ _ (by omega), ls.fHe, L.fHe g hg]
    · intro j t ht'
      by_cases hj : j < done.length
      · rw [List.getElem?_append_left hj] at ht'
        obtain ⟨x, y, z, d⟩ := L.tri j t ht'
        have mem : t ∈ done := List.mem_of_getElem? ht'
        have nx : (t.1, t.2.1) ∉ dirs (i0, i1, i2) := fun h => fresh _ h (mem_allDirs.2 ⟨t, mem, by simp [dirs]⟩)
        have ny : (t.2.1, t.2.2) ∉ dirs (i0, i1, i2) := fun h => fresh _ h (mem_allDirs.2 ⟨t, mem, by simp [dirs]⟩)
        have nz : (t.2.2, t.1) ∉ dirs (i0, i1, i2) := fun h => fresh _ h (mem_allDirs.2 ⟨t, mem, by simp [dirs]⟩)
        obtain ⟨x1, x2, x3⟩ := apart _ x nx (keep _ _ d.la)
        obtain ⟨y1, y2, y3⟩ := apart _ y ny (keep _ _ d.lb)
        obtain ⟨z1, z2, z3⟩ := apart _ z nz (keep _ _ d.lc)
        have lx := lt _ _ d.la
        have ly := lt _ _ d.lb
        have lz := lt _ _ d.lc
        have hg : m0.fFresh + j ≠ m3.fFresh := by rw [g0, L.fFr]; omega
        refine ⟨x, y, z, ⟨keep _ _ d.la, keep _ _ d.lb, keep _ _ d.lc, ?_, ?_, ?_, ?_, ?_, ?_, ?_, ?_, ?_, ?_, ?_, ?_, ?_⟩⟩ <;> dsimp only
        · rw [upd_ne _ _ x3, upd_ne _ _ x2, upd_ne _ _ x1, ls.next x lx, d.na]
        · rw [upd_ne _ _ y3, upd_ne _ _ y2, upd_ne _ _ y1, ls.next y ly, d.nb]
        · rw [upd_ne _ _ z3, upd_ne _ _ z2, upd_ne _ _ z1, ls.next z lz, d.nc]
        · rw [upd_ne _ _ x3, upd_ne _ _ x2, upd_ne _ _ x1, ls.face x lx, d.fa]
        · rw [upd_ne _ _ y3, upd_ne _ _ y2, upd_ne _ _ y1, ls.face y ly, d.fb]
        · rw [upd_ne _ _ z3, upd_ne _ _ z2, upd_ne _ _ z1, ls.face z lz, d.fc]
        · rw [upd_ne _ _ x3, upd_ne _ _ x2, upd_ne _ _ x1, ls.bd x lx, d.ba]
        · rw [upd_ne _ _ y3, upd_ne _ _ y2, upd_ne _ _ y1, ls.bd y ly, d.bb]
        · rw [upd_ne _ _ z3, upd_ne _ _ z2, upd_ne _ _ z1, ls.bd z lz, d.bc]
        · rw [upd_ne _ _ x3, upd_ne _ _ x2, upd_ne _ _ x1, ls.src x lx, d.sa]
        · rw [upd_ne _ _ y3, upd_ne _ _ y2, upd_ne _ _ y1, ls.src y ly, d.sb]
        · rw [upd_ne _ _ z3, upd_ne _ _ z2, upd_ne _ _ z1, ls.src z lz, d.sc]
        · rw [upd_ne _ _ hg, upd_ne _ _ hg, ls.fHe, d.fh]
      · have hj' : j = done.length := by
          have := (List.getElem?_eq_some_iff.1 ht').1
          rw [List.length_append, List.length_singleton] at this
          omega
        subst hj'
        rw [List.getElem?_append_right (Nat.le_refl _), Nat.sub_self] at ht'
        cases Option.some.inj ht'
        have hg : m0.fFresh + done.length = m3.fFresh := by rw [g0, L.fFr]
        rw [hg]
        refine ⟨a, b, c, ⟨k1', k2', k3, ?_, ?_, ?_, ?_, ?_, ?_, ?_, ?_, ?_, ?_, ?_, ?_, ?_⟩⟩ <;>
          simp [upd, nab, nac, nbc, nab.symm, nac.symm, nbc.symm, b0, b1, b2]
    · intro h hh hd
      have key : ∀ e ∈ dirs (i0, i1, i2), s3.pair2he.lookup e ≠ some h := fun e he =>
        hd e (by rw [allDirs_append, List.mem_append]; right; simp [allDirs, he])
      have ha1 : h ≠ a := by rintro rfl; exact key _ (by simp [dirs]) k1'
      have hb1 : h ≠ b := by rintro rfl; exact key _ (by simp [dirs]) k2'
      have hc1 : h ≠ c := by rintro rfl; exact key _ (by simp [dirs]) k3
      have hm : h < m.hFresh := lt_of_lt_of_le hh I.hFr
      obtain ⟨p1, p2, p3, p4⟩ := L.old h hh (fun e he => by
        rw [← other e (fun h' => fresh e h' he)]
        exact hd e (by rw [allDirs_append, List.mem_append]; left; exact he))
      dsimp only
      simp only [upd_ne _ _ ha1, upd_ne _ _ hb1, upd_ne _ _ hc1]
      exact ⟨(ls.src h hm).trans p1, (ls.next h hm).trans p2, (ls.face h hm).trans p3, (ls.bd h hm).trans p4⟩
  · exact keep

/-- the loop over all triangles -/
theorem addTriangles_ok {m0 : Mesh F} {hs : List Nat}
    (hb : ∀ h, m0.hAlive h = true → 0 < h ∧ h < m0.hFresh) (fb : ∀ g, m0.fAlive g = true → g < m0.fFresh)
    (ha : ∀ h ∈ hs, m0.hAlive h = true) : ∀ (ts done : List Tri3) (s : HeMaps) (m : Mesh F) (fs : List Nat),
    MapInv m0 hs s m → LinkInv m0 hs done s m →
    (∀ t ∈ ts, t.1 < hs.length ∧ t.2.1 < hs.length ∧ t.2.2 < hs.length) → (allDirs (done ++ ts)).Nodup →
    fs = List.range' m0.fFresh done.length →
    ∃ s' m', addTriangles (hs.map m0.hSrc) ts fs s m = .ok (List.range' m0.fFresh (done ++ ts).length, s') m' ∧
      MapInv m0 hs s' m' ∧ LinkInv m0 hs (done ++ ts) s' m' := by
  intro ts
  induction ts with
  | nil =>
    intro done s m fs I L _ _ e
    rw [List.append_nil, ← e]
    exact ⟨s, m, rfl, I, L⟩
  | cons t ts ih =>
    intro done s m fs I L hr nd e
    have e1 : done ++ t :: ts = (done ++ [t]) ++ ts := by simp
    rw [e1] at nd ⊢
    obtain ⟨s', m', r, I', L', _⟩ := addNewTriangle_ok hb fb ha I L (hr t List.mem_cons_self) (by
      rw [allDirs_append] at nd
      exact (List.nodup_append.1 nd).1)
    obtain ⟨s2, m2, r2, I2, L2⟩ := ih (done ++ [t]) s' m' (fs ++ [m.fFresh]) I' L' (fun t' h => hr t' (List.mem_cons_of_mem _ h)) nd (by
      rw [List.length_append, List.length_singleton, List.range'_concat, Nat.one_mul, e, L.fFr])
    refine ⟨s2, m2, ?_, I2, L2⟩
    simp only [addTriangles, bind_apply, r]
    exact r2

end TinyMesh
