import Verif.Proof.ConE
/-
`construct`, third loop: all boundary cycles.
-/
set_option linter.unusedSimpArgs false
namespace TinyMesh
open Orbit
variable {F : Type} {m m' m0 : Mesh F}

theorem CI.unprocessed (T : TriMesh m0) {g : Nat → Nat} (S : BSucc m0 g) (C : CI m0 g m) {he : Nat} (b : m0.Bnd he)
    (hr : m.hRev he = 0) (n : Nat) : m.hRev (g^[n] he) = 0 := by
  by_contra hne
  have pm := S.perm T
  obtain ⟨k, hk⟩ := pm.back b n
  have : ∀ j, m.hRev (g^[j] (g^[n] he)) ≠ 0 := by
    intro j
    induction j with
    | zero => exact hne
    | succ j ih =>
      rw [Function.iterate_succ_apply']
      exact C.closed _ (pm.iter (pm.iter b n) j) ih
  exact this k (by rw [hk]; exact hr)

theorem closeOne_spec (T : TriMesh m0) {g : Nat → Nat} (S : BSucc m0 g) (C : CI m0 g m) {he : Nat} (a : m0.HA he) :
    (∃ m', closeOne he m = .ok () m' ∧ CI m0 g m' ∧ m'.hRev he ≠ 0 ∧
      (∀ h, m0.HA h → m.hRev h ≠ 0 → m'.hRev h ≠ 0)) ∨
    (closeOne he m = .err .ub ∧ m0.hCap < m0.hes.length + m0.nBnd) := by
  have am : m.hAlive he = true := (C.hal he).2 (Or.inl a)
  have hne0 : (he != 0) = true := by simpa using T.ne0 a
  by_cases hr : m.hRev he = 0
  swap
  · left
    refine ⟨m, ?_, C, hr, fun _ _ h => h⟩
    unfold closeOne
    simp only [bind_apply, assert_true hne0, read_apply, getRev_ok am, hr, if_false, pure_apply]
  have b : m0.Bnd he := by
    refine ⟨a, ?_⟩
    by_contra h
    rw [(C.rT he a h).1] at hr
    exact h hr
  have pm := S.perm T
  have un := C.unprocessed T S b hr
  obtain ⟨p0, p1, p2⟩ := pm.period_spec b
  have hfree : m.fAlive m.fFresh = false := by
    cases h : m.fAlive m.fFresh with
    | false => rfl
    | true =>
      rcases (C.fal _).1 h with h | h
      · have := (T.fB _ h).2; have := C.fFresh; omega
      · omega
  have hBm : ∀ h, m.hAlive h = true → h < m.hFresh := by
    intro h ah
    rcases (C.hal h).1 ah with h1 | h1
    · have := (T.hB _ h1).2; have := C.hFresh; omega
    · omega
  -- the state after creating the hole face
  obtain ⟨mf, hmf⟩ : ∃ mf : Mesh F, mf = { m with
    fAlive := upd m.fAlive m.fFresh true
    fHe := upd m.fHe m.fFresh 0
    fIdx := upd (upd m.fIdx m.fFresh (-1)) m.fFresh (m.fs.length : Int)
    fs := m.fs ++ [m.fFresh]
    fFresh := m.fFresh + 1 } := ⟨_, rfl⟩
  have P : LoopPre m0 mf g he := by
    subst hmf
    exact ⟨hBm, C.hFresh, fun h ah => (C.hal h).2 (Or.inl ah), C.nT, C.sT, fun h ah hh => (C.rT h ah hh).1, un, b⟩
  have L0 : HL m0 mf mf (fun j => g^[j] he) m.fFresh 0 := HL.refl m0 mf _ _ (by subst hmf; exact C.hd)
  have hfu : period g he ≤ mf.hFresh := by
    have := pm.period_le b
    have := P.fr
    omega
  have run : ∀ X, holeLoop mf.hEpoch he m.fFresh mf.hFresh he [] mf = X →
      closeOne he m = (match X with
        | .ok bs m2 => (setFHe m.fFresh (bs.headD 0) >>= fun _ => linkHole (bs.getLastD 0) bs) m2
        | .err e => .err e) := by
    intro X hX
    have q : holeLoop m.hEpoch he m.fFresh m.hFresh he [] mf = X := by
      rw [← hX, hmf]
    unfold closeOne
    simp only [bind_apply, assert_true hne0, read_apply, getRev_ok am, hr, if_true, newFace]
    rw [addFace_ok (by simp [upd])]
    rw [← hmf]
    simp only [bind_apply, read_apply]
    have hm1 : mf.hFresh = m.hFresh := by rw [hmf]
    rw [hm1, q]
    cases X <;> rfl
  rcases holeLoop_ok T S P (period g he) 0 mf.hFresh mf L0 (by omega) p0 hfu with ⟨mp, e, L⟩ | ⟨e, j, hj, hcap⟩
  swap
  · right
    have := run _ e
    rw [this]
    refine ⟨rfl, ?_⟩
    have hc := C.count T ((List.range (period g he)).map (fun i => g^[i] he)) (pm.nodup_orbit b) (by
      intro x hx
      obtain ⟨i, _, rfl⟩ := List.mem_map.1 hx
      exact ⟨pm.iter b i, un i⟩)
    rw [List.length_map, List.length_range] at hc
    have h1 : mf.hCap = m0.hCap := by rw [hmf]; exact C.hCap
    have h2 : mf.hes.length = m0.hes.length + (m.hFresh - m0.hFresh) := by
      rw [hmf]; simp only; rw [C.hes]; simp
    omega
  · left
    obtain ⟨q, hq⟩ : ∃ q, period g he = q + 1 := ⟨period g he - 1, by omega⟩
    have hH : mf.hFresh = m.hFresh := by rw [hmf]
    have hG : mf.fFresh = m.fFresh + 1 := by rw [hmf]
    have hd1 : (List.range' mf.hFresh (period g he)).headD 0 = m.hFresh := by
      rw [hq, hH, List.range'_succ]; rfl
    have hd2 : (List.range' mf.hFresh (period g he)).getLastD 0 = m.hFresh + q := by
      rw [hq, hH, List.range'_concat]; simp
    have fal : mp.fAlive m.fFresh = true := by rw [L.fAlive, hmf]; exact upd_same _ _ _
    obtain ⟨mq, hmq⟩ : ∃ mq : Mesh F, mq = { mp with fHe := upd mp.fHe m.fFresh m.hFresh } := ⟨_, rfl⟩
    have alnew : ∀ x ∈ List.range' mf.hFresh (period g he), mq.hAlive x = true := by
      intro x hx
      rw [List.mem_range'_1] at hx
      rw [hmq]
      exact (L.hal x).2 (Or.inr hx)
    obtain ⟨N, eN, N1, N2⟩ := linkHole_ok (List.range' mf.hFresh (period g he)) (m.hFresh + q) mq List.nodup_range' alnew
    have exec : closeOne he m = .ok () { mq with hNext := N } := by
      rw [run _ e]
      simp only [bind_apply, hd1, hd2, setFHe, fal, if_true, ← hmq]
      exact eN
    refine ⟨_, exec, ?_, ?_, ?_⟩
    · -- the invariant
      have hF' : mp.hFresh = m.hFresh + period g he := by rw [L.hFresh, hH]
      have fF' : mp.fFresh = m.fFresh + 1 := by rw [L.fFresh, hG]
      have cF := C.hFresh
      have cG := C.fFresh
      have hcases : ∀ h, m0.hFresh ≤ h → h < mp.hFresh → h < m.hFresh ∨ ∃ j, j < period g he ∧ h = m.hFresh + j := by
        intro h h1 h2
        by_cases c : h < m.hFresh
        · exact Or.inl c
        · exact Or.inr ⟨h - m.hFresh, by omega, by omega⟩
      have old : ∀ h, h < m.hFresh → mp.hSrc h = m.hSrc h ∧ N h = m.hNext h ∧ mp.hFace h = m.hFace h := by
        intro h hlt
        obtain ⟨o1, o2, o3⟩ := L.old h (by rw [hH]; exact hlt)
        have o2' : N h = mp.hNext h := by
          rw [N1 h (by rw [List.mem_range'_1, hH]; omega), hmq]
        rw [o1, o2', o2, o3, hmf]
        exact ⟨rfl, rfl, rfl⟩
      have oldR : ∀ h, h < m.hFresh → (∀ j, j < period g he → h ≠ g^[j] he) → mp.hRev h = m.hRev h ∧ mp.hBd h = m.hBd h := by
        intro h hlt hne
        obtain ⟨o1, o2⟩ := L.oldRev h (by rw [hH]; exact hlt) hne
        rw [o1, o2, hmf]; exact ⟨rfl, rfl⟩
      have new : ∀ j, j < period g he → mp.hRev (m.hFresh + j) = g^[j] he ∧ mp.hBd (m.hFresh + j) = true ∧
          mp.hSrc (m.hFresh + j) = m0.hSrc (m0.hNext (g^[j] he)) ∧ mp.hFace (m.hFresh + j) = m.fFresh := by
        intro j hj
        have := L.new j hj
        rw [hH] at this
        exact this
      have revIt : ∀ j, j < period g he → mp.hRev (g^[j] he) = m.hFresh + j ∧ mp.hBd (g^[j] he) = true := by
        intro j hj
        have := L.revIt j hj
        rw [hH] at this
        exact this
      have lt0 : ∀ h, m0.HA h → h < m.hFresh := fun h ah => by have := (T.hB h ah).2; omega
      have notB : ∀ h, m0.hRev h ≠ 0 → ∀ j, j < period g he → h ≠ g^[j] he := by
        intro h hh j _ e; exact hh (e ▸ (pm.iter b j).2)
      -- rev of old holes is not in the orbit
      have holeNot : ∀ x, m0.hFresh ≤ x → x < m.hFresh → (∀ j, j < period g he → x ≠ g^[j] he) ∧
          (∀ j, j < period g he → m.hRev x ≠ g^[j] he) := by
        intro x h1 h2
        refine ⟨fun j _ e => ?_, fun j _ e => ?_⟩
        · have := (T.hB _ (pm.iter b j).1).2; omega
        · have h3 := (C.holeRev x h1 h2).2.1
          rw [e, un j] at h3
          have := T.h0
          omega
      have nextNew : ∀ j, j < period g he → ∃ i, i < period g he ∧ N (m.hFresh + j) = m.hFresh + i ∧ g (g^[i] he) = g^[j] he := by
        intro j hj
        have hj' : (List.range' mf.hFresh (period g he))[j]? = some (m.hFresh + j) := by
          rw [List.getElem?_range' hj, hH]; simp
        obtain ⟨w1, w2⟩ := N2 j _ hj'
        cases j with
        | zero =>
          refine ⟨q, by omega, w1 rfl, ?_⟩
          rw [← Function.iterate_succ_apply' g, show q.succ = period g he by omega]; exact p1
        | succ j =>
          refine ⟨j, by omega, w2 j _ rfl (by rw [List.getElem?_range' (by omega), hH]; simp), ?_⟩
          rw [← Function.iterate_succ_apply' g]
      have cls : ∀ it, m0.Bnd it → (∃ j, j < period g he ∧ it = g^[j] he) ∨ (∀ j, j < period g he → it ≠ g^[j] he) := by
        intro it _
        by_cases c : ∃ j, j < period g he ∧ it = g^[j] he
        · exact Or.inl c
        · exact Or.inr (fun j hj e => c ⟨j, hj, e⟩)
      have e0 := hmq
      subst e0
      constructor
      case vAlive => simp only; rw [L.vAlive, hmf]; exact C.vAlive
      case vPos => simp only; rw [L.vPos, hmf]; exact C.vPos
      case vIdx => simp only; rw [L.vIdx, hmf]; exact C.vIdx
      case vLock => simp only; rw [L.vLock, hmf]; exact C.vLock
      case vs => simp only; rw [L.vs, hmf]; exact C.vs
      case vFresh => simp only; rw [L.vFresh, hmf]; exact C.vFresh
      case vHe => simp only; rw [L.vHe, hmf]; exact C.vHe
      case indices => simp only; rw [L.indices, hmf]; exact C.indices
      case hCap => simp only; rw [L.hCap, hmf]; exact C.hCap
      case cap => intro h; exact L.cap (by rw [hmf]; exact C.cap h)
      case hFresh => simp only; omega
      case fFresh => simp only; omega
      case hes =>
        simp only
        rw [L.hes, hmf]
        simp only
        rw [C.hes, List.append_assoc, hF', show m.hFresh + period g he - m0.hFresh = (m.hFresh - m0.hFresh) + period g he by omega,
          ← List.range'_append_1, show m0.hFresh + (m.hFresh - m0.hFresh) = m.hFresh by omega]
      case hd => exact L.hd
      case fd =>
        simp only
        rw [L.fAlive, L.fIdx, L.fs, hmf]
        refine (C.fd.push hfree).congr (fun _ => rfl) ?_
        intro p _
        simp only [upd]
        by_cases h : p = m.fFresh <;> simp [h]
      case fs =>
        simp only
        rw [L.fs, hmf]
        simp only
        rw [C.fs, List.append_assoc, fF', show m.fFresh + 1 - m0.fFresh = (m.fFresh - m0.fFresh) + 1 by omega,
          List.range'_concat]
        simp; omega
      case hal =>
        intro h
        simp only
        rw [L.hal, hH, hF']
        have : mf.hAlive h = m.hAlive h := by rw [hmf]
        rw [this, C.hal]
        constructor
        · rintro ((h1 | h1) | h1)
          · exact Or.inl h1
          · exact Or.inr (by omega)
          · exact Or.inr (by omega)
        · rintro (h1 | h1)
          · exact Or.inl (Or.inl h1)
          · by_cases c : h < m.hFresh
            · exact Or.inl (Or.inr (by omega))
            · exact Or.inr (by omega)
      case fal =>
        intro f
        simp only
        rw [L.fAlive, fF', hmf]
        simp only
        by_cases c : f = m.fFresh
        · subst c; rw [upd_same]; exact ⟨fun _ => Or.inr (by omega), fun _ => rfl⟩
        · rw [upd_ne _ _ c, C.fal]
          constructor
          · rintro (h1 | h1)
            · exact Or.inl h1
            · exact Or.inr (by omega)
          · rintro (h1 | h1)
            · exact Or.inl h1
            · exact Or.inr (by omega)
      case nT => intro h ah; simp only; rw [(old h (lt0 h ah)).2.1, C.nT h ah]
      case sT => intro h ah; simp only; rw [(old h (lt0 h ah)).1, C.sT h ah]
      case fT => intro h ah; simp only; rw [(old h (lt0 h ah)).2.2, C.fT h ah]
      case rT =>
        intro h ah hh
        simp only
        obtain ⟨o1, o2⟩ := oldR h (lt0 h ah) (notB h hh)
        rw [o1, o2]; exact C.rT h ah hh
      case rB =>
        intro h bh
        simp only
        rcases cls h bh with ⟨j, hj, rfl⟩ | hno
        · right
          obtain ⟨r1, r2⟩ := revIt j hj
          rw [r1, (new j hj).1]
          exact ⟨by omega, by omega, rfl, r2⟩
        · obtain ⟨o1, o2⟩ := oldR h (lt0 h bh.1) hno
          rw [o1, o2]
          rcases C.rB h bh with h1 | ⟨h1, h2, h3, h4⟩
          · exact Or.inl h1
          · right
            refine ⟨h1, by omega, ?_, h4⟩
            rw [(oldR _ h2 (holeNot _ h1 h2).1).1]; exact h3
      case holeRev =>
        intro x h1 h2
        simp only at h2 ⊢
        rcases hcases x h1 h2 with c | ⟨j, hj, rfl⟩
        · obtain ⟨n1, n2⟩ := holeNot x h1 c
          obtain ⟨o1, o2⟩ := oldR x c n1
          obtain ⟨c1, c2, c3, c4⟩ := C.holeRev x h1 c
          rw [o1, o2, (oldR _ (lt0 _ c1.1) n2).1, (old x c).1]
          exact ⟨c1, c2, c3, c4⟩
        · obtain ⟨w1, w2, w3, w4⟩ := new j hj
          rw [w1, w2, w3, (revIt j hj).1]
          exact ⟨pm.iter b j, rfl, rfl, rfl⟩
      case holeNext =>
        intro x h1 h2
        simp only at h2 ⊢
        rcases hcases x h1 h2 with c | ⟨j, hj, rfl⟩
        · obtain ⟨n1, n2⟩ := holeNot x h1 c
          obtain ⟨c1, c2, c3, c4⟩ := C.holeNext x h1 c
          rw [(old x c).2.1, (oldR x c n1).1, (oldR _ c2 (holeNot _ c1 c2).1).1, (old _ c2).2.2, (old x c).2.2]
          exact ⟨c1, by omega, c3, c4⟩
        · obtain ⟨i, hi, e1, e2⟩ := nextNew j hj
          rw [e1, (new j hj).1, (new i hi).1, (new i hi).2.2.2, (new j hj).2.2.2]
          exact ⟨by omega, by omega, e2.symm, rfl⟩
      case holeFace =>
        intro x h1 h2
        simp only at h2 ⊢
        rcases hcases x h1 h2 with c | ⟨j, hj, rfl⟩
        · rw [(old x c).2.2]
          have := C.holeFace x h1 c
          omega
        · rw [(new j hj).2.2.2]; omega
      case holeConn =>
        intro x y h1 h2 h3 h4 ef
        simp only at h2 h4 ef ⊢
        rcases hcases x h1 h2 with c | ⟨j, hj, rfl⟩
        · rcases hcases y h3 h4 with c' | ⟨j', hj', rfl⟩
          · rw [(old x c).2.2, (old y c').2.2] at ef
            rw [(oldR x c (holeNot x h1 c).1).1, (oldR y c' (holeNot y h3 c').1).1]
            exact C.holeConn x y h1 c h3 c' ef
          · rw [(old x c).2.2, (new j' hj').2.2.2] at ef
            have := C.holeFace x h1 c
            omega
        · rcases hcases y h3 h4 with c' | ⟨j', hj', rfl⟩
          · rw [(old y c').2.2, (new j hj).2.2.2] at ef
            have := C.holeFace y h3 c'
            omega
          · rw [(new j hj).1, (new j' hj').1]
            obtain ⟨k, hk⟩ := pm.back b j
            refine ⟨j' + k, ?_⟩
            rw [Function.iterate_add_apply, hk]
      case closed =>
        intro it bit
        simp only
        intro hne
        have bg := S.bnd it bit
        rcases cls (g it) bg with ⟨j, hj, e⟩ | hno
        · rw [e, (revIt j hj).1]; omega
        · rw [(oldR _ (lt0 _ bg.1) hno).1]
          rcases cls it bit with ⟨j, hj, e⟩ | hno'
          · exfalso
            subst e
            by_cases c : j + 1 < period g he
            · exact hno (j + 1) c (Function.iterate_succ_apply' g j he).symm
            · have : g (g^[j] he) = g^[0] he := by
                rw [← Function.iterate_succ_apply' g, show j.succ = period g he by omega]; exact p1
              exact hno 0 p0 this
          · rw [(oldR _ (lt0 _ bit.1) hno').1] at hne
            exact C.closed it bit hne
      case fOld =>
        intro f af
        simp only
        have : f ≠ m.fFresh := by have := (T.fB f af).2; omega
        rw [upd_ne _ _ this, L.fHe, hmf]
        simp only
        rw [upd_ne _ _ this]
        exact C.fOld f af
      case fNew =>
        intro f h1 h2
        simp only at h2 ⊢
        by_cases c : f = m.fFresh
        · subst c
          rw [upd_same]
          have := (new 0 p0).2.2.2
          exact ⟨by omega, by omega, this⟩
        · rw [upd_ne _ _ c, L.fHe, hmf]
          simp only
          rw [upd_ne _ _ c]
          obtain ⟨c1, c2, c3⟩ := C.fNew f h1 (by omega)
          refine ⟨c1, by omega, ?_⟩
          rw [(old _ c2).2.2]; exact c3
    · subst hmq
      simp only
      have := (L.revIt 0 p0).1
      have h0 := T.h0
      have hfr := P.fr
      have e0 : g^[0] he = he := rfl
      simp only [e0] at this
      omega
    · intro h ah hh
      subst hmq
      simp only
      by_cases c : ∃ j, j < period g he ∧ h = g^[j] he
      · obtain ⟨j, hj, rfl⟩ := c
        exact absurd (un j) hh
      · rw [(L.oldRev h (P.hB _ (P.al _ ah)) (fun j hj e => c ⟨j, hj, e⟩)).1, hmf]
        exact hh

theorem closeAll_spec (T : TriMesh m0) {g : Nat → Nat} (S : BSucc m0 g) : ∀ (l : List Nat) (m : Mesh F), CI m0 g m →
    (∀ h ∈ l, m0.HA h) →
    (∃ m', closeAll l m = .ok () m' ∧ CI m0 g m' ∧ (∀ h ∈ l, m'.hRev h ≠ 0) ∧
      (∀ h, m0.HA h → m.hRev h ≠ 0 → m'.hRev h ≠ 0)) ∨
    (closeAll l m = .err .ub ∧ m0.hCap < m0.hes.length + m0.nBnd) := by
  intro l
  induction l with
  | nil => intro m C _; exact Or.inl ⟨m, rfl, C, by simp, fun _ _ h => h⟩
  | cons h l ih =>
    intro m C hl
    rcases closeOne_spec T S C (hl h (by simp)) with ⟨m1, e, C1, h1, h2⟩ | ⟨e, hc⟩
    · rcases ih m1 C1 (fun x hx => hl x (by simp [hx])) with ⟨m2, e2, C2, h3, h4⟩ | ⟨e2, hc⟩
      · left
        refine ⟨m2, ?_, C2, ?_, fun x ax hx => h4 x ax (h2 x ax hx)⟩
        · simp only [closeAll, bind_apply, e, e2]
        · intro x hx
          rcases List.mem_cons.1 hx with rfl | hx
          · exact h4 _ (hl _ (by simp)) h1
          · exact h3 x hx
      · right
        exact ⟨by simp only [closeAll, bind_apply, e, e2], hc⟩
    · right
      exact ⟨by simp only [closeAll, bind_apply, e], hc⟩

end TinyMesh
