import Verif.Proof.ConD
/-
`construct`, third loop: one hole face per boundary cycle.
-/
set_option linter.unusedSimpArgs false
namespace TinyMesh
open Orbit
variable {F : Type} {m m' m0 : Mesh F}

/-- half-edges without counterpart -/
def Mesh.Bnd (m : Mesh F) (h : Nat) : Prop := m.HA h ∧ m.hRev h = 0

/-- `g` maps each boundary half-edge to the next one along the boundary -/
structure BSucc (m : Mesh F) (g : Nat → Nat) : Prop where
  bnd : ∀ it, m.Bnd it → m.Bnd (g it)
  turn : ∀ it, m.Bnd it → ∃ n, n ≤ m.hFresh ∧ (∀ i, i < n → m.hRev (m.sig^[i] (m.hNext it)) ≠ 0) ∧
    (∀ i, i ≤ n → m.HA (m.sig^[i] (m.hNext it))) ∧ g it = m.sig^[n] (m.hNext it)

theorem TriMesh.no_pred (T : TriMesh m) {it y : Nat} (b : m.Bnd it) (ay : m.HA y) (ry : m.hRev y ≠ 0) :
    m.sig y ≠ m.hNext it := by
  intro e
  have h1 := T.next_inj (T.rev_alive y ay ry) b.1 e
  have h2 := T.rev_rev y ay ry
  rw [h1, b.2] at h2
  exact T.ne0 ay h2.symm

theorem TriMesh.exists_succ (T : TriMesh m) : ∃ g, BSucc m g := by
  classical
  have hs : ∀ it, ∃ e, m.Bnd it → m.Bnd e ∧ ∃ n, n ≤ m.hFresh ∧ (∀ i, i < n → m.hRev (m.sig^[i] (m.hNext it)) ≠ 0) ∧
      (∀ i, i ≤ n → m.HA (m.sig^[i] (m.hNext it))) ∧ e = m.sig^[n] (m.hNext it) := by
    intro it
    by_cases b : m.Bnd it
    · obtain ⟨n, n1, n2, n3, n4, n5⟩ := T.chain (T.next_alive _ b.1)
      refine ⟨m.sig^[n] (m.hNext it), fun _ => ⟨⟨n4 n (Nat.le_refl _), ?_⟩, n, n1, n2, n4, rfl⟩⟩
      rcases n5 with n5 | ⟨n5, n6⟩
      · exact n5
      · exfalso
        obtain ⟨k, rfl⟩ : ∃ k, n = k + 1 := ⟨n - 1, by omega⟩
        rw [Function.iterate_succ_apply'] at n6
        exact T.no_pred b (n4 k (by omega)) (n2 k (by omega)) n6
    · exact ⟨0, fun h => absurd h b⟩
  choose g hg using hs
  exact ⟨g, fun it b => (hg it b).1, fun it b => (hg it b).2⟩

theorem BSucc.perm {g : Nat → Nat} (S : BSucc m g) (T : TriMesh m) : Perm g m.Bnd m.hFresh where
  maps := S.bnd
  bound := fun x b => (T.hB x b.1).2
  inj := by
    have key : ∀ k n n' x x', n + k = n' → (∀ i, i < n → m.hRev (m.sig^[i] x) ≠ 0) → (∀ i, i ≤ n → m.HA (m.sig^[i] x)) →
        (∀ i, i < n' → m.hRev (m.sig^[i] x') ≠ 0) → (∀ i, i ≤ n' → m.HA (m.sig^[i] x')) →
        m.sig^[n] x = m.sig^[n'] x' → x = m.sig^[k] x' := by
      intro k n
      induction n with
      | zero => intro n' x x' e _ _ _ _ h; subst e; simpa using h
      | succ n ih =>
        intro n' x x' e h1 h2 h3 h4 h
        obtain ⟨n'', rfl⟩ : ∃ c, n' = c + 1 := ⟨n' - 1, by omega⟩
        rw [Function.iterate_succ_apply', Function.iterate_succ_apply'] at h
        refine ih n'' x x' (by omega) (fun i hi => h1 i (by omega)) (fun i hi => h2 i (by omega))
          (fun i hi => h3 i (by omega)) (fun i hi => h4 i (by omega)) ?_
        exact T.sig_inj (h2 n (by omega)) (h4 n'' (by omega)) (h1 n (by omega)) (h3 n'' (by omega)) h
    have half : ∀ x y, m.Bnd x → m.Bnd y → ∀ n n', n ≤ n' → (∀ i, i < n → m.hRev (m.sig^[i] (m.hNext x)) ≠ 0) →
        (∀ i, i ≤ n → m.HA (m.sig^[i] (m.hNext x))) → (∀ i, i < n' → m.hRev (m.sig^[i] (m.hNext y)) ≠ 0) →
        (∀ i, i ≤ n' → m.HA (m.sig^[i] (m.hNext y))) → m.sig^[n] (m.hNext x) = m.sig^[n'] (m.hNext y) → x = y := by
      intro x y bx by' n n' hn h1 h2 h3 h4 h
      have := key (n' - n) n n' _ _ (by omega) h1 h2 h3 h4 h
      by_cases c : n' - n = 0
      · rw [c] at this
        exact T.next_inj bx.1 by'.1 this
      · exfalso
        obtain ⟨k, hk⟩ : ∃ k, n' - n = k + 1 := ⟨n' - n - 1, by omega⟩
        rw [hk, Function.iterate_succ_apply'] at this
        exact T.no_pred bx (h4 k (by omega)) (h3 k (by omega)) this.symm
    intro x y bx by' e
    obtain ⟨n, _, h1, h2, h3⟩ := S.turn x bx
    obtain ⟨n', _, h1', h2', h3'⟩ := S.turn y by'
    rw [h3, h3'] at e
    rcases Nat.le_total n n' with c | c
    · exact half x y bx by' n n' c h1 h2 h1' h2' e
    · exact (half y x by' bx n' n c h1' h2' h1 h2 e.symm).symm

theorem BSucc.src {g : Nat → Nat} (S : BSucc m g) (T : TriMesh m) {it : Nat} (b : m.Bnd it) :
    m.hSrc (g it) = m.hSrc (m.hNext it) := by
  obtain ⟨n, _, h1, h2, h3⟩ := S.turn it b
  rw [h3]
  exact T.chain_src (T.next_alive _ b.1) h1 h2 n (Nat.le_refl _)

/-- the state of the third loop between two half-edges of the array -/
structure CI (m0 : Mesh F) (g : Nat → Nat) (m : Mesh F) : Prop where
  vAlive : m.vAlive = m0.vAlive
  vPos : m.vPos = m0.vPos
  vIdx : m.vIdx = m0.vIdx
  vLock : m.vLock = m0.vLock
  vs : m.vs = m0.vs
  vFresh : m.vFresh = m0.vFresh
  vHe : m.vHe = m0.vHe
  indices : m.indices = m0.indices
  hCap : m.hCap = m0.hCap
  hFresh : m0.hFresh ≤ m.hFresh
  fFresh : m0.fFresh ≤ m.fFresh
  hes : m.hes = m0.hes ++ List.range' m0.hFresh (m.hFresh - m0.hFresh)
  hd : Dense m.hAlive m.hIdx m.hes
  fd : Dense m.fAlive m.fIdx m.fs
  fs : m.fs = m0.fs ++ List.range' m0.fFresh (m.fFresh - m0.fFresh)
  hal : ∀ h, m.hAlive h = true ↔ m0.hAlive h = true ∨ (m0.hFresh ≤ h ∧ h < m.hFresh)
  fal : ∀ f, m.fAlive f = true ↔ m0.fAlive f = true ∨ (m0.fFresh ≤ f ∧ f < m.fFresh)
  nT : ∀ h, m0.HA h → m.hNext h = m0.hNext h
  sT : ∀ h, m0.HA h → m.hSrc h = m0.hSrc h
  fT : ∀ h, m0.HA h → m.hFace h = m0.hFace h
  rT : ∀ h, m0.HA h → m0.hRev h ≠ 0 → m.hRev h = m0.hRev h ∧ m.hBd h = false
  rB : ∀ h, m0.Bnd h → (m.hRev h = 0 ∧ m.hBd h = false) ∨
    (m0.hFresh ≤ m.hRev h ∧ m.hRev h < m.hFresh ∧ m.hRev (m.hRev h) = h ∧ m.hBd h = true)
  holeRev : ∀ b, m0.hFresh ≤ b → b < m.hFresh → m0.Bnd (m.hRev b) ∧ m.hRev (m.hRev b) = b ∧ m.hBd b = true ∧
    m.hSrc b = m0.hSrc (m0.hNext (m.hRev b))
  holeNext : ∀ b, m0.hFresh ≤ b → b < m.hFresh → m0.hFresh ≤ m.hNext b ∧ m.hNext b < m.hFresh ∧
    m.hRev b = g (m.hRev (m.hNext b)) ∧ m.hFace (m.hNext b) = m.hFace b
  holeFace : ∀ b, m0.hFresh ≤ b → b < m.hFresh → m0.fFresh ≤ m.hFace b ∧ m.hFace b < m.fFresh
  holeConn : ∀ b b', m0.hFresh ≤ b → b < m.hFresh → m0.hFresh ≤ b' → b' < m.hFresh → m.hFace b = m.hFace b' →
    ∃ n, g^[n] (m.hRev b) = m.hRev b'
  closed : ∀ it, m0.Bnd it → m.hRev it ≠ 0 → m.hRev (g it) ≠ 0
  fOld : ∀ f, m0.fAlive f = true → m.fHe f = m0.fHe f
  fNew : ∀ f, m0.fFresh ≤ f → f < m.fFresh → m0.hFresh ≤ m.fHe f ∧ m.fHe f < m.hFresh ∧ m.hFace (m.fHe f) = f
  cap : m0.hes.length ≤ m0.hCap → m.hes.length ≤ m.hCap

theorem CI.refl (T : TriMesh m) (g : Nat → Nat) : CI m g m := by
  refine ⟨rfl, rfl, rfl, rfl, rfl, rfl, rfl, rfl, rfl, Nat.le_refl _, Nat.le_refl _, by simp, T.hd, T.fd, by simp, ?_, ?_,
    fun _ _ => rfl, fun _ _ => rfl, fun _ _ => rfl, fun h a _ => ⟨rfl, T.bd h a⟩, fun h b => Or.inl ⟨b.2, T.bd h b.1⟩,
    ?_, ?_, ?_, ?_, fun it b h => absurd b.2 h, fun _ _ => rfl, ?_, id⟩
  · intro h; constructor
    · exact Or.inl
    · rintro (h | h)
      · exact h
      · omega
  · intro h; constructor
    · exact Or.inl
    · rintro (h | h)
      · exact h
      · omega
  all_goals (intros; omega)

/-- the state inside the do-while loop after `k` rounds, relative to the state `mf` at its start -/
structure HL (m0 mf mk : Mesh F) (it : Nat → Nat) (face k : Nat) : Prop where
  vAlive : mk.vAlive = mf.vAlive
  vPos : mk.vPos = mf.vPos
  vIdx : mk.vIdx = mf.vIdx
  vLock : mk.vLock = mf.vLock
  vs : mk.vs = mf.vs
  vFresh : mk.vFresh = mf.vFresh
  vHe : mk.vHe = mf.vHe
  fAlive : mk.fAlive = mf.fAlive
  fHe : mk.fHe = mf.fHe
  fIdx : mk.fIdx = mf.fIdx
  fs : mk.fs = mf.fs
  fFresh : mk.fFresh = mf.fFresh
  indices : mk.indices = mf.indices
  hCap : mk.hCap = mf.hCap
  hEpoch : mk.hEpoch = mf.hEpoch
  hFresh : mk.hFresh = mf.hFresh + k
  hes : mk.hes = mf.hes ++ List.range' mf.hFresh k
  hd : Dense mk.hAlive mk.hIdx mk.hes
  hal : ∀ h, mk.hAlive h = true ↔ mf.hAlive h = true ∨ (mf.hFresh ≤ h ∧ h < mf.hFresh + k)
  revIt : ∀ j, j < k → mk.hRev (it j) = mf.hFresh + j ∧ mk.hBd (it j) = true
  new : ∀ j, j < k → mk.hRev (mf.hFresh + j) = it j ∧ mk.hBd (mf.hFresh + j) = true ∧
    mk.hSrc (mf.hFresh + j) = m0.hSrc (m0.hNext (it j)) ∧ mk.hFace (mf.hFresh + j) = face
  old : ∀ h, h < mf.hFresh → mk.hSrc h = mf.hSrc h ∧ mk.hNext h = mf.hNext h ∧ mk.hFace h = mf.hFace h
  oldRev : ∀ h, h < mf.hFresh → (∀ j, j < k → h ≠ it j) → mk.hRev h = mf.hRev h ∧ mk.hBd h = mf.hBd h
  cap : mf.hes.length ≤ mf.hCap → mk.hes.length ≤ mk.hCap

theorem HL.refl (m0 mf : Mesh F) (it : Nat → Nat) (face : Nat) (d : Dense mf.hAlive mf.hIdx mf.hes) :
    HL m0 mf mf it face 0 := by
  refine ⟨rfl, rfl, rfl, rfl, rfl, rfl, rfl, rfl, rfl, rfl, rfl, rfl, rfl, rfl, rfl, rfl, by simp, d, ?_, ?_, ?_,
    fun _ _ => ⟨rfl, rfl, rfl⟩, fun _ _ _ => ⟨rfl, rfl⟩, id⟩
  · intro h; constructor
    · exact Or.inl
    · rintro (h | h)
      · exact h
      · omega
  all_goals (intros; omega)

/-- the rest of a round of the do-while loop -/
def holeTail (e he face fuel n rev : Nat) (acc : List Nat) : M F (List Nat) := do
  let tf ← M.read (fun m => m.hFresh)
  let it' ← turnLoop e he tf n
  checkRef e
  if it' = he then pure (acc ++ [rev])
  else holeLoop e he face fuel it' (acc ++ [rev])

theorem holeStep {mf mk : Mesh F} {it : Nat → Nat} {face k : Nat} (L : HL m0 mf mk it face k)
    (hB : ∀ h, mf.hAlive h = true → h < mf.hFresh) (ax : mf.hAlive (it k) = true)
    (hn : mf.hNext (it k) = m0.hNext (it k)) (an : mf.hAlive (m0.hNext (it k)) = true)
    (sn : mf.hSrc (m0.hNext (it k)) = m0.hSrc (m0.hNext (it k))) (inj : ∀ j, j < k → it j ≠ it k)
    (ait : ∀ j, j < k → mf.hAlive (it j) = true) :
    ∃ m1, (∀ e he fuel acc, holeLoop e he face (fuel + 1) (it k) acc mk =
        holeTail e he face fuel (m0.hNext (it k)) (mf.hFresh + k) acc m1) ∧
      (mk.hes.length < mk.hCap → HL m0 mf m1 it face (k + 1)) ∧
      (¬ mk.hes.length < mk.hCap → m1.hEpoch = mk.hEpoch + 1) ∧ m1.hFresh = mf.hFresh + k + 1 := by
  have hxlt := hB _ ax
  have hnlt := hB _ an
  have ax' : mk.hAlive (it k) = true := (L.hal _).2 (Or.inl ax)
  have an' : mk.hAlive (m0.hNext (it k)) = true := (L.hal _).2 (Or.inl an)
  have hF := L.hFresh
  have hfree : mk.hAlive (mf.hFresh + k) = false := by
    cases h : mk.hAlive (mf.hFresh + k) with
    | false => rfl
    | true =>
      rcases (L.hal _).1 h with h | h
      · have := hB _ h; omega
      · omega
  have ne1 : it k ≠ mf.hFresh + k := by omega
  have ne2 : m0.hNext (it k) ≠ mf.hFresh + k := by omega
  refine ⟨{ mk with
      hAlive := upd mk.hAlive (mf.hFresh + k) true
      hSrc := upd (upd mk.hSrc (mf.hFresh + k) 0) (mf.hFresh + k) (m0.hSrc (m0.hNext (it k)))
      hNext := upd mk.hNext (mf.hFresh + k) 0
      hRev := upd (upd (upd mk.hRev (mf.hFresh + k) 0) (it k) (mf.hFresh + k)) (mf.hFresh + k) (it k)
      hFace := upd (upd mk.hFace (mf.hFresh + k) 0) (mf.hFresh + k) face
      hIdx := upd (upd mk.hIdx (mf.hFresh + k) (-1)) (mf.hFresh + k) (mk.hes.length : Int)
      hBd := upd (upd (upd mk.hBd (mf.hFresh + k) false) (it k) true) (mf.hFresh + k) true
      hes := mk.hes ++ [mf.hFresh + k]
      hFresh := mf.hFresh + k + 1
      hCap := pushCap mk.hes.length mk.hCap mk.grow
      hEpoch := pushEpoch mk.hes.length mk.hCap mk.hEpoch }, ?_, ?_, ?_, rfl⟩
  · intro e he fuel acc
    have q1 : upd mk.hAlive (mf.hFresh + k) true (it k) = true := by rw [upd_ne _ _ ne1]; exact ax'
    have q2 : upd mk.hAlive (mf.hFresh + k) true (m0.hNext (it k)) = true := by rw [upd_ne _ _ ne2]; exact an'
    have q3 : upd mk.hNext (mf.hFresh + k) 0 (it k) = m0.hNext (it k) := by
      rw [upd_ne _ _ ne1, (L.old _ hxlt).2.1, hn]
    have q4 : upd mk.hSrc (mf.hFresh + k) 0 (m0.hNext (it k)) = m0.hSrc (m0.hNext (it k)) := by
      rw [upd_ne _ _ ne2, (L.old _ hnlt).1, sn]
    simp only [holeLoop, holeTail, bind_apply, newHalfedge, hF]
    rw [addHalfedge_ok (by simp [upd])]
    simp only [setRev, setFace, getNext, getSrc, setSrc, setBd, upd_same, if_true, q1, q2, q3, q4, bind_apply]
  · intro hc
    have pc : pushCap mk.hes.length mk.hCap mk.grow = mk.hCap := by simp [pushCap, hc]
    have pe : pushEpoch mk.hes.length mk.hCap mk.hEpoch = mk.hEpoch := by simp [pushEpoch, hc]
    refine ⟨L.vAlive, L.vPos, L.vIdx, L.vLock, L.vs, L.vFresh, L.vHe, L.fAlive, L.fHe, L.fIdx, L.fs, L.fFresh, L.indices,
      pc.trans L.hCap, pe.trans L.hEpoch, by simp only; omega, ?_, ?_, ?_, ?_, ?_, ?_, ?_,
      by intro _; simp only [pc, List.length_append, List.length_singleton]; omega⟩
    · simp only
      rw [L.hes, List.append_assoc, List.range'_concat]; simp
    · refine (L.hd.push hfree).congr (fun _ => rfl) ?_
      intro p _
      simp only [upd]
      by_cases h : p = mf.hFresh + k <;> simp [h]
    · intro h
      simp only
      by_cases c : h = mf.hFresh + k
      · subst c; rw [upd_same]; exact ⟨fun _ => Or.inr (by omega), fun _ => rfl⟩
      · rw [upd_ne _ _ c, L.hal]
        constructor
        · rintro (h | h)
          · exact Or.inl h
          · exact Or.inr (by omega)
        · rintro (h | h)
          · exact Or.inl h
          · exact Or.inr (by omega)
    · intro j hj
      simp only
      by_cases c : j = k
      · subst c
        refine ⟨?_, ?_⟩
        · rw [upd_ne _ _ ne1, upd_same]
        · rw [upd_ne _ _ ne1, upd_same]
      · have h1 : it j ≠ mf.hFresh + k := by have := hB _ (ait j (by omega)); omega
        have h2 := inj j (by omega)
        rw [upd_ne _ _ h1, upd_ne _ _ h2, upd_ne _ _ h1, upd_ne _ _ h1, upd_ne _ _ h2, upd_ne _ _ h1]
        exact L.revIt j (by omega)
    · intro j hj
      simp only
      by_cases c : j = k
      · subst c; simp only [upd_same]; exact ⟨trivial, trivial, trivial, trivial⟩
      · have h1 : mf.hFresh + j ≠ mf.hFresh + k := by omega
        have h2 : mf.hFresh + j ≠ it k := by omega
        simp only [upd_ne _ _ h1, upd_ne _ _ h2]
        exact L.new j (by omega)
    · intro h hlt
      simp only
      have h1 : h ≠ mf.hFresh + k := by omega
      simp only [upd_ne _ _ h1]
      exact L.old h hlt
    · intro h hlt hne
      simp only
      have h1 : h ≠ mf.hFresh + k := by omega
      have h2 : h ≠ it k := hne k (by omega)
      simp only [upd_ne _ _ h1, upd_ne _ _ h2]
      exact L.oldRev h hlt (fun j hj => hne j (by omega))
  · intro hc
    simp [pushEpoch, hc]

/-- the inner while loop reaches the next boundary half-edge -/
theorem turnLoop_ok {g : Nat → Nat} (S : BSucc m0 g) {m1 : Mesh F} {x he e : Nat} (b : m0.Bnd x)
    (bhe : m0.Bnd he) (hal : ∀ h, m0.HA h → m1.hAlive h = true) (hnx : ∀ h, m0.HA h → m1.hNext h = m0.hNext h)
    (hrv : ∀ h, m0.HA h → m0.hRev h ≠ 0 → m1.hRev h = m0.hRev h) (hra : ∀ h, m0.HA h → m0.hRev h ≠ 0 → m0.HA (m0.hRev h))
    (hend : g x = he ∨ m1.hRev (g x) = 0) (hep : m1.hEpoch = e) (hf : m0.hFresh < m1.hFresh) :
    turnLoop e he m1.hFresh (m0.hNext x) m1 = .ok (g x) m1 := by
  obtain ⟨n, n1, n2, n3, n4⟩ := S.turn x b
  have loop : ∀ k i fuel, i + k = n → k < fuel → turnLoop e he fuel (m0.sig^[i] (m0.hNext x)) m1 = .ok (g x) m1 := by
    intro k
    induction k with
    | zero =>
      intro i fuel hi hfu
      obtain ⟨fuel, rfl⟩ : ∃ f, fuel = f + 1 := ⟨fuel - 1, by omega⟩
      have : i = n := by omega
      subst this
      rw [← n4]
      have ag := hal _ (S.bnd x b).1
      simp only [turnLoop, bind_apply, checkRef, hep, if_true]
      rcases hend with h | h
      · rw [if_pos h]; rfl
      · by_cases c : g x = he
        · rw [if_pos c]; rfl
        · rw [if_neg c]
          simp [getRev_ok ag, h]
    | succ k ih =>
      intro i fuel hi hfu
      obtain ⟨fuel, rfl⟩ : ∃ f, fuel = f + 1 := ⟨fuel - 1, by omega⟩
      have a := n3 i (by omega)
      have r := n2 i (by omega)
      have c : m0.sig^[i] (m0.hNext x) ≠ he := fun h => r (h ▸ bhe.2)
      have e1 := hrv _ a r
      have e2 := hnx _ (hra _ a r)
      simp only [turnLoop, bind_apply, checkRef, hep, if_true, c, if_false, getRev_ok (hal _ a), e1, r,
        getNext_ok (hal _ (hra _ a r)), e2]
      have e3 : m0.hNext (m0.hRev (m0.sig^[i] (m0.hNext x))) = m0.sig^[i + 1] (m0.hNext x) := by
        rw [Function.iterate_succ_apply']; rfl
      rw [e3]
      exact ih (i + 1) fuel (by omega) (by omega)
  exact loop n 0 m1.hFresh (by omega) (by omega)

theorem linkHole_ok : ∀ (l : List Nat) (prev : Nat) (m : Mesh F), l.Nodup → (∀ x ∈ l, m.hAlive x = true) →
    ∃ N, linkHole prev l m = .ok () { m with hNext := N } ∧ (∀ x, x ∉ l → N x = m.hNext x) ∧
      (∀ (j x : Nat), l[j]? = some x → (j = 0 → N x = prev) ∧ (∀ i y, j = i + 1 → l[i]? = some y → N x = y)) := by
  intro l
  induction l with
  | nil => intro prev m _ _; exact ⟨m.hNext, rfl, fun _ _ => rfl, by simp⟩
  | cons h l ih =>
    intro prev m nd al
    have ah := al h (by simp)
    obtain ⟨N, e, h1, h2⟩ := ih h { m with hNext := upd m.hNext h prev } (List.nodup_cons.1 nd).2
      (fun x hx => al x (by simp [hx]))
    refine ⟨N, ?_, ?_, ?_⟩
    · simp only [linkHole, bind_apply, setNext, ah, if_true, e]
    · intro x hx
      rw [List.mem_cons, not_or] at hx
      rw [h1 x hx.2]
      exact upd_ne _ _ hx.1
    · intro j x hj
      cases j with
      | zero =>
        have hxh : h = x := by simpa using hj
        subst hxh
        refine ⟨fun _ => ?_, fun i y hi => by omega⟩
        rw [h1 h (List.nodup_cons.1 nd).1]
        exact upd_same _ _ _
      | succ j =>
        have hj' : l[j]? = some x := by simpa using hj
        obtain ⟨q1, q2⟩ := h2 j x hj'
        refine ⟨fun h => by omega, ?_⟩
        intro i y hi hy
        have : i = j := by omega
        subst this
        cases i with
        | zero =>
          have : h = y := by simpa using hy
          subst this
          exact q1 rfl
        | succ i =>
          exact q2 i y rfl (by simpa using hy)

/-- facts about `mf` needed during the loop -/
structure LoopPre (m0 mf : Mesh F) (g : Nat → Nat) (he : Nat) : Prop where
  hB : ∀ h, mf.hAlive h = true → h < mf.hFresh
  fr : m0.hFresh ≤ mf.hFresh
  al : ∀ h, m0.HA h → mf.hAlive h = true
  nx : ∀ h, m0.HA h → mf.hNext h = m0.hNext h
  sr : ∀ h, m0.HA h → mf.hSrc h = m0.hSrc h
  rv : ∀ h, m0.HA h → m0.hRev h ≠ 0 → mf.hRev h = m0.hRev h
  un : ∀ n, mf.hRev (g^[n] he) = 0
  bhe : m0.Bnd he

theorem holeLoop_ok (T : TriMesh m0) {g : Nat → Nat} (S : BSucc m0 g) {mf : Mesh F} {he face : Nat}
    (P : LoopPre m0 mf g he) : ∀ r i fuel (mk : Mesh F), HL m0 mf mk (fun j => g^[j] he) face i → i + r = period g he →
      0 < r → r ≤ fuel →
      (∃ m', holeLoop mf.hEpoch he face fuel (g^[i] he) (List.range' mf.hFresh i) mk =
          .ok (List.range' mf.hFresh (period g he)) m' ∧ HL m0 mf m' (fun j => g^[j] he) face (period g he)) ∨
      (holeLoop mf.hEpoch he face fuel (g^[i] he) (List.range' mf.hFresh i) mk = .err .ub ∧
        ∃ j, j < period g he ∧ mf.hCap ≤ mf.hes.length + j) := by
  have pm := S.perm T
  obtain ⟨p0, p1, p2⟩ := pm.period_spec P.bhe
  have itB : ∀ j, m0.Bnd (g^[j] he) := fun j => pm.iter P.bhe j
  have itinj : ∀ j k, j < k → k < period g he → g^[j] he ≠ g^[k] he := by
    intro j k hjk hk e
    have : g^[j] (g^[k - j] he) = g^[j] he := by
      rw [← Function.iterate_add_apply, show j + (k - j) = k by omega, e]
    exact p2 (k - j) (by omega) (by omega) (pm.iter_inj (itB _) P.bhe j this)
  intro r
  induction r with
  | zero => intro i fuel mk _ _ h; omega
  | succ r ih =>
    intro i fuel mk L hir _ hf
    obtain ⟨fuel, rfl⟩ : ∃ f, fuel = f + 1 := ⟨fuel - 1, by omega⟩
    have bi := itB i
    have an := T.next_alive _ bi.1
    obtain ⟨m1, e1, h1, h2, h3⟩ := holeStep L P.hB (P.al _ bi.1) (P.nx _ bi.1) (P.al _ an) (P.sr _ an)
      (fun j hj => itinj j i hj (by omega)) (fun j hj => P.al _ (itB j).1)
    have e1 := e1 mf.hEpoch he fuel (List.range' mf.hFresh i)
    rw [e1]
    by_cases hc : mk.hes.length < mk.hCap
    · have L1 := h1 hc
      have hlast : List.range' mf.hFresh i ++ [mf.hFresh + i] = List.range' mf.hFresh (i + 1) := by
        rw [List.range'_concat]; simp
      have hend : g (g^[i] he) = he ∨ m1.hRev (g (g^[i] he)) = 0 := by
        rw [← Function.iterate_succ_apply' g]
        by_cases c : i + 1 < period g he
        · right
          have := (L1.oldRev (g^[i + 1] he) (P.hB _ (P.al _ (itB _).1)) (fun j hj =>
            (itinj j (i + 1) hj c).symm)).1
          rw [show i.succ = i + 1 from rfl, this]
          exact P.un (i + 1)
        · left
          rw [show i.succ = period g he by omega]; exact p1
      have lt0 : ∀ h, m0.HA h → h < mf.hFresh := fun h a => P.hB h (P.al h a)
      have ht := turnLoop_ok (m1 := m1) S bi P.bhe (fun h a => (L1.hal h).2 (Or.inl (P.al h a)))
        (fun h a => by rw [(L1.old h (lt0 h a)).2.1, P.nx h a])
        (fun h a hr => by
          rw [(L1.oldRev h (lt0 h a) (fun j _ e => hr (by rw [e]; exact (itB j).2))).1, P.rv h a hr])
        (fun h a hr => T.rev_alive h a hr) hend L1.hEpoch (by have := P.fr; omega)
      simp only [holeTail, bind_apply, read_apply, ht, checkRef, L1.hEpoch, if_true, hlast]
      by_cases c : i + 1 < period g he
      · have hne : g (g^[i] he) ≠ he := by
          rw [← Function.iterate_succ_apply' g]; exact p2 _ (by omega) c
        rw [if_neg hne, ← Function.iterate_succ_apply' g]
        exact ih (i + 1) fuel m1 L1 (by omega) (by omega) (by omega)
      · have he' : g (g^[i] he) = he := by
          rw [← Function.iterate_succ_apply' g, show i.succ = period g he by omega]; exact p1
        rw [if_pos he']
        left
        rw [show period g he = i + 1 by omega]
        exact ⟨m1, rfl, L1⟩
    · right
      have hep := h2 hc
      refine ⟨?_, i, by omega, ?_⟩
      · obtain ⟨q, hq⟩ : ∃ q, m1.hFresh = q + 1 := ⟨_, h3⟩
        have : ¬ m1.hEpoch = mf.hEpoch := by rw [hep, L.hEpoch]; omega
        simp only [holeTail, bind_apply, read_apply, hq, turnLoop, checkRef, this, if_false]
      · rw [L.hes, L.hCap] at hc
        simp at hc
        exact hc

/-- the number of boundary half-edges -/
def Mesh.nBnd (m : Mesh F) : Nat := m.hes.countP (fun h => m.hRev h == 0)

/-- `holes so far < number of boundary half-edges` as long as one is missing -/
theorem CI.count (T : TriMesh m0) {g : Nat → Nat} (C : CI m0 g m) (l : List Nat) (nd : l.Nodup)
    (hl : ∀ x ∈ l, m0.Bnd x ∧ m.hRev x = 0) : m.hFresh - m0.hFresh + l.length ≤ m0.nBnd := by
  have hsub : (l ++ (List.range' m0.hFresh (m.hFresh - m0.hFresh)).map m.hRev).Nodup := by
    rw [List.nodup_append]
    refine ⟨nd, ?_, ?_⟩
    · refine (List.nodup_map_iff_inj_on (List.nodup_range' )).2 ?_
      intro x hx y hy e
      rw [List.mem_range'_1] at hx hy
      have h1 := (C.holeRev x hx.1 (by omega)).2.1
      have h2 := (C.holeRev y hy.1 (by omega)).2.1
      rw [← h1, e, h2]
    · intro x hx y hy e
      subst e
      obtain ⟨b, hb, rfl⟩ := List.mem_map.1 hy
      rw [List.mem_range'_1] at hb
      have h1 := (C.holeRev b hb.1 (by omega)).2.1
      rw [(hl _ hx).2] at h1
      have := T.h0
      omega
  have hss : (l ++ (List.range' m0.hFresh (m.hFresh - m0.hFresh)).map m.hRev) ⊆ m0.hes.filter (fun h => m0.hRev h == 0) := by
    intro x hx
    rw [List.mem_filter, T.hd.mem]
    have hb : m0.Bnd x := by
      rcases List.mem_append.1 hx with hx | hx
      · exact (hl x hx).1
      · obtain ⟨b, hb, rfl⟩ := List.mem_map.1 hx
        rw [List.mem_range'_1] at hb
        exact (C.holeRev b hb.1 (by omega)).1
    exact ⟨hb.1, by simpa using hb.2⟩
  have := (List.subperm_of_subset hsub hss).length_le
  unfold Mesh.nBnd
  rw [List.countP_eq_length_filter]
  simp only [List.length_append, List.length_map, List.length_range'] at this
  omega

end TinyMesh
