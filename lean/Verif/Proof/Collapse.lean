import Verif.Proof.Split
/-
`collapseHE`: the state it produces.
-/
set_option linter.unusedSimpArgs false
namespace TinyMesh
open Orbit
variable {F : Type} {m m' : Mesh F}

theorem Dense.at {alive : Nat → Bool} {idx : Nat → Int} {l : List Nat} (d : Dense alive idx l) {x : Nat}
    (hx : alive x = true) : ∃ i : Nat, ∃ h : i < l.length, l[i] = x ∧ idx x = (i : Int) := by
  obtain ⟨i, h, e⟩ := List.getElem_of_mem ((d.mem x).2 hx)
  exact ⟨i, h, e, by rw [← e]; exact d.idx i h⟩

theorem Dense.idx_lt {alive : Nat → Bool} {idx : Nat → Int} {l : List Nat} (d : Dense alive idx l) {x : Nat}
    (hx : alive x = true) : 0 ≤ idx x ∧ idx x < (l.length : Int) := by
  obtain ⟨i, h, _, e⟩ := d.at hx
  omega

theorem Dense.arrayAt {alive : Nat → Bool} {idx : Nat → Int} {l : List Nat} (d : Dense alive idx l) {x : Nat}
    (hx : alive x = true) : arrayAt l (idx x) = some x := by
  obtain ⟨i, h, e1, e2⟩ := d.at hx
  unfold TinyMesh.arrayAt
  rw [e2]
  have : ¬ ((i : Int) < 0) := by omega
  simp [this, h, e1]

/-- Removing the last element of the array. -/
theorem Dense.dropLast {alive : Nat → Bool} {idx : Nat → Int} {l : List Nat} (d : Dense alive idx l) {x : Nat}
    (hx : l.getLast? = some x) : Dense (upd alive x false) idx l.dropLast := by
  have hl : l ≠ [] := by intro h; simp [h] at hx
  have hxl : x = l.getLast hl := by rw [List.getLast?_eq_some_getLast hl] at hx; injection hx with h; exact h.symm
  have hsplit : l.dropLast ++ [x] = l := by rw [hxl]; exact List.dropLast_append_getLast hl
  have hnd : (l.dropLast ++ [x]).Nodup := by rw [hsplit]; exact d.nodup
  rw [List.nodup_append] at hnd
  refine ⟨hnd.1, ?_, ?_⟩
  · intro p
    have hm := d.mem p
    rw [← hsplit, List.mem_append, List.mem_singleton] at hm
    by_cases h : p = x
    · subst h
      simp only [upd_same, Bool.false_eq_true, iff_false]
      intro hp
      exact hnd.2.2 p hp p (by simp) rfl
    · rw [upd_ne _ _ h, ← hm]; simp [h]
  · intro i hi
    have h1 : i < l.length := by rw [List.length_dropLast] at hi; omega
    rw [List.getElem_dropLast]
    exact d.idx i h1

/-- Removing the element at position `i` by moving the last one there. -/
theorem Dense.swapLast {alive : Nat → Bool} {idx : Nat → Int} {l : List Nat} (d : Dense alive idx l) {x z i : Nat}
    (hz : l.getLast? = some z) (hi : i < l.length - 1) (hx : l[i]? = some x) :
    Dense (upd alive x false) (upd (upd idx z (idx x)) x (-1)) (l.set i z).dropLast := by
  have hl : l ≠ [] := by intro h; simp [h] at hz
  have hlen : 0 < l.length := by omega
  have hzl : z = l[l.length - 1] := by
    rw [List.getLast?_eq_getElem?] at hz
    rw [List.getElem?_eq_getElem (by omega)] at hz; injection hz with h; exact h.symm
  have hi' : i < l.length := by omega
  have hxi : l[i] = x := by rw [List.getElem?_eq_getElem hi'] at hx; injection hx
  have inj : ∀ a b (ha : a < l.length) (hb : b < l.length), l[a] = l[b] → a = b := fun a b ha hb h =>
    (List.Nodup.getElem_inj_iff d.nodup).1 h
  have hxz : x ≠ z := by
    intro h; rw [hzl, ← hxi] at h
    have := inj _ _ _ _ h; omega
  have hlen' : (l.set i z).dropLast.length = l.length - 1 := by simp
  have hget : ∀ j (hj : j < (l.set i z).dropLast.length), (l.set i z).dropLast[j] = if i = j then z else l[j]'(by omega) := by
    intro j hj
    rw [List.getElem_dropLast, List.getElem_set]
  refine ⟨?_, ?_, ?_⟩
  · rw [List.nodup_iff_injective_getElem]
    intro ⟨a, ha⟩ ⟨b, hb⟩ h
    simp only [hget] at h
    have ha' : a < l.length - 1 := by omega
    have hb' : b < l.length - 1 := by omega
    apply Fin.ext
    simp only
    by_cases h1 : i = a <;> by_cases h2 : i = b
    · omega
    · rw [if_pos h1, if_neg h2] at h
      have := inj _ _ _ _ (hzl.symm.trans h); omega
    · rw [if_neg h1, if_pos h2] at h
      have := inj _ _ _ _ (h.trans hzl); omega
    · rw [if_neg h1, if_neg h2] at h
      exact inj _ _ _ _ h
  · intro p
    rw [List.mem_iff_getElem]
    constructor
    · rintro ⟨j, hj, e⟩
      rw [hget j hj] at e
      have hj' : j < l.length - 1 := by omega
      by_cases h1 : i = j
      · rw [if_pos h1] at e; subst e
        rw [upd_ne _ _ hxz.symm, ← d.mem, hzl]; exact List.getElem_mem _
      · rw [if_neg h1] at e
        have : p ≠ x := by
          intro h; exact h1 (inj _ _ _ _ (e.trans (h.trans hxi.symm))).symm
        rw [upd_ne _ _ this, ← d.mem, ← e]; exact List.getElem_mem _
    · intro h
      have hpx : p ≠ x := by intro e; subst e; simp [upd] at h
      rw [upd_ne _ _ hpx, ← d.mem] at h
      obtain ⟨j, hj, e⟩ := List.getElem_of_mem h
      by_cases h1 : j = l.length - 1
      · refine ⟨i, by omega, ?_⟩
        rw [hget, if_pos rfl, hzl, ← e]; simp only [h1]
      · refine ⟨j, by omega, ?_⟩
        have : i ≠ j := by intro h2; subst h2; exact hpx (e ▸ hxi)
        rw [hget, if_neg this, e]
  · intro j hj
    rw [hget j hj]
    have hj' : j < l.length - 1 := by omega
    by_cases h1 : i = j
    · rw [if_pos h1, upd_ne _ _ hxz.symm, upd_same, ← hxi, d.idx, h1]
    · rw [if_neg h1]
      have hne : l[j]'(by omega) ≠ x := by
        intro h; exact h1 (inj _ _ _ _ (h.trans hxi.symm)).symm
      have hnz : l[j]'(by omega) ≠ z := by
        intro h; have := inj _ _ _ _ (h.trans hzl); omega
      rw [upd_ne _ _ hne, upd_ne _ _ hnz, d.idx]

/-- Shape of the common part of the three remove functions. -/
theorem Dense.remove {alive : Nat → Bool} {idx : Nat → Int} {l : List Nat} (d : Dense alive idx l) {x : Nat}
    (hx : alive x = true) :
    ∃ z, l.getLast? = some z ∧ alive z = true ∧
      ((idx x < (l.length : Int) - 1 ∧
        Dense (upd alive x false) (upd (upd idx z (idx x)) x (-1)) (l.set (idx x).toNat z).dropLast) ∨
       (¬ idx x < (l.length : Int) - 1 ∧ z = x ∧ Dense (upd alive x false) idx l.dropLast)) := by
  obtain ⟨i, h, e1, e2⟩ := d.at hx
  have hl : l ≠ [] := by intro e; rw [e] at h; simp at h
  refine ⟨l.getLast hl, List.getLast?_eq_some_getLast hl, (d.mem _).1 (List.getLast_mem hl), ?_⟩
  by_cases hc : idx x < (l.length : Int) - 1
  · left
    refine ⟨hc, ?_⟩
    have : (idx x).toNat = i := by omega
    rw [this]
    refine d.swapLast (List.getLast?_eq_some_getLast hl) (by omega) ?_
    rw [List.getElem?_eq_getElem h, e1]
  · right
    have hi : i = l.length - 1 := by omega
    have : l.getLast hl = x := by rw [List.getLast_eq_getElem, ← e1]; simp only [hi]
    refine ⟨hc, this, ?_⟩
    exact d.dropLast (by rw [List.getLast?_eq_some_getLast hl, this])

theorem removeHalfedge_ok (d : Dense m.hAlive m.hIdx m.hes) {h : Nat} (a : m.hAlive h = true) :
    ∃ hs ix, removeHalfedge h m = .ok () { m with
        hes := hs
        hIdx := ix
        hAlive := upd m.hAlive h false } ∧ Dense (upd m.hAlive h false) ix hs := by
  obtain ⟨z, hz, az, hh⟩ := d.remove a
  unfold removeHalfedge
  simp only [a, if_true, d.arrayAt a, hz, az, BEq.rfl, Bool.and_self]
  rcases hh with ⟨h1, h2⟩ | ⟨h1, h3, h2⟩
  · rw [if_pos h1]; exact ⟨_, _, rfl, h2⟩
  · rw [if_neg h1]; subst h3; exact ⟨_, _, rfl, h2⟩

theorem removeFace_ok (d : Dense m.fAlive m.fIdx m.fs) {f : Nat} (a : m.fAlive f = true) :
    ∃ hs ix, removeFace f m = .ok () { m with
        fs := hs
        fIdx := ix
        fAlive := upd m.fAlive f false } ∧ Dense (upd m.fAlive f false) ix hs := by
  obtain ⟨z, hz, az, hh⟩ := d.remove a
  unfold removeFace
  simp only [a, if_true, d.arrayAt a, hz, az, BEq.rfl, Bool.and_self]
  rcases hh with ⟨h1, h2⟩ | ⟨h1, h3, h2⟩
  · rw [if_pos h1]; exact ⟨_, _, rfl, h2⟩
  · rw [if_neg h1]; subst h3; exact ⟨_, _, rfl, h2⟩

theorem removeVertex_ok [Scalar F] (d : Dense m.vAlive m.vIdx m.vs) {v : Nat} (a : m.vAlive v = true)
    (hp : (m.vPos v).eq (m.vPos v) = true) :
    ∃ hs ix, removeVertex v m = .ok () { m with
        vs := hs
        vIdx := ix
        vAlive := upd m.vAlive v false } ∧ Dense (upd m.vAlive v false) ix hs := by
  obtain ⟨z, hz, az, hh⟩ := d.remove a
  unfold removeVertex
  simp only [a, if_true, d.arrayAt a, hz, az, BEq.rfl, Bool.and_self, hp]
  rcases hh with ⟨h1, h2⟩ | ⟨h1, h3, h2⟩
  · rw [if_pos h1]; exact ⟨_, _, rfl, h2⟩
  · rw [if_neg h1]; subst h3; exact ⟨_, _, rfl, h2⟩

theorem removeVertex_abort [Scalar F] (d : Dense m.vAlive m.vIdx m.vs) {v : Nat} (a : m.vAlive v = true)
    (hp : ¬ (m.vPos v).eq (m.vPos v) = true) : removeVertex v m = .err .abort := by
  unfold removeVertex
  simp [a, d.arrayAt a, hp]

theorem assertHIdx_ok (d : Dense m.hAlive m.hIdx m.hes) {h : Nat} (a : m.hAlive h = true) :
    assertHIdx h m = .ok () m := by
  simp [assertHIdx, getHIdx_ok a, M.assert, (d.idx_lt a).2]

theorem assertVIdx_ok (d : Dense m.vAlive m.vIdx m.vs) {h : Nat} (a : m.vAlive h = true) :
    assertVIdx h m = .ok () m := by
  simp [assertVIdx, getVIdx_ok a, M.assert, (d.idx_lt a).2]

theorem getPosList_ok : ∀ (l : List Nat), (∀ v ∈ l, m.vAlive v = true) → getPosList l m = .ok (l.map m.vPos) m
  | [], _ => rfl
  | v :: l, h => by
    simp [getPosList, getPos_ok (h v (by simp)), getPosList_ok l (fun x hx => h x (by simp [hx]))]

/-- `m1` differs from `m` only in members that circulators do not read. -/
structure SameLinks (m m1 : Mesh F) : Prop where
  al : m1.hAlive = m.hAlive
  nx : m1.hNext = m.hNext
  rv : m1.hRev = m.hRev
  fr : m1.hFresh = m.hFresh

theorem Mesh.WF.circ_ring_eq (w : m.WF) {β : Type} {v : Nat} (a : m.vAlive v = true) {m1 : Mesh F}
    (s : SameLinks m m1) {body : Nat → β → M F (Bool × β)}
    (hbody : ∀ m1, SameLinks m m1 → ∀ x, m.HA x → ∀ b r m', body x b m1 = .ok r m' → SameLinks m m') (b : β) :
    circ ringStep (m.vHe v) b body m1 = foldList body (orbit m.sig (m.vHe v)) b m1 :=
  circ_eq w.permSig (SameLinks m) (w.vHe_ok v a).1 (fun _ h => w.ne0 h) m1 (Nat.le_of_eq s.fr.symm) s
    (fun m2 s2 x hx => by
      have hx' : m2.hAlive x = true := by rw [s2.al]; exact hx
      have hr : m2.hAlive (m.hRev x) = true := by rw [s2.al]; exact w.rev_alive _ hx
      simp [ringStep, getRev_ok hx', s2.rv, getNext_ok hr, Mesh.sig, s2.nx])
    hbody b

/-- the loop that moves the half-edges leaving `v2` to `v0` -/
theorem fold_setSrc (v0 v2 : Nat) : ∀ (l : List Nat) (m : Mesh F), l.Nodup → (∀ x ∈ l, m.hAlive x = true) →
    (∀ x ∈ l, m.hSrc x = v2) →
    foldList (fun x (_ : Unit) => do
      let s ← getSrc x
      M.assert (s == v2)
      setSrc x v0
      pure (false, ())) l () m = .ok () { m with hSrc := fun x => if x ∈ l then v0 else m.hSrc x }
  | [], m, _, _, _ => by simp [foldList]
  | x :: l, m, hn, ha, hs => by
    rw [List.nodup_cons] at hn
    have h1 : (m.hSrc x == v2) = true := by simpa using hs x (by simp)
    simp only [foldList, bind_apply, getSrc_ok (ha x (by simp)), assert_true h1, setSrc, ha x (by simp), if_true,
      pure_apply, Bool.false_eq_true, if_false]
    refine (fold_setSrc v0 v2 l { m with hSrc := upd m.hSrc x v0 } hn.2 (fun y hy => ha y (by simp [hy])) ?_).trans ?_
    · intro y hy
      have : y ≠ x := fun e => hn.1 (e ▸ hy)
      simp only [upd, this, if_false]
      exact hs y (by simp [hy])
    · congr 2
      funext y
      by_cases h : y = x
      · subst h; simp [upd]
      · simp [upd, h]

theorem fold_checkSrc (v0 : Nat) : ∀ (l : List Nat) (m : Mesh F), (∀ x ∈ l, m.hAlive x = true) →
    (∀ x ∈ l, m.hSrc x = v0) →
    foldList (fun x (_ : Unit) => do
      let s ← getSrc x
      M.assert (s == v0)
      pure (false, ())) l () m = .ok () m
  | [], m, _, _ => by simp [foldList]
  | x :: l, m, ha, hs => by
    have h1 : (m.hSrc x == v0) = true := by simpa using hs x (by simp)
    simp only [foldList, bind_apply, getSrc_ok (ha x (by simp)), assert_true h1, if_true,
      pure_apply, Bool.false_eq_true, if_false]
    exact fold_checkSrc v0 l _ (fun y hy => ha y (by simp [hy])) (fun y hy => hs y (by simp [hy]))

theorem Mesh.WF.fIsBoundary_ok' (w : m.WF) {f : Nat} (a : m.fAlive f = true) {m1 : Mesh F}
    (e1 : m1.hAlive = m.hAlive) (e2 : m1.hNext = m.hNext) (e3 : m1.hFresh = m.hFresh) (e4 : m1.hBd = m.hBd)
    (e5 : m1.fHe = m.fHe) (e6 : m1.fAlive = m.fAlive) :
    fIsBoundary f m1 = .ok ((orbit m.hNext (m.fHe f)).any m.hBd) m1 := by
  have a' : m1.fAlive f = true := by rw [e6]; exact a
  simp only [fIsBoundary, bind_apply, getFHe_ok a', e5]
  refine (circ_pure w.permNext (w.fHe_ok f a).1 (fun _ h => w.ne0 h) m1 (Nat.le_of_eq e3.symm) ?_
    (fun x _ => (m.hBd x, m.hBd x)) ?_ _).trans ?_
  · intro x hx
    have hx' : m1.hAlive x = true := by rw [e1]; exact hx
    simp [faceStep, getNext_ok hx', e2]
  · intro x hx b
    have hx' : m1.hAlive x = true := by rw [e1]; exact hx
    simp [getBd_ok hx', e4]
  · rw [foldPure_any]

/-- The four vertices and the four outer half-edges around an edge between two triangles. -/
structure Wings (m : Mesh F) (he rev a b c d o0 o1 o2 o3 v0 v1 v2 v3 : Nat) : Prop where
  r0 : m.hRev b = o0
  r1 : m.hRev a = o1
  r2 : m.hRev d = o2
  r3 : m.hRev c = o3
  x0 : m.hRev o0 = b
  x1 : m.hRev o1 = a
  x2 : m.hRev o2 = d
  x3 : m.hRev o3 = c
  a0 : m.HA o0
  a1 : m.HA o1
  a2 : m.HA o2
  a3 : m.HA o3
  s : m.hSrc he = v0
  sr : m.hSrc rev = v2
  sa : m.hSrc a = v2
  sb : m.hSrc b = v1
  sc : m.hSrc c = v0
  sd : m.hSrc d = v3
  so0 : m.hSrc o0 = v0
  so1 : m.hSrc o1 = v1
  so2 : m.hSrc o2 = v2
  so3 : m.hSrc o3 = v3
  t0 : m.hSrc (m.hNext o0) = v1
  t1 : m.hSrc (m.hNext o1) = v2
  t2 : m.hSrc (m.hNext o2) = v3
  t3 : m.hSrc (m.hNext o3) = v0
  v01 : v0 ≠ v1
  v02 : v0 ≠ v2
  v03 : v0 ≠ v3
  v12 : v1 ≠ v2
  v13 : v1 ≠ v3
  v23 : v2 ≠ v3
  q0 : o0 ≠ he ∧ o0 ≠ rev ∧ o0 ≠ a ∧ o0 ≠ b ∧ o0 ≠ c ∧ o0 ≠ d
  q1 : o1 ≠ he ∧ o1 ≠ rev ∧ o1 ≠ a ∧ o1 ≠ b ∧ o1 ≠ c ∧ o1 ≠ d
  q2 : o2 ≠ he ∧ o2 ≠ rev ∧ o2 ≠ a ∧ o2 ≠ b ∧ o2 ≠ c ∧ o2 ≠ d
  q3 : o3 ≠ he ∧ o3 ≠ rev ∧ o3 ≠ a ∧ o3 ≠ b ∧ o3 ≠ c ∧ o3 ≠ d
  p01 : o0 ≠ o1
  p02 : o0 ≠ o2
  p03 : o0 ≠ o3
  p12 : o1 ≠ o2
  p13 : o1 ≠ o3
  p23 : o2 ≠ o3

theorem ne_of_ends {m : Mesh F} {x y p q r s : Nat} (h1 : m.hSrc x = p) (h2 : m.hSrc (m.hNext x) = q)
    (h3 : m.hSrc y = r) (h4 : m.hSrc (m.hNext y) = s) (h : p ≠ r ∨ q ≠ s) : x ≠ y := by
  rintro rfl
  rcases h with h | h
  · exact h (h1.symm.trans h3)
  · exact h (h2.symm.trans h4)

theorem Wings.mk' (w : m.WF) (sm : m.Simple) {he rev a b c d : Nat} (D : Diamond m he rev a b c d)
    (hd : 2 < m.outDeg (m.hSrc rev)) :
    Wings m he rev a b c d (m.hRev b) (m.hRev a) (m.hRev d) (m.hRev c) (m.hSrc he) (m.hSrc b) (m.hSrc rev) (m.hSrc d) := by
  have vv : m.hSrc he ≠ m.hSrc rev := by
    have := sm.no_loop _ D.a; rw [← w.src_rev _ D.a, D.hrev] at this; exact this
  have htips := w.tips_ne sm D.a (by unfold Mesh.OnTri; rw [D.hrev, D.nr, D.n2, D.n3]) (by rw [D.hrev]; exact hd)
  rw [D.hrev, D.n, D.n0, D.nr, D.n2] at htips
  have sa : m.hSrc a = m.hSrc rev := by rw [← D.n, ← w.src_rev _ D.a, D.hrev]
  have sc : m.hSrc c = m.hSrc he := by rw [← D.nr, ← w.src_rev _ D.ar, D.hrev']
  have e10 : m.hSrc rev ≠ m.hSrc b := by have := sm.no_loop _ D.a0; rw [D.n0, sa] at this; exact this
  have e11 : m.hSrc b ≠ m.hSrc he := by have := sm.no_loop _ D.a1; rw [D.n1] at this; exact this
  have e23 : m.hSrc he ≠ m.hSrc d := by have := sm.no_loop _ D.a2; rw [D.n2, sc] at this; exact this
  have e33 : m.hSrc d ≠ m.hSrc rev := by have := sm.no_loop _ D.a3; rw [D.n3] at this; exact this
  have so0 : m.hSrc (m.hRev b) = m.hSrc he := by rw [w.src_rev _ D.a1, D.n1]
  have so1 : m.hSrc (m.hRev a) = m.hSrc b := by rw [w.src_rev _ D.a0, D.n0]
  have so2 : m.hSrc (m.hRev d) = m.hSrc rev := by rw [w.src_rev _ D.a3, D.n3]
  have so3 : m.hSrc (m.hRev c) = m.hSrc d := by rw [w.src_rev _ D.a2, D.n2]
  have t0 : m.hSrc (m.hNext (m.hRev b)) = m.hSrc b := by rw [← w.src_rev _ (w.rev_alive _ D.a1), w.rev_rev _ D.a1]
  have t1 : m.hSrc (m.hNext (m.hRev a)) = m.hSrc rev := by rw [← w.src_rev _ (w.rev_alive _ D.a0), w.rev_rev _ D.a0, sa]
  have t2 : m.hSrc (m.hNext (m.hRev d)) = m.hSrc d := by rw [← w.src_rev _ (w.rev_alive _ D.a3), w.rev_rev _ D.a3]
  have t3 : m.hSrc (m.hNext (m.hRev c)) = m.hSrc he := by rw [← w.src_rev _ (w.rev_alive _ D.a2), w.rev_rev _ D.a2, sc]
  have th : m.hSrc (m.hNext he) = m.hSrc rev := by rw [D.n, sa]
  have tr : m.hSrc (m.hNext rev) = m.hSrc he := by rw [D.nr, sc]
  have ta : m.hSrc (m.hNext a) = m.hSrc b := by rw [D.n0]
  have tb : m.hSrc (m.hNext b) = m.hSrc he := by rw [D.n1]
  have tc : m.hSrc (m.hNext c) = m.hSrc d := by rw [D.n2]
  have td : m.hSrc (m.hNext d) = m.hSrc rev := by rw [D.n3]
  refine ⟨rfl, rfl, rfl, rfl, w.rev_rev _ D.a1, w.rev_rev _ D.a0, w.rev_rev _ D.a3, w.rev_rev _ D.a2,
    w.rev_alive _ D.a1, w.rev_alive _ D.a0, w.rev_alive _ D.a3, w.rev_alive _ D.a2,
    rfl, rfl, sa, rfl, sc, rfl, so0, so1, so2, so3, t0, t1, t2, t3, e11.symm, vv, e23, e10.symm, htips, e33.symm,
    ⟨?_, ?_, ?_, ?_, ?_, ?_⟩, ⟨?_, ?_, ?_, ?_, ?_, ?_⟩, ⟨?_, ?_, ?_, ?_, ?_, ?_⟩, ⟨?_, ?_, ?_, ?_, ?_, ?_⟩,
    ?_, ?_, ?_, ?_, ?_, ?_⟩
  · refine ne_of_ends so0 t0 rfl th ?_; clear * - vv htips e10 e11 e23 e33; omega
  · refine ne_of_ends so0 t0 rfl tr ?_; clear * - vv htips e10 e11 e23 e33; omega
  · refine ne_of_ends so0 t0 sa ta ?_; clear * - vv htips e10 e11 e23 e33; omega
  · refine ne_of_ends so0 t0 rfl tb ?_; clear * - vv htips e10 e11 e23 e33; omega
  · refine ne_of_ends so0 t0 sc tc ?_; clear * - vv htips e10 e11 e23 e33; omega
  · refine ne_of_ends so0 t0 rfl td ?_; clear * - vv htips e10 e11 e23 e33; omega
  · refine ne_of_ends so1 t1 rfl th ?_; clear * - vv htips e10 e11 e23 e33; omega
  · refine ne_of_ends so1 t1 rfl tr ?_; clear * - vv htips e10 e11 e23 e33; omega
  · refine ne_of_ends so1 t1 sa ta ?_; clear * - vv htips e10 e11 e23 e33; omega
  · refine ne_of_ends so1 t1 rfl tb ?_; clear * - vv htips e10 e11 e23 e33; omega
  · refine ne_of_ends so1 t1 sc tc ?_; clear * - vv htips e10 e11 e23 e33; omega
  · refine ne_of_ends so1 t1 rfl td ?_; clear * - vv htips e10 e11 e23 e33; omega
  · refine ne_of_ends so2 t2 rfl th ?_; clear * - vv htips e10 e11 e23 e33; omega
  · refine ne_of_ends so2 t2 rfl tr ?_; clear * - vv htips e10 e11 e23 e33; omega
  · refine ne_of_ends so2 t2 sa ta ?_; clear * - vv htips e10 e11 e23 e33; omega
  · refine ne_of_ends so2 t2 rfl tb ?_; clear * - vv htips e10 e11 e23 e33; omega
  · refine ne_of_ends so2 t2 sc tc ?_; clear * - vv htips e10 e11 e23 e33; omega
  · refine ne_of_ends so2 t2 rfl td ?_; clear * - vv htips e10 e11 e23 e33; omega
  · refine ne_of_ends so3 t3 rfl th ?_; clear * - vv htips e10 e11 e23 e33; omega
  · refine ne_of_ends so3 t3 rfl tr ?_; clear * - vv htips e10 e11 e23 e33; omega
  · refine ne_of_ends so3 t3 sa ta ?_; clear * - vv htips e10 e11 e23 e33; omega
  · refine ne_of_ends so3 t3 rfl tb ?_; clear * - vv htips e10 e11 e23 e33; omega
  · refine ne_of_ends so3 t3 sc tc ?_; clear * - vv htips e10 e11 e23 e33; omega
  · refine ne_of_ends so3 t3 rfl td ?_; clear * - vv htips e10 e11 e23 e33; omega
  · refine ne_of_ends so0 t0 so1 t1 ?_; clear * - vv htips e10 e11 e23 e33; omega
  · refine ne_of_ends so0 t0 so2 t2 ?_; clear * - vv htips e10 e11 e23 e33; omega
  · refine ne_of_ends so0 t0 so3 t3 ?_; clear * - vv htips e10 e11 e23 e33; omega
  · refine ne_of_ends so1 t1 so2 t2 ?_; clear * - vv htips e10 e11 e23 e33; omega
  · refine ne_of_ends so1 t1 so3 t3 ?_; clear * - vv htips e10 e11 e23 e33; omega
  · refine ne_of_ends so2 t2 so3 t3 ?_; clear * - vv htips e10 e11 e23 e33; omega

/-- How the state after collapsing the edge `he` is related to the one before. -/
structure CollapseRel (m m' : Mesh F) (he rev a b c d o0 o1 o2 o3 v0 v1 v2 v3 : Nat) : Prop where
  hal : ∀ h, m'.hAlive h = true ↔
    m.hAlive h = true ∧ h ≠ he ∧ h ≠ rev ∧ h ≠ a ∧ h ≠ b ∧ h ≠ c ∧ h ≠ d
  val : ∀ v, m'.vAlive v = true ↔ m.vAlive v = true ∧ v ≠ v2
  fal : ∀ f, m'.fAlive f = true ↔ m.fAlive f = true ∧ f ≠ m.hFace he ∧ f ≠ m.hFace rev
  hfr : m'.hFresh = m.hFresh
  vfr : m'.vFresh = m.vFresh
  ffr : m'.fFresh = m.fFresh
  hd : Dense m'.hAlive m'.hIdx m'.hes
  vd : Dense m'.vAlive m'.vIdx m'.vs
  fd : Dense m'.fAlive m'.fIdx m'.fs
  nx : m'.hNext = m.hNext
  fc : m'.hFace = m.hFace
  bd : m'.hBd = m.hBd
  src : ∀ h, m.hAlive h = true → m'.hSrc h = if m.hSrc h = v2 then v0 else m.hSrc h
  R0 : m'.hRev o0 = o1
  R1 : m'.hRev o1 = o0
  R2 : m'.hRev o2 = o3
  R3 : m'.hRev o3 = o2
  RO : ∀ h, h ≠ o0 → h ≠ o1 → h ≠ o2 → h ≠ o3 → m'.hRev h = m.hRev h
  fh : m'.fHe = m.fHe
  V0 : m'.vHe v0 = o0
  V1 : m'.vHe v1 = o1
  V3 : m'.vHe v3 = o3
  VO : ∀ v, v ≠ v0 → v ≠ v1 → v ≠ v2 → v ≠ v3 → m'.vHe v = m.vHe v
  pos : m'.vPos = m.vPos
  lock : m'.vLock = m.vLock
  ind : m'.indices = m.indices

/-- the last part of `collapseHE`, mesh.cpp:787-842 -/
def collapseCommit [Scalar F] (he rev v0 v1 v2 v3 : Nat) : M F Bool := do
  assertVIdx v0
  assertVIdx v2
  M.assert (v2 != v0)
  let hr ← getVHe v2
  circ ringStep hr () (fun x _ => do
    let s ← getSrc x
    M.assert (s == v2)
    setSrc x v0
    pure (false, ()))
  let hm ← getVHe v0
  circ ringStep hm () (fun x _ => do
    let s ← getSrc x
    M.assert (s == v0)
    pure (false, ()))
  let n0 ← getNext he
  let nn0 ← getNext n0
  let he0 ← getRev nn0
  let he1 ← getRev n0
  setRev he0 he1
  setRev he1 he0
  let n1 ← getNext rev
  let nn1 ← getNext n1
  let he2 ← getRev nn1
  let he3 ← getRev n1
  setRev he2 he3
  setRev he3 he2
  setVHe v0 he0
  setVHe v0 he0
  setVHe v1 he1
  setVHe v2 he2
  setVHe v3 he3
  let f0 ← getFace he
  let f1 ← getFace rev
  let bf0 ← fIsBoundary f0
  M.assert (!bf0)
  let bf1 ← fIsBoundary f1
  M.assert (!bf1)
  let a1 ← getNext he
  let a2 ← getNext a1
  removeHalfedge a2
  let a1' ← getNext he
  removeHalfedge a1'
  removeHalfedge he
  let c1 ← getNext rev
  let c2 ← getNext c1
  removeHalfedge c2
  let c1' ← getNext rev
  removeHalfedge c1'
  removeHalfedge rev
  removeFace f0
  removeFace f1
  removeVertex v2
  return true

/-- the part of `collapseHE` after the exchange of the two half-edges -/
def collapseTail [Scalar F] (he rev : Nat) : M F Bool := do
  let fa ← getFace he
  let ba ← fIsBoundary fa
  if ba then return false
  let rr ← getRev he
  let fb ← getFace rr
  let bb ← fIsBoundary fb
  if bb then return false
  let v0 ← getSrc he
  let p1 ← getPrev he
  let v1 ← getSrc p1
  let v2 ← getSrc rev
  let p3 ← getPrev rev
  let v3 ← getSrc p3
  assertVIdx v0
  assertVIdx v1
  assertVIdx v2
  assertVIdx v3
  let d0 ← degree v0
  if d0 ≤ 3 then return false
  let d1 ← degree v1
  if d1 ≤ 4 then return false
  let d2 ← degree v2
  if d2 ≤ 3 then return false
  let d3 ← degree v3
  if d3 ≤ 4 then return false
  let neighbors ← ringDsts v2
  M.assert (!neighbors.isEmpty)
  let nb0 ← ringDsts v0
  let numUnion := (nb0.filter (fun d => neighbors.contains d)).length
  if numUnion ≠ 2 then return false
  let q0 ← getPos v0
  let q2 ← getPos v2
  let qs ← getPosList neighbors
  match collapseGeomOK q0 q2 qs with
  | none => M.fail .throw
  | some false => return false
  | some true => collapseCommit he rev v0 v1 v2 v3

theorem collapseHE_tail [Scalar F] (w : m.WF) {he : Nat} (a : m.HA he) :
    collapseHE he m = if m.outDeg (m.hSrc he) > m.outDeg (m.hSrc (m.hRev he))
      then collapseTail (m.hRev he) he m else collapseTail he (m.hRev he) m := by
  have ar := w.rev_alive _ a
  unfold collapseHE
  simp only [bind_apply, getRev_ok a, assertHIdx_ok w.hDense a, assertHIdx_ok w.hDense ar, getSrc_ok a,
    w.degree_ok (w.src_alive _ a), getSrc_ok ar, w.degree_ok (w.src_alive _ ar)]
  by_cases h : m.outDeg (m.hSrc he) > m.outDeg (m.hSrc (m.hRev he))
  · simp only [h, decide_true, if_true]; rfl
  · simp only [h, decide_false, Bool.false_eq_true, if_false]; rfl

end TinyMesh
