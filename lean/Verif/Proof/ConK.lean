import Verif.Proof.ConJ
/-
`construct(vertices, indices)`: clearing and merging of positions.
-/
set_option linter.unusedSimpArgs false
namespace TinyMesh
variable {F : Type} {m m' m0 : Mesh F}

theorem Owned.empty [Scalar F] (grow : Nat → Nat) : Owned (Mesh.empty (F := F) grow) := by
  constructor <;> simp [Mesh.empty]

/-- the state after `clear` -/
def Mesh.cleared (m : Mesh F) : Mesh F :=
  { m with
    hAlive := fun p => m.hAlive p && !m.hes.contains p
    vAlive := fun p => m.vAlive p && !m.vs.contains p
    fAlive := fun p => m.fAlive p && !m.fs.contains p
    hes := []
    vs := []
    fs := [] }

theorem clearArrays_eq (m : Mesh F) : clearArrays m = .ok () m.cleared := rfl

theorem Owned.ready (O : Owned m) : Ready m.cleared := by
  have gen : ∀ (al : Nat → Bool) (l : List Nat), (∀ p, al p = true → p ∈ l) → ∀ p, (al p && !l.contains p) = false := by
    intro al l h p
    cases hp : al p with
    | false => rfl
    | true => simp [h p hp]
  have gv := gen m.vAlive m.vs O.v
  refine ⟨rfl, rfl, gen _ _ O.h, gen _ _ O.f, by simp [Mesh.cleared], ?_, ?_, O.h0, O.v0, O.f0, ?_⟩
  · intro v
    have := gv v
    simp only [Mesh.cleared, this]; simp
  · intro v hv
    have : (m.vAlive v && !m.vs.contains v) = true := hv
    rw [gv v] at this; cases this
  · intro v hv
    have : (m.vAlive v && !m.vs.contains v) = true := hv
    rw [gv v] at this; cases this

section
variable [Scalar F]

theorem lookupPos_some : ∀ (tbl : List (Vec3 F × Nat)) (p : Vec3 F) (i : Nat), lookupPos tbl p = some i →
    ∃ q, (q, i) ∈ tbl ∧ q.eq p = true := by
  intro tbl
  induction tbl with
  | nil => intro p i h; simp [lookupPos] at h
  | cons e tbl ih =>
    obtain ⟨q, j⟩ := e
    intro p i h
    simp only [lookupPos] at h
    split at h
    · rename_i hq
      cases h
      exact ⟨q, by simp, hq⟩
    · obtain ⟨q', h1, h2⟩ := ih p i h
      exact ⟨q', by simp [h1], h2⟩

theorem lookupPos_none : ∀ (tbl : List (Vec3 F × Nat)) (p : Vec3 F), lookupPos tbl p = none →
    ∀ q i, (q, i) ∈ tbl → q.eq p = false := by
  intro tbl
  induction tbl with
  | nil => intro p _ q i h; simp at h
  | cons e tbl ih =>
    obtain ⟨q, j⟩ := e
    intro p h q' i hm
    simp only [lookupPos] at h
    split at h
    · cases h
    · rename_i hq
      rcases List.mem_cons.1 hm with hm | hm
      · cases hm; simpa using hq
      · exact ih p h q' i hm

theorem lookupPos_append : ∀ (tbl : List (Vec3 F × Nat)) (p : Vec3 F) (n : Nat), lookupPos tbl p = none →
    lookupPos (tbl ++ [(p, n)]) p = if p.eq p then some n else none := by
  intro tbl
  induction tbl with
  | nil => intro p n _; simp [lookupPos]
  | cons e tbl ih =>
    obtain ⟨q, j⟩ := e
    intro p n h
    simp only [lookupPos] at h
    split at h
    · cases h
    · rename_i hq
      simp only [List.cons_append, lookupPos, hq]
      exact ih p n h

/-- what the merging loop does not touch -/
structure DFrame (m m' : Mesh F) : Prop where
  hCap : m'.hCap = m.hCap
  hEpoch : m'.hEpoch = m.hEpoch
  grow : m'.grow = m.grow
  hFresh : m'.hFresh = m.hFresh
  fFresh : m'.fFresh = m.fFresh

/-- the state after a new vertex has been appended -/
def Mesh.pushV (m : Mesh F) (p : Vec3 F) : Mesh F :=
  { m with
    vAlive := upd m.vAlive m.vFresh true
    vPos := upd m.vPos m.vFresh p
    vHe := upd m.vHe m.vFresh 0
    vIdx := upd m.vIdx m.vFresh (-1)
    vLock := upd m.vLock m.vFresh false
    vFresh := m.vFresh + 1
    vs := m.vs ++ [m.vFresh] }

theorem Ready.pushV (R : Ready m) (p : Vec3 F) : Ready (m.pushV p) := by
  have hfree : m.vAlive m.vFresh = false := by
    cases h : m.vAlive m.vFresh with
    | false => rfl
    | true => have := (R.vB _ h).2; omega
  have hnm : m.vFresh ∉ m.vs := by rw [R.mem, hfree]; simp
  refine ⟨R.hes, R.fs, R.hal, R.fal, ?_, ?_, ?_, R.h0, Nat.succ_pos _, R.f0, ?_⟩
  · show (m.vs ++ [m.vFresh]).Nodup
    rw [List.nodup_append]
    refine ⟨R.nodup, by simp, ?_⟩
    intro a ha b hb e
    rw [List.mem_singleton] at hb
    subst hb; subst e; exact hnm ha
  · intro v
    show v ∈ m.vs ++ [m.vFresh] ↔ upd m.vAlive m.vFresh true v = true
    by_cases c : v = m.vFresh
    · subst c; simp [upd]
    · simp [upd, c, R.mem]
  · intro v hv
    show 0 < v ∧ v < m.vFresh + 1
    have hv : upd m.vAlive m.vFresh true v = true := hv
    by_cases c : v = m.vFresh
    · have := R.v0; omega
    · rw [upd_ne _ _ c] at hv
      have := R.vB v hv; omega
  · intro v hv
    have hv : upd m.vAlive m.vFresh true v = true := hv
    show upd m.vHe m.vFresh 0 v = 0
    by_cases c : v = m.vFresh
    · subst c; rw [upd_same]
    · rw [upd_ne _ _ c] at hv ⊢
      exact R.vHe v hv

theorem Ready.pushV_pos (R : Ready m) (p : Vec3 F) : (m.pushV p).vs.map (m.pushV p).vPos = m.vs.map m.vPos ++ [p] := by
  show (m.vs ++ [m.vFresh]).map (upd m.vPos m.vFresh p) = _
  rw [List.map_append, List.map_singleton, upd_same]
  congr 1
  apply List.map_congr_left
  intro v hv
  apply upd_ne
  have := (R.vB v ((R.mem v).1 hv)).2
  omega

theorem Ready.setIdx (R : Ready m) (l : List Nat) : Ready { m with indices := l } :=
  ⟨R.hes, R.fs, R.hal, R.fal, R.nodup, R.mem, R.vB, R.h0, R.v0, R.f0, R.vHe⟩

/-- one corner whose position is known -/
theorem dedup_old {V : List (Vec3 F)} {i : Nat} {rest : List Nat} {tbl : List (Vec3 F × Nat)} {p : Vec3 F} {k : Nat}
    (hp : V[i]? = some p) (hl : lookupPos tbl p = some k) :
    dedupLoop V (i :: rest) tbl m = dedupLoop V rest tbl { m with indices := m.indices ++ [k] } := by
  simp [dedupLoop, hp, bind_apply, read_apply, hl, pushIndex, pure_apply]

theorem dedup_new {V : List (Vec3 F)} {i : Nat} {rest : List Nat} {tbl : List (Vec3 F × Nat)} {p : Vec3 F}
    (hp : V[i]? = some p) (hl : lookupPos tbl p = none) :
    dedupLoop V (i :: rest) tbl m =
      dedupLoop V rest (if p.eq p then tbl ++ [(p, m.vs.length)] else tbl ++ [(p, m.vs.length)] ++ [(p, 0)])
        { m.pushV p with indices := m.indices ++ [if p.eq p then m.vs.length else 0] } := by
  have h2 := lookupPos_append tbl p m.vs.length hl
  simp only [dedupLoop, hp, bind_apply, read_apply, hl, pushIndex, newVertex, pushVertex, Option.isNone_none, if_true, h2]
  by_cases c : p.eq p = true
  · simp only [c, if_true]; rfl
  · simp only [c, if_false]; rfl

/-- the merging loop needs nothing but indices in range -/
theorem dedup_ready (V : List (Vec3 F)) : ∀ (I : List Nat) (tbl : List (Vec3 F × Nat)) (m : Mesh F), Ready m →
    (∀ i ∈ I, i < V.length) → (∀ q i, (q, i) ∈ tbl → i < m.vs.length) →
    ∃ m' J, dedupLoop V I tbl m = .ok () m' ∧ Ready m' ∧ DFrame m m' ∧ m'.indices = m.indices ++ J ∧
      J.length = I.length ∧ (∀ j ∈ J, j < m'.vs.length) ∧ m.vs.length ≤ m'.vs.length := by
  intro I
  induction I with
  | nil =>
    intro tbl m R _ _
    exact ⟨m, [], rfl, R, ⟨rfl, rfl, rfl, rfl, rfl⟩, by simp, rfl, by simp, Nat.le_refl _⟩
  | cons i I ih =>
    intro tbl m R hI ht
    have hi := hI i (by simp)
    have hp := List.getElem?_eq_getElem hi
    cases hl : lookupPos tbl V[i] with
    | some k =>
      obtain ⟨q, hq, _⟩ := lookupPos_some _ _ _ hl
      have hk := ht q k hq
      rw [dedup_old hp hl]
      obtain ⟨m', J, e, R', D, hJ, hlen, hr, hle⟩ := ih tbl { m with indices := m.indices ++ [k] } (R.setIdx _)
        (fun x hx => hI x (by simp [hx])) ht
      have hle : m.vs.length ≤ m'.vs.length := hle
      refine ⟨m', k :: J, e, R', ⟨D.1, D.2, D.3, D.4, D.5⟩, by rw [hJ]; simp, by simp [hlen], ?_, hle⟩
      intro j hj
      rcases List.mem_cons.1 hj with rfl | hj
      · omega
      · exact hr j hj
    | none =>
      rw [dedup_new hp hl]
      have hvl : (m.pushV V[i]).vs.length = m.vs.length + 1 := by
        show (m.vs ++ [m.vFresh]).length = _
        simp
      have ht' : ∀ q j, (q, j) ∈ (if V[i].eq V[i] then tbl ++ [(V[i], m.vs.length)] else tbl ++ [(V[i], m.vs.length)] ++ [(V[i], 0)]) →
          j < (m.pushV V[i]).vs.length := by
        intro q j hm
        rw [hvl]
        have key : (q, j) ∈ tbl ∨ j = m.vs.length ∨ j = 0 := by
          split at hm
          · simp only [List.mem_append, List.mem_singleton, Prod.mk.injEq] at hm
            rcases hm with hm | hm
            · exact Or.inl hm
            · exact Or.inr (Or.inl hm.2)
          · simp only [List.mem_append, List.mem_singleton, Prod.mk.injEq] at hm
            rcases hm with (hm | hm) | hm
            · exact Or.inl hm
            · exact Or.inr (Or.inl hm.2)
            · exact Or.inr (Or.inr hm.2)
        rcases key with h | h | h
        · have := ht q j h; omega
        · omega
        · omega
      obtain ⟨m', J, e, R', D, hJ, hlen, hr, hle⟩ := ih _
        { m.pushV V[i] with indices := m.indices ++ [if V[i].eq V[i] then m.vs.length else 0] } ((R.pushV _).setIdx _)
        (fun x hx => hI x (by simp [hx])) ht'
      have hle : (m.pushV V[i]).vs.length ≤ m'.vs.length := hle
      rw [hvl] at hle
      refine ⟨m', (if V[i].eq V[i] then m.vs.length else 0) :: J, e, R', ⟨D.1, D.2, D.3, D.4, D.5⟩, by rw [hJ]; simp,
        by simp [hlen], ?_, by omega⟩
      intro j hj
      rcases List.mem_cons.1 hj with rfl | hj
      · split <;> omega
      · exact hr j hj

theorem dedup_range (V : List (Vec3 F)) : ∀ (I : List Nat) (tbl : List (Vec3 F × Nat)) (m : Mesh F),
    (∃ i ∈ I, V.length ≤ i) → dedupLoop V I tbl m = .err .ub := by
  intro I
  induction I with
  | nil => intro tbl m h; simp at h
  | cons i I ih =>
    intro tbl m h
    by_cases hi : i < V.length
    · have h' : ∃ i ∈ I, V.length ≤ i := by
        obtain ⟨j, hj, hv⟩ := h
        rcases List.mem_cons.1 hj with rfl | hj
        · omega
        · exact ⟨j, hj, hv⟩
      have hp := List.getElem?_eq_getElem hi
      cases hl : lookupPos tbl V[i] with
      | some k => rw [dedup_old hp hl]; exact ih _ _ h'
      | none => rw [dedup_new hp hl]; exact ih _ _ h'
    · have : V[i]? = none := List.getElem?_eq_none (by omega)
      simp [dedupLoop, this, M.fail]

theorem Merged.snoc_old {V : List (Vec3 F)} {I J : List Nat} {P : List (Vec3 F)} (D : Merged V I P J) {i k : Nat} {p q : Vec3 F}
    (hp : V[i]? = some p) (hq : P[k]? = some q) (he : q.eq p = true) : Merged V (I ++ [i]) P (J ++ [k]) := by
  refine ⟨by simp [D.len], ?_, D.diff, ?_⟩
  · intro n a b ha hb
    by_cases c : n < I.length
    · rw [List.getElem?_append_left c] at ha
      rw [List.getElem?_append_left (by rw [D.len]; exact c)] at hb
      exact D.pos n a b ha hb
    · have hn : n = I.length := by
        have := (List.getElem?_eq_some_iff.1 ha).1
        simp at this; omega
      subst hn
      rw [List.getElem?_concat_length] at ha
      rw [← D.len, List.getElem?_concat_length] at hb
      cases ha; cases hb
      exact ⟨p, q, hp, hq, he⟩
  · intro a x hx
    obtain ⟨n, c, h1, h2, h3, h4⟩ := D.first a x hx
    have hn := (List.getElem?_eq_some_iff.1 h1).1
    have hn' : n < J.length := by rw [D.len]; exact hn
    refine ⟨n, c, by rw [List.getElem?_append_left hn]; exact h1, h2, by rw [List.getElem?_append_left hn']; exact h3, ?_⟩
    intro k' j hk' hj
    rw [List.getElem?_append_left (by omega)] at hj
    exact h4 k' j hk' hj

theorem Merged.snoc_new {V : List (Vec3 F)} {I J : List Nat} {P : List (Vec3 F)} (D : Merged V I P J) {i : Nat} {p : Vec3 F}
    (hp : V[i]? = some p) (hr : p.eq p = true) (hn : ∀ q ∈ P, q.eq p = false) :
    Merged V (I ++ [i]) (P ++ [p]) (J ++ [P.length]) := by
  refine ⟨by simp [D.len], ?_, ?_, ?_⟩
  · intro n a b ha hb
    by_cases c : n < I.length
    · rw [List.getElem?_append_left c] at ha
      rw [List.getElem?_append_left (by rw [D.len]; exact c)] at hb
      obtain ⟨x, y, h1, h2, h3⟩ := D.pos n a b ha hb
      exact ⟨x, y, h1, by rw [List.getElem?_append_left (List.getElem?_eq_some_iff.1 h2).1]; exact h2, h3⟩
    · have hn : n = I.length := by
        have := (List.getElem?_eq_some_iff.1 ha).1
        simp at this; omega
      subst hn
      rw [List.getElem?_concat_length] at ha
      rw [← D.len, List.getElem?_concat_length] at hb
      cases ha; cases hb
      exact ⟨p, p, hp, by rw [List.getElem?_concat_length], hr⟩
  · intro a b x y hab hx hy
    by_cases c : b < P.length
    · rw [List.getElem?_append_left (by omega)] at hx
      rw [List.getElem?_append_left c] at hy
      exact D.diff a b x y hab hx hy
    · have hb : b = P.length := by
        have := (List.getElem?_eq_some_iff.1 hy).1
        simp at this; omega
      subst hb
      rw [List.getElem?_concat_length] at hy
      cases hy
      rw [List.getElem?_append_left hab] at hx
      exact hn x (List.mem_of_getElem? hx)
  · intro a x hx
    by_cases c : a < P.length
    · rw [List.getElem?_append_left c] at hx
      obtain ⟨n, c, h1, h2, h3, h4⟩ := D.first a x hx
      have hn := (List.getElem?_eq_some_iff.1 h1).1
      have hn' : n < J.length := by rw [D.len]; exact hn
      refine ⟨n, c, by rw [List.getElem?_append_left hn]; exact h1, h2, by rw [List.getElem?_append_left hn']; exact h3, ?_⟩
      intro k' j hk' hj
      rw [List.getElem?_append_left (by omega)] at hj
      exact h4 k' j hk' hj
    · have hb : a = P.length := by
        have := (List.getElem?_eq_some_iff.1 hx).1
        simp at this; omega
      subst hb
      rw [List.getElem?_concat_length] at hx
      cases hx
      refine ⟨I.length, i, by rw [List.getElem?_concat_length], hp, by rw [← D.len, List.getElem?_concat_length], ?_⟩
      intro k' j hk' hj
      rw [List.getElem?_append_left (by rw [D.len]; exact hk')] at hj
      have hk2 : I[k']? = some I[k'] := List.getElem?_eq_getElem hk'
      obtain ⟨_, y, _, h2, _⟩ := D.pos k' _ j hk2 hj
      exact (List.getElem?_eq_some_iff.1 h2).1

/-- positions that are equal to themselves (no NaN) are merged correctly -/
theorem dedup_merged (V : List (Vec3 F)) : ∀ (I : List Nat) (m : Mesh F) (pre J0 : List Nat), Ready m →
    (∀ i ∈ I, ∃ p, V[i]? = some p ∧ p.eq p = true) → Merged V pre (m.vs.map m.vPos) J0 →
    ∃ m' J, dedupLoop V I (m.vs.map m.vPos).zipIdx m = .ok () m' ∧ m'.indices = m.indices ++ J ∧
      Merged V (pre ++ I) (m'.vs.map m'.vPos) (J0 ++ J) := by
  intro I
  induction I with
  | nil => intro m pre J0 R _ D; exact ⟨m, [], rfl, by simp, by simpa using D⟩
  | cons i I ih =>
    intro m pre J0 R hI D
    obtain ⟨p, hp, hr⟩ := hI i (by simp)
    cases hl : lookupPos (m.vs.map m.vPos).zipIdx p with
    | some k =>
      obtain ⟨q, hq, he⟩ := lookupPos_some _ _ _ hl
      have hq' : (m.vs.map m.vPos)[k]? = some q := List.mem_zipIdx_iff_getElem?.1 hq
      rw [dedup_old hp hl]
      obtain ⟨m', J, e, hJ, D'⟩ := ih { m with indices := m.indices ++ [k] } (pre ++ [i]) (J0 ++ [k]) (R.setIdx _)
        (fun x hx => hI x (by simp [hx])) (D.snoc_old hp hq' he)
      exact ⟨m', k :: J, e, by rw [hJ]; simp, by simpa using D'⟩
    | none =>
      rw [dedup_new hp hl]
      simp only [hr, if_true]
      have hP : (m.pushV p).vs.map (m.pushV p).vPos = m.vs.map m.vPos ++ [p] := R.pushV_pos p
      have hn : ∀ q ∈ m.vs.map m.vPos, q.eq p = false := by
        intro q hq
        obtain ⟨j, hj, e⟩ := List.getElem_of_mem hq
        refine lookupPos_none _ _ hl q j (List.mem_zipIdx_iff_getElem?.2 ?_)
        rw [List.getElem?_eq_getElem hj, e]
      have D1 := D.snoc_new hp hr hn
      have hz : (m.vs.map m.vPos).zipIdx ++ [(p, m.vs.length)] = ((m.pushV p).vs.map (m.pushV p).vPos).zipIdx := by
        rw [hP, List.zipIdx_append]; simp
      rw [hz]
      rw [← hP, List.length_map] at D1
      obtain ⟨m', J, e, hJ, D'⟩ := ih { m.pushV p with indices := m.indices ++ [m.vs.length] } (pre ++ [i]) (J0 ++ [m.vs.length])
        ((R.pushV p).setIdx _) (fun x hx => hI x (by simp [hx])) D1
      exact ⟨m', m.vs.length :: J, e, by rw [hJ]; simp, by simpa using D'⟩

end

end TinyMesh
