import Verif.Proof.LinesC
/-
Ridge and valley lines: the solution of the linear system.
-/
namespace TinyMesh
open Orbit

/-! ### Maximum principle -/
section
variable {F : Type} {m : Mesh F} {p : Nat → E3}

theorem harm_le (w : m.WF) {S : Nat → Prop} (nn : ∀ h, m.hAlive h = true → ¬S (m.hSrc h) → 0 ≤ m.cotOf p h)
    (lk : ∀ v, m.vAlive v = true → m.Linked p S v) {x : Nat → ℝ} {c : ℝ} (on : ∀ v, m.vAlive v = true → S v → x v ≤ c)
    (off : ∀ v, m.vAlive v = true → ¬S v → m.weightOut (fun h => m.cotOf p h * (x v - x (m.hSrc (m.hNext h)))) v = 0) :
    ∀ v, m.vAlive v = true → x v ≤ c := by
  intro v0 a0
  have hne : m.vs ≠ [] := List.ne_nil_of_mem ((w.vDense.mem v0).2 a0)
  obtain ⟨v, hv, hm⟩ : ∃ v ∈ m.vs, ∀ u ∈ m.vs, x u ≤ x v := by
    obtain ⟨v, hv⟩ : ∃ v, v ∈ List.argmax x m.vs := by
      cases h : List.argmax x m.vs with
      | none => exact absurd (List.argmax_eq_none.1 h) hne
      | some v => exact ⟨v, rfl⟩
    exact ⟨v, List.argmax_mem hv, fun u hu => List.le_of_mem_argmax hu hv⟩
  have hv0 := hm v0 ((w.vDense.mem v0).2 a0)
  by_contra hc
  have big : c < x v := lt_of_lt_of_le (not_le.1 hc) hv0
  have key : ∀ u, m.Linked p S u → m.vAlive u = true → x u = x v → False := by
    intro u lu
    induction lu with
    | here hs => intro au e; have := on _ au hs; rw [e] at this; exact absurd this (not_le.2 big)
    | step ha hp _ ih =>
      rename_i h _
      intro au e
      have a1 := w.src_alive _ (w.next_alive _ ha)
      by_cases hs : S (m.hSrc h)
      · have := on _ au hs; rw [e] at this; exact absurd this (not_le.2 big)
      · have h0 := off _ au hs
        unfold Mesh.weightOut at h0
        have hn : ∀ y ∈ (m.hes.filter fun z => m.hSrc z == m.hSrc h).map (fun z => m.cotOf p z * (x (m.hSrc h) - x (m.hSrc (m.hNext z)))), 0 ≤ y := by
          intro y hy
          obtain ⟨z, hz, rfl⟩ := List.mem_map.1 hy
          have az := (w.hDense.mem z).1 (List.mem_filter.1 hz).1
          have sz : m.hSrc z = m.hSrc h := by simpa using (List.mem_filter.1 hz).2
          refine mul_nonneg (nn z az (sz ▸ hs)) (sub_nonneg.2 ?_)
          rw [e]
          exact hm _ ((w.vDense.mem _).2 (w.src_alive _ (w.next_alive _ az)))
        have hmem : h ∈ m.hes.filter fun z => m.hSrc z == m.hSrc h := List.mem_filter.2 ⟨(w.hDense.mem h).2 ha, by simp⟩
        have h1 := List.single_le_sum hn _ (List.mem_map_of_mem hmem)
        rw [h0] at h1
        have h2 := hn _ (List.mem_map_of_mem hmem)
        have h3 : m.cotOf p h * (x (m.hSrc h) - x (m.hSrc (m.hNext h))) = 0 := le_antisymm h1 h2
        have h4 := (mul_eq_zero.1 h3).resolve_left hp.ne'
        exact ih a1 (by linarith)
  exact key v (lk v ((w.vDense.mem v).1 hv)) ((w.vDense.mem v).1 hv) rfl

end

/-! ### The matrices -/

theorem coefK {l lc : List Nat} {i : Nat} (hi : i ∈ l) (nd : lc.Nodup) (Y : Nat → ℝ) : ∀ K : List Keyed,
    (∀ k ∈ K, k.1 ∈ l ∧ k.2.1 ∈ lc) →
    ∑ b : Fin lc.length, coef (K.map (numbered l lc)) (l.idxOf i) b * Y lc[b] =
      ((K.filter fun k => k.1 == i).map fun k => k.2.2 * Y k.2.1).sum
  | [], _ => by simp [coef]
  | k :: K, h => by
    obtain ⟨h1, h2⟩ := h k (by simp)
    have ih := coefK hi nd Y K fun x hx => h x (by simp [hx])
    simp only [List.map_cons, coef_cons, add_mul, Finset.sum_add_distrib, ih]
    rw [List.filter_cons]
    have hj := List.idxOf_lt_length_iff.2 h2
    by_cases e : k.1 = i
    · rw [if_pos (by simpa using e), List.map_cons, List.sum_cons]
      congr 1
      rw [Finset.sum_eq_single (⟨lc.idxOf k.2.1, hj⟩ : Fin lc.length)]
      · rw [if_pos ⟨by simp [numbered, e], by simp [numbered]⟩]
        change k.2.2 * Y lc[lc.idxOf k.2.1] = _
        rw [List.getElem_idxOf]
      · intro b _ hb
        rw [if_neg, zero_mul]
        rintro ⟨-, e2⟩
        exact hb (Fin.ext (by simpa [numbered] using e2.symm))
      · simp
    · rw [if_neg (by simpa using e)]
      refine (add_eq_right.2 ?_)
      refine Finset.sum_eq_zero fun b _ => ?_
      rw [if_neg, zero_mul]
      rintro ⟨e1, -⟩
      have : l.idxOf k.1 = l.idxOf i := by simpa [numbered] using e1
      exact e ((List.idxOf_inj h1).1 this)

theorem filter_rows_of {row : Nat → List Keyed} (hr : ∀ i, ∀ k ∈ row i, k.1 = i) {i : Nat} : ∀ l : List Nat, l.Nodup → i ∈ l →
    (l.flatMap row).filter (fun k => k.1 == i) = row i := by
  have none : ∀ l : List Nat, i ∉ l → (l.flatMap row).filter (fun k => k.1 == i) = [] := by
    intro l hl
    rw [List.filter_eq_nil_iff]
    intro k hk
    obtain ⟨j, hj, hk⟩ := List.mem_flatMap.1 hk
    rw [hr j k hk]
    simp only [beq_iff_eq]
    rintro rfl
    exact hl hj
  have all : (row i).filter (fun k => k.1 == i) = row i := List.filter_eq_self.2 fun k hk => by rw [hr i k hk]; simp
  intro l
  induction l with
  | nil => intro _ h; cases h
  | cons x l ih =>
    intro nd hm
    obtain ⟨hx, nd⟩ := List.nodup_cons.1 nd
    rw [List.flatMap_cons, List.filter_append]
    by_cases e : x = i
    · subst e; rw [none l hx, all, List.append_nil]
    · have : (row x).filter (fun k => k.1 == i) = [] := by
        rw [List.filter_eq_nil_iff]
        intro k hk
        rw [hr x k hk]; simpa using e
      rw [this, List.nil_append, ih nd ((List.mem_cons.1 hm).resolve_left fun h => e h.symm)]

theorem filter_rows {row : Nat → List Keyed} (hr : ∀ i, ∀ k ∈ row i, k.1 = i) {n i : Nat} (hi : i < n) :
    ((List.range n).flatMap row).filter (fun k => k.1 == i) = row i := filter_rows_of hr _ List.nodup_range (by simpa using hi)

theorem sum_filter_ite (q : Nat → Bool) (f : Nat → ℝ) (l : List Nat) : ((l.filter q).map f).sum = (l.map fun h => if q h then f h else 0).sum := by
  induction l with
  | nil => rfl
  | cons a l ih =>
    rw [List.filter_cons, List.map_cons, List.sum_cons]
    by_cases h : q a = true
    · rw [if_pos h, if_pos h, List.map_cons, List.sum_cons, ih]
    · rw [if_neg h, if_neg h, ih, zero_add]

section
variable {m : Mesh XR} {p : Nat → E3} {fr : Nat → Bool}

theorem rowK_fst (i : Nat) : ∀ k ∈ rowK m p fr i, k.1 = i := by
  intro k hk
  unfold rowK at hk
  by_cases f : fr i = true
  · rw [if_pos f] at hk
    rcases List.mem_append.1 hk with hk | hk
    · obtain ⟨h, -, rfl⟩ := List.mem_map.1 hk; rfl
    · simp at hk; rw [hk]
  · rw [if_neg f] at hk; cases hk

theorem rowKF_fst (i : Nat) : ∀ k ∈ rowKF m p fr i, k.1 = i := by
  intro k hk
  unfold rowKF at hk
  by_cases f : fr i = true
  · rw [if_pos f] at hk
    obtain ⟨h, -, rfl⟩ := List.mem_map.1 hk; rfl
  · rw [if_neg f] at hk; cases hk

theorem Mesh.WF.at_endIdx (w : m.WF) {h : Nat} (a : m.hAlive h = true) : m.vs.getD (m.endIdx h) 0 = m.hSrc (m.hNext h) := by
  obtain ⟨j, hj⟩ := w.vDense.exists_at (w.src_alive _ (w.next_alive _ a))
  unfold Mesh.endIdx
  rw [w.vDense.idx_of hj, Int.toNat_natCast, List.getD_eq_getElem?_getD, hj, Option.getD_some]

theorem sum_sub' (l : List Nat) (f g : Nat → ℝ) : (l.map f).sum + (l.map g).sum = (l.map fun h => f h + g h).sum := by
  induction l with
  | nil => simp
  | cons a l ih => simp only [List.map_cons, List.sum_cons, ← ih]; ring

theorem rowK_sum (w : m.WF) {i v : Nat} (hi : m.vs[i]? = some v) (f : fr i = true) (y : Nat → ℝ) :
    ((rowK m p fr i).map fun k => k.2.2 * y (m.vs.getD k.2.1 0)).sum =
      m.weightOut (fun h => m.cotOf p h * y v - if fr (m.endIdx h) then m.cotOf p h * y (m.hSrc (m.hNext h)) else 0) v := by
  have a := w.vDense.alive_at hi
  have hg : m.vs.getD i 0 = v := by rw [List.getD_eq_getElem?_getD, hi, Option.getD_some]
  unfold rowK offDiag
  rw [if_pos f, hg, List.map_append, List.sum_append, List.map_map, w.weightOut_ring a]
  rw [sum_filter_ite (fun h => fr (m.endIdx h))]
  simp only [Function.comp, List.map_cons, List.map_nil, List.sum_cons, List.sum_nil, add_zero, hg]
  rw [← List.sum_map_mul_right, sum_sub']
  congr 1
  refine List.map_congr_left fun h hh => ?_
  rw [w.at_endIdx ((w.mem_ring a).1 hh).1]
  split <;> ring

theorem rowKF_sum (w : m.WF) {i v : Nat} (hi : m.vs[i]? = some v) (f : fr i = true) (y : Nat → ℝ) :
    ((rowKF m p fr i).map fun k => k.2.2 * y (m.vs.getD k.2.1 0)).sum =
      m.weightOut (fun h => if fr (m.endIdx h) then 0 else -(m.cotOf p h * y (m.hSrc (m.hNext h)))) v := by
  have a := w.vDense.alive_at hi
  have hg : m.vs.getD i 0 = v := by rw [List.getD_eq_getElem?_getD, hi, Option.getD_some]
  unfold rowKF offDiag
  rw [if_pos f, hg, List.map_map, w.weightOut_ring a, sum_filter_ite (fun h => !fr (m.endIdx h))]
  congr 1
  refine List.map_congr_left fun h hh => ?_
  simp only [Function.comp]
  rw [w.at_endIdx ((w.mem_ring a).1 hh).1]
  cases fr (m.endIdx h) <;> simp

/-- the system matrix -/
noncomputable def lineMat (m : Mesh XR) (p : Nat → E3) (fr : Nat → Bool) (l : List Nat) : Matrix (Fin l.length) (Fin l.length) ℝ :=
  fun a b => coef (((List.range m.vs.length).flatMap (rowK m p fr)).map (numbered l l)) a b

variable {t : LineSys XR}

theorem lineMat_apply (w : m.WF) (H : SysHolds m.vs.length fr t ((List.range m.vs.length).flatMap (rowK m p fr))
    ((List.range m.vs.length).flatMap (rowKF m p fr))) (y : Nat → ℝ) {a : Fin t.free.length} {v : Nat} (hv : m.vs[t.free[a]]? = some v) :
    (lineMat m p fr t.free).mulVec (fun b => y (m.vs.getD t.free[b] 0)) a =
      m.weightOut (fun h => m.cotOf p h * y v - if fr (m.endIdx h) then m.cotOf p h * y (m.hSrc (m.hNext h)) else 0) v := by
  have ha : t.free[a] ∈ t.free := List.getElem_mem _
  have hx : t.free.idxOf t.free[a] = a := List.Nodup.idxOf_getElem H.nd _ _
  have := coefK ha H.nd (fun j => y (m.vs.getD j 0)) _ H.keys
  rw [filter_rows rowK_fst (H.mem _ ha).1, rowK_sum w hv (H.mem _ ha).2, hx] at this
  exact this

theorem fixedMat_apply (w : m.WF) (H : SysHolds m.vs.length fr t ((List.range m.vs.length).flatMap (rowK m p fr))
    ((List.range m.vs.length).flatMap (rowKF m p fr))) (y : Nat → ℝ) {a : Fin t.free.length} {v : Nat} (hv : m.vs[t.free[a]]? = some v) :
    ∑ b : Fin t.fixed.length, coef (((List.range m.vs.length).flatMap (rowKF m p fr)).map (numbered t.free t.fixed)) a b *
        y (m.vs.getD t.fixed[b] 0) =
      m.weightOut (fun h => if fr (m.endIdx h) then 0 else -(m.cotOf p h * y (m.hSrc (m.hNext h)))) v := by
  have ha : t.free[a] ∈ t.free := List.getElem_mem _
  have hx : t.free.idxOf t.free[a] = a := List.Nodup.idxOf_getElem H.nd _ _
  have := coefK ha H.ndF (fun j => y (m.vs.getD j 0)) _ H.keysF
  rw [filter_rows rowKF_fst (H.mem _ ha).1, rowKF_sum w hv (H.mem _ ha).2, hx] at this
  exact this

/-- the vertex of a row -/
theorem SysHolds.vert {K KF : List Keyed} (H : SysHolds m.vs.length fr t K KF) (a : Fin t.free.length) :
    ∃ v, m.vs[t.free[a]]? = some v ∧ m.vs.getD t.free[a] 0 = v := by
  have hl : t.free[a] < m.vs.length := (H.mem _ (List.getElem_mem a.2)).1
  refine ⟨_, List.getElem?_eq_getElem hl, ?_⟩
  rw [List.getD_eq_getElem?_getD, List.getElem?_eq_getElem hl, Option.getD_some]

theorem SysHolds.vert_inj {K KF : List Keyed} (w : m.WF) (H : SysHolds m.vs.length fr t K KF) {a b : Fin t.free.length}
    (h : m.vs.getD t.free[a] 0 = m.vs.getD t.free[b] 0) : a = b := by
  have la : t.free[a] < m.vs.length := (H.mem _ (List.getElem_mem a.2)).1
  have lb : t.free[b] < m.vs.length := (H.mem _ (List.getElem_mem b.2)).1
  rw [List.getD_eq_getElem?_getD, List.getElem?_eq_getElem la, Option.getD_some, List.getD_eq_getElem?_getD, List.getElem?_eq_getElem lb,
    Option.getD_some] at h
  have := (List.Nodup.getElem_inj_iff w.vDense.nodup).1 h
  exact Fin.ext ((List.Nodup.getElem_inj_iff H.nd).1 this)

/-- values at rows as a function of vertices -/
theorem SysHolds.extend {K KF : List Keyed} (w : m.WF) (H : SysHolds m.vs.length fr t K KF) (x : Fin t.free.length → ℝ) (D : Nat → ℝ) :
    ∃ y : Nat → ℝ, (∀ a : Fin t.free.length, y (m.vs.getD t.free[a] 0) = x a) ∧
      ∀ (i : Nat) v, m.vs[i]? = some v → fr i = false → y v = D v := by
  classical
  refine ⟨fun v => if h : ∃ a : Fin t.free.length, m.vs.getD t.free[a] 0 = v then x h.choose else D v, ?_, ?_⟩
  · intro a
    have h : ∃ b : Fin t.free.length, m.vs.getD t.free[b] 0 = m.vs.getD t.free[a] 0 := ⟨a, rfl⟩
    dsimp only
    rw [dif_pos h, H.vert_inj w h.choose_spec]
  · intro i v hi f
    dsimp only
    rw [dif_neg]
    rintro ⟨a, ha⟩
    obtain ⟨u, h1, h2⟩ := H.vert a
    rw [h2] at ha
    subst ha
    obtain ⟨l1, e1⟩ := List.getElem?_eq_some_iff.1 hi
    obtain ⟨l2, e2⟩ := List.getElem?_eq_some_iff.1 h1
    have e := (List.Nodup.getElem_inj_iff w.vDense.nodup).1 (e1.trans e2.symm)
    have := (H.mem _ (List.getElem_mem a.2)).2
    change fr t.free[a] = true at this
    rw [e, this] at f
    cases f

theorem weightOut_congr (w : m.WF) {f g : Nat → ℝ} {v : Nat} (h : ∀ x, m.hAlive x = true → m.hSrc x = v → f x = g x) :
    m.weightOut f v = m.weightOut g v := by
  unfold Mesh.weightOut
  congr 1
  refine List.map_congr_left fun x hx => ?_
  obtain ⟨h1, h2⟩ := List.mem_filter.1 hx
  exact h x ((w.hDense.mem x).1 h1) (by simpa using h2)

theorem weightOut_sub (f g : Nat → ℝ) (v : Nat) : m.weightOut (fun h => f h - g h) v = m.weightOut f v - m.weightOut g v := by
  unfold Mesh.weightOut
  generalize m.hes.filter _ = l
  induction l with
  | nil => simp
  | cons a l ih => simp only [List.map_cons, List.sum_cons, ih]; ring

theorem weightOut_neg (f : Nat → ℝ) (v : Nat) : m.weightOut (fun h => -f h) v = -m.weightOut f v := by
  unfold Mesh.weightOut
  generalize m.hes.filter _ = l
  induction l with
  | nil => simp
  | cons a l ih => simp only [List.map_cons, List.sum_cons, ih]; ring

theorem lineMat_symm (w : m.WF) (H : SysHolds m.vs.length fr t ((List.range m.vs.length).flatMap (rowK m p fr))
    ((List.range m.vs.length).flatMap (rowKF m p fr))) : (lineMat m p fr t.free).IsSymm := by
  classical
  have entry : ∀ a b, lineMat m p fr t.free a b = (if m.vs.getD t.free[a] 0 = m.vs.getD t.free[b] 0 then m.weightOut (m.cotOf p) (m.vs.getD t.free[a] 0) else 0) -
      m.weightTo (m.cotOf p) (m.vs.getD t.free[a] 0) (m.vs.getD t.free[b] 0) := by
    intro a b
    obtain ⟨v, hv, ev⟩ := H.vert a
    obtain ⟨u, hu, eu⟩ := H.vert b
    have h1 := lineMat_apply w H (fun x => if x = u then 1 else 0) hv
    have h2 : (fun b' : Fin t.free.length => if m.vs.getD t.free[b'] 0 = u then (1 : ℝ) else 0) = Pi.single b 1 := by
      funext b'
      rw [Pi.single_apply]
      by_cases e : b' = b
      · rw [if_pos e, e, if_pos eu]
      · rw [if_neg e, if_neg (fun h => e (H.vert_inj w (h.trans eu.symm)))]
    rw [h2, Matrix.mulVec_single_one, Matrix.col_apply] at h1
    rw [h1, ev, eu, weightOut_sub]
    congr 1
    · by_cases e : v = u
      · simp only [if_pos e, mul_one]
      · rw [if_neg e]
        unfold Mesh.weightOut
        simp [e]
    · rw [weightTo_eq, sum_filter_ite (fun h => m.hSrc (m.hNext h) == u)]
      refine weightOut_congr w fun x ax _ => ?_
      by_cases e : m.hSrc (m.hNext x) = u
      · have : fr (m.endIdx x) = true := by
          have hx : m.endIdx x = t.free[b] := by
            unfold Mesh.endIdx
            rw [e, w.vDense.idx_of hu, Int.toNat_natCast]
          rw [hx]
          exact (H.mem _ (List.getElem_mem b.2)).2
        rw [if_pos this, if_pos e, if_pos (by simpa using e), mul_one]
      · rw [if_neg e, mul_zero, ite_self, if_neg (by simpa using e)]
  refine Matrix.IsSymm.ext fun a b => ?_
  rw [entry, entry, w.weightTo_symm fun h a => cotOf_rev w p a]
  congr 1
  by_cases e : m.vs.getD t.free[a] 0 = m.vs.getD t.free[b] 0
  · rw [if_pos e, if_pos e.symm, e]
  · rw [if_neg e, if_neg fun h => e h.symm]

/-- what the rows of the system say about an extended solution -/
theorem sys_row (w : m.WF) {y : Nat → ℝ} (v : Nat) :
    m.weightOut (fun h => m.cotOf p h * y v - if fr (m.endIdx h) then m.cotOf p h * y (m.hSrc (m.hNext h)) else 0) v -
      -m.weightOut (fun h => if fr (m.endIdx h) then 0 else -(m.cotOf p h * y (m.hSrc (m.hNext h)))) v =
    m.weightOut (fun h => m.cotOf p h * (y v - y (m.hSrc (m.hNext h)))) v := by
  rw [← weightOut_neg, ← weightOut_sub]
  refine weightOut_congr w fun x _ _ => ?_
  cases fr (m.endIdx x) <;> simp <;> ring

theorem lineMat_det (w : m.WF) {S : Nat → Prop} (hS : ∀ (i : Nat) v, m.vs[i]? = some v → (fr i = false ↔ S v))
    (nn : ∀ h, m.hAlive h = true → 0 ≤ m.cotOf p h) (lk : ∀ v, m.vAlive v = true → m.Linked p S v)
    (H : SysHolds m.vs.length fr t ((List.range m.vs.length).flatMap (rowK m p fr)) ((List.range m.vs.length).flatMap (rowKF m p fr)))
    (all : ∀ i, i < m.vs.length → fr i = true → i ∈ t.free) : (lineMat m p fr t.free).det ≠ 0 := by
  intro h
  obtain ⟨x, hx, h0⟩ := Matrix.exists_mulVec_eq_zero_iff.2 h
  obtain ⟨y, hy, hz⟩ := H.extend w x fun _ => 0
  have ex : (fun b : Fin t.free.length => y (m.vs.getD t.free[b] 0)) = x := funext hy
  have on : ∀ v, m.vAlive v = true → S v → y v = 0 := by
    intro v a s
    obtain ⟨i, hi⟩ := w.vDense.exists_at a
    exact hz i v hi ((hS i v hi).2 s)
  have off : ∀ v, m.vAlive v = true → ¬S v → m.weightOut (fun h => m.cotOf p h * (y v - y (m.hSrc (m.hNext h)))) v = 0 := by
    intro v a s
    obtain ⟨i, hi⟩ := w.vDense.exists_at a
    have f : fr i = true := by
      cases e : fr i with
      | true => rfl
      | false => exact absurd ((hS i v hi).1 e) s
    have hm := all i (List.getElem?_eq_some_iff.1 hi).1 f
    obtain ⟨a', ha', rfl⟩ := List.mem_iff_getElem.1 hm
    have h1 := lineMat_apply w H y (a := ⟨a', ha'⟩) hi
    rw [ex, h0] at h1
    have h1 : (0 : ℝ) = _ := h1
    rw [← sys_row (fr := fr) w v, ← h1, zero_sub, neg_neg]
    unfold Mesh.weightOut
    rw [List.sum_eq_zero]
    intro z hz'
    obtain ⟨q, hq, rfl⟩ := List.mem_map.1 hz'
    have aq := (w.hDense.mem q).1 (List.mem_filter.1 hq).1
    obtain ⟨j, hj⟩ := w.vDense.exists_at (w.src_alive _ (w.next_alive _ aq))
    have ej : m.endIdx q = j := by unfold Mesh.endIdx; rw [w.vDense.idx_of hj, Int.toNat_natCast]
    cases e : fr (m.endIdx q) with
    | true => simp
    | false => rw [ej] at e; simp [hz j _ hj e]
  have up := harm_le w (fun h a _ => nn h a) lk (c := 0) (fun v a s => (on v a s).le) off
  have dn := harm_le w (fun h a _ => nn h a) lk (x := fun v => -(y v)) (c := 0) (fun v a s => by simp [on v a s]) (fun v a s => by
    have := off v a s
    have e : (fun h => m.cotOf p h * (-(y v) - -(y (m.hSrc (m.hNext h))))) = fun h => -(m.cotOf p h * (y v - y (m.hSrc (m.hNext h)))) := by
      funext h; ring
    rw [e, weightOut_neg, this, neg_zero])
  refine hx (funext fun a => ?_)
  obtain ⟨v, hv, ev⟩ := H.vert a
  have av := w.vDense.alive_at hv
  rw [← hy a, ev]
  have h1 := up _ av
  have h2 := dn _ av
  exact le_antisymm h1 (by simpa using h2)

/-- one coordinate of the solution -/
theorem line_solve (w : m.WF) {solve : LinSolve XR} (hE : solve.ExactSym)
    (H : SysHolds m.vs.length fr t ((List.range m.vs.length).flatMap (rowK m p fr)) ((List.range m.vs.length).flatMap (rowKF m p fr)))
    (all : ∀ i, i < m.vs.length → fr i = true → i ∈ t.free) (det : (lineMat m p fr t.free).det ≠ 0) {L SS : Nat → Nat → XR}
    (hL : ∀ i j, L i j = XR.fin (coef (((List.range m.vs.length).flatMap (rowK m p fr)).map (numbered t.free t.free)) i j))
    (hSS : ∀ i j, SS i j = XR.fin (coef (((List.range m.vs.length).flatMap (rowKF m p fr)).map (numbered t.free t.fixed)) i j))
    {d : Nat → XR} {D : Nat → ℝ} (hd : ∀ (i : Nat) v, m.vs[i]? = some v → d i = .fin (D v)) :
    ∃ y : Nat → ℝ, (∀ (i : Nat) v, m.vs[i]? = some v → fr i = false → y v = D v) ∧
      (∀ (i : Nat) v, m.vs[i]? = some v → fr i = true → m.weightOut (fun h => m.cotOf p h * (y v - y (m.hSrc (m.hNext h)))) v = 0) ∧
      ∀ a : Fin t.free.length, solve t.free.length L (fun i => sumN t.fixed.length fun k => -(SS i k) * d ((t.fixed[k]?).getD 0)) a =
        .fin (y (m.vs.getD t.free[a] 0)) := by
  obtain ⟨x, h1, h2⟩ := hE t.free.length (lineMat m p fr t.free)
    (fun a => -∑ b : Fin t.fixed.length, coef (((List.range m.vs.length).flatMap (rowKF m p fr)).map (numbered t.free t.fixed)) a b *
        D (m.vs.getD t.fixed[b] 0)) L (fun i => sumN t.fixed.length fun k => -(SS i k) * d ((t.fixed[k]?).getD 0))
    (lineMat_symm w H) det (fun i j => hL i j) (fun a => by
      rw [sumN_fin (g := fun k : Fin t.fixed.length =>
        -(coef (((List.range m.vs.length).flatMap (rowKF m p fr)).map (numbered t.free t.fixed)) a k) * D (m.vs.getD t.fixed[k] 0))]
      · simp
      · intro k
        have hk : t.fixed[(k : Nat)]? = some t.fixed[k] := List.getElem?_eq_getElem k.2
        have lk : t.fixed[k] < m.vs.length := (H.memF _ (List.getElem_mem k.2)).1
        have hv : m.vs[t.fixed[k]]? = some m.vs[t.fixed[k]] := List.getElem?_eq_getElem lk
        rw [hSS, hk, Option.getD_some, hd _ _ hv, X_neg, X_mul, List.getD_eq_getElem?_getD, hv, Option.getD_some])
  obtain ⟨y, hy, hz⟩ := H.extend w x D
  refine ⟨y, hz, ?_, fun a => by rw [h2 a, hy a]⟩
  intro i v hi f
  have hm := all i (List.getElem?_eq_some_iff.1 hi).1 f
  obtain ⟨a, ha, rfl⟩ := List.mem_iff_getElem.1 hm
  have e1 := lineMat_apply w H y (a := ⟨a, ha⟩) hi
  have e2 := fixedMat_apply w H y (a := ⟨a, ha⟩) hi
  rw [show (fun b : Fin t.free.length => y (m.vs.getD t.free[b] 0)) = x from funext hy, h1] at e1
  have e3 : ∀ b : Fin t.fixed.length, D (m.vs.getD t.fixed[b] 0) = y (m.vs.getD t.fixed[b] 0) := by
    intro b
    have lb : t.fixed[b] < m.vs.length ∧ fr t.fixed[b] = false := H.memF _ (List.getElem_mem b.2)
    have lb1 := lb.1
    have hv : m.vs[t.fixed[b]]? = some m.vs[t.fixed[b]] := List.getElem?_eq_getElem lb.1
    rw [List.getD_eq_getElem?_getD, hv, Option.getD_some]
    exact (hz _ _ hv lb.2).symm
  simp only [e3] at e1
  rw [e2] at e1
  rw [← sys_row (fr := fr) w v, ← e1]
  ring

end
end TinyMesh
