import Verif.Proof.SettleF
/-
The linear system for the positions.
-/
namespace TinyMesh
open Orbit
section
variable {m : Mesh XR} {p : Nat → E3}

/-- entries of the half-edges whose ends have the property `q` in the row of `v` -/
noncomputable def offV (m : Mesh XR) (p : Nat → E3) (q : Nat → Bool) (v : Nat) (hs : List Nat) : List Keyed :=
  (hs.filter fun h => q (m.hSrc (m.hNext h))).map fun h => (v, m.hSrc (m.hNext h), -(m.cotOf p h))

theorem offV_cons (q : Nat → Bool) (v h : Nat) (hs : List Nat) : offV m p q v (h :: hs) =
    (if q (m.hSrc (m.hNext h)) then [(v, m.hSrc (m.hNext h), -(m.cotOf p h))] else []) ++ offV m p q v hs := by
  unfold offV
  rw [List.filter_cons]
  by_cases e : q (m.hSrc (m.hNext h)) = true
  · rw [if_pos e, if_pos e]; rfl
  · rw [if_neg e, if_neg e]; rfl

theorem Mesh.WF.v_lt {F : Type} {m : Mesh F} (w : m.WF) {v : Nat} (a : m.vAlive v = true) : v < m.vFresh := (w.vBound v a).2

theorem poissonLoop_ok (w : m.WF) (A : m.AtE p) {vs : List Nat} {v : Nat} : ∀ (hs : List Nat) (s : ℝ) (t : LineSys XR) (K KF : List Keyed),
    (∀ h ∈ hs, m.hAlive h = true) → SysHolds m.vFresh (fun u => vs.contains u) t K KF → (∀ u ∈ t.fixed, m.vAlive u = true) → v ∈ t.free →
    ∃ t', poissonLoop vs (t.free.idxOf v) hs (.fin s) t m = .ok (.fin (s + (hs.map (m.cotOf p)).sum), t') m ∧
      SysHolds m.vFresh (fun u => vs.contains u) t' (K ++ offV m p (fun u => vs.contains u) v hs) (KF ++ offV m p (fun u => !vs.contains u) v hs) ∧
      t.free <+: t'.free ∧ ∀ u ∈ t'.fixed, m.vAlive u = true
  | [], s, t, K, KF, _, h, g, _ => ⟨t, by simp [poissonLoop], by simpa [offV] using h, List.prefix_rfl, g⟩
  | x :: hs, s, t, K, KF, ha, h, g, hi => by
    have a := ha x (by simp)
    have a1 := w.next_alive _ a
    have av := w.src_alive _ a1
    have lt := w.v_lt av
    have run : poissonLoop vs (t.free.idxOf v) (x :: hs) (.fin s) t m =
        (if vs.contains (m.hSrc (m.hNext x)) then
          poissonLoop vs (t.free.idxOf v) hs (.fin s + .fin (m.cotOf p x)) { t with
            free := (intern t.free (m.hSrc (m.hNext x))).1
            tFree := t.tFree ++ [trip (t.free.idxOf v) (intern t.free (m.hSrc (m.hNext x))).2 (-.fin (m.cotOf p x))] } m
        else
          poissonLoop vs (t.free.idxOf v) hs (.fin s + .fin (m.cotOf p x)) { t with
            fixed := (intern t.fixed (m.hSrc (m.hNext x))).1
            tFixed := t.tFixed ++ [trip (t.free.idxOf v) (intern t.fixed (m.hSrc (m.hNext x))).2 (-.fin (m.cotOf p x))] } m) := by
      rw [poissonLoop, bind_apply, getDst_ok a a1]; dsimp only
      rw [bind_apply, cotWeight_exact w A a]; dsimp only
      split <;> rfl
    rw [run, X_add, X_neg]
    rw [offV_cons, offV_cons, List.map_cons, List.sum_cons, ← List.append_assoc, ← List.append_assoc, ← add_assoc]
    by_cases f : vs.contains (m.hSrc (m.hNext x)) = true
    · obtain ⟨h1, h2, h3, -, -⟩ := intern_free t.free (m.hSrc (m.hNext x))
      have g' := (h.touch lt f).add (i := v) (j := m.hSrc (m.hNext x)) (h1.subset hi) h2 (-(m.cotOf p x))
      dsimp only at g'
      rw [if_pos f, if_pos f, if_neg (by simpa using f), List.append_nil, h3]
      rw [idxOf_prefix h1 hi] at g'
      obtain ⟨t', e1, e2, e3, e4⟩ := poissonLoop_ok w A hs (s + m.cotOf p x) _ _ _ (fun y hy => ha y (by simp [hy])) g' g (h1.subset hi)
      dsimp only at e1 e3
      rw [idxOf_prefix h1 hi] at e1
      exact ⟨t', e1, e2, h1.trans e3, e4⟩
    · obtain ⟨h1, h2, h3, h4, -⟩ := intern_free t.fixed (m.hSrc (m.hNext x))
      have f' : vs.contains (m.hSrc (m.hNext x)) = false := by simpa using f
      have g' := (h.touchF lt f').addF (i := v) (j := m.hSrc (m.hNext x)) hi h2 (-(m.cotOf p x))
      dsimp only at g'
      rw [if_neg f, if_neg f, if_pos (by simpa using f'), List.append_nil, h3]
      obtain ⟨t', e1, e2, e3, e4⟩ := poissonLoop_ok w A hs (s + m.cotOf p x) _ _ _ (fun y hy => ha y (by simp [hy])) g' (by
        intro u hu
        rcases h4 u hu with hu | rfl
        · exact g u hu
        · exact av) hi
      exact ⟨t', e1, e2, e3, e4⟩

/-- the entries in the row of `v` -/
noncomputable def rowV (m : Mesh XR) (p : Nat → E3) (vs : List Nat) (v : Nat) : List Keyed :=
  offV m p (fun u => vs.contains u) v (orbit m.sig (m.vHe v)) ++ [(v, v, ((orbit m.sig (m.vHe v)).map (m.cotOf p)).sum)]
noncomputable def rowVF (m : Mesh XR) (p : Nat → E3) (vs : List Nat) (v : Nat) : List Keyed :=
  offV m p (fun u => !vs.contains u) v (orbit m.sig (m.vHe v))

theorem poissonRow_ok (w : m.WF) (A : m.AtE p) {vs : List Nat} {v : Nat} (hv : v ∈ vs) (a : m.vAlive v = true) {t : LineSys XR} {K KF : List Keyed}
    (h : SysHolds m.vFresh (fun u => vs.contains u) t K KF) (g : ∀ u ∈ t.fixed, m.vAlive u = true) : ∃ t', poissonRow vs v t m = .ok t' m ∧
      SysHolds m.vFresh (fun u => vs.contains u) t' (K ++ rowV m p vs v) (KF ++ rowVF m p vs v) ∧ t.free <+: t'.free ∧ v ∈ t'.free ∧
      ∀ u ∈ t'.fixed, m.vAlive u = true := by
  obtain ⟨h1, h2, h3, -, -⟩ := intern_free t.free v
  obtain ⟨t', e1, e2, e3, e4⟩ := poissonLoop_ok w A (orbit m.sig (m.vHe v)) 0 _ _ _ (fun x hx => ((w.mem_ring a).1 hx).1)
    (h.touch (w.v_lt a) (by simpa using hv)) g h2
  dsimp only at e1 e3
  rw [← h3] at e1
  have hm := e3.subset h2
  have e5 := e2.add hm hm ((orbit m.sig (m.vHe v)).map (m.cotOf p)).sum
  unfold poissonRow rowV rowVF
  dsimp only
  rw [bind_apply, w.ringList_ok a]
  dsimp only
  rw [bind_apply, lit_zero, e1]
  refine ⟨_, rfl, ?_, h1.trans e3, hm, e4⟩
  dsimp only
  rw [zero_add, h3, ← idxOf_prefix e3 h2, ← List.append_assoc]
  exact e5

theorem poissonSys_ok (w : m.WF) (A : m.AtE p) {vs : List Nat} : ∀ (l ds : List Nat) (t : LineSys XR), (∀ v ∈ l, v ∈ vs ∧ m.vAlive v = true) →
    SysHolds m.vFresh (fun u => vs.contains u) t (ds.flatMap (rowV m p vs)) (ds.flatMap (rowVF m p vs)) → (∀ u ∈ t.fixed, m.vAlive u = true) → (∀ v ∈ ds, v ∈ t.free) →
    ∃ t', foldAll (poissonRow vs) l t m = .ok t' m ∧
      SysHolds m.vFresh (fun u => vs.contains u) t' ((ds ++ l).flatMap (rowV m p vs)) ((ds ++ l).flatMap (rowVF m p vs)) ∧ (∀ u ∈ t'.fixed, m.vAlive u = true) ∧
      ∀ v ∈ ds ++ l, v ∈ t'.free
  | [], ds, t, _, h, g, k => ⟨t, rfl, by simpa using h, g, by simpa using k⟩
  | v :: l, ds, t, a, h, g, k => by
    obtain ⟨t1, e1, h1, p1, m1, g1⟩ := poissonRow_ok w A (a v (by simp)).1 (a v (by simp)).2 h g
    obtain ⟨t2, e2, h2, g2, m2⟩ := poissonSys_ok w A l (ds ++ [v]) t1 (fun u hu => a u (by simp [hu])) (by simpa using h1) g1 (by
      intro u hu
      rcases List.mem_append.1 hu with hu | hu
      · exact p1.subset (k u hu)
      · rw [List.mem_singleton.1 hu]; exact m1)
    refine ⟨t2, ?_, ?_, g2, ?_⟩
    · unfold foldAll
      rw [bind_apply, e1]
      exact e2
    · rw [show ds ++ v :: l = ds ++ [v] ++ l by simp]; exact h2
    · rw [show ds ++ v :: l = ds ++ [v] ++ l by simp]; exact m2

/-! ### The matrices -/

variable {vs : List Nat} {t : LineSys XR}

/-- the system of the listed vertices is complete -/
structure PSys (m : Mesh XR) (p : Nat → E3) (vs : List Nat) (t : LineSys XR) : Prop where
  nd : vs.Nodup
  alive : ∀ v ∈ vs, m.vAlive v = true
  sys : SysHolds m.vFresh (fun u => vs.contains u) t (vs.flatMap (rowV m p vs)) (vs.flatMap (rowVF m p vs))
  all : ∀ v ∈ vs, v ∈ t.free
  fixed : ∀ u ∈ t.fixed, m.vAlive u = true

theorem PSys.free (H : PSys m p vs t) {v : Nat} (h : v ∈ t.free) : v ∈ vs := by
  simpa using (H.sys.mem v h).2

theorem rowV_fst (v : Nat) : ∀ k ∈ rowV m p vs v, k.1 = v := by
  intro k hk
  rcases List.mem_append.1 hk with hk | hk
  · obtain ⟨h, -, rfl⟩ := List.mem_map.1 hk; rfl
  · simp at hk; rw [hk]

theorem rowVF_fst (v : Nat) : ∀ k ∈ rowVF m p vs v, k.1 = v := by
  intro k hk
  obtain ⟨h, -, rfl⟩ := List.mem_map.1 hk; rfl

theorem rowV_sum (w : m.WF) {v : Nat} (a : m.vAlive v = true) (y : Nat → ℝ) : ((rowV m p vs v).map fun k => k.2.2 * y k.2.1).sum =
    m.weightOut (fun h => m.cotOf p h * y v - if m.hSrc (m.hNext h) ∈ vs then m.cotOf p h * y (m.hSrc (m.hNext h)) else 0) v := by
  unfold rowV offV
  rw [List.map_append, List.sum_append, List.map_map, w.weightOut_ring a, sum_filter_ite (fun h => vs.contains (m.hSrc (m.hNext h)))]
  simp only [Function.comp, List.map_cons, List.map_nil, List.sum_cons, List.sum_nil, add_zero]
  rw [← List.sum_map_mul_right, sum_sub']
  congr 1
  refine List.map_congr_left fun h hh => ?_
  by_cases c : m.hSrc (m.hNext h) ∈ vs
  · rw [if_pos (by simpa using c), if_pos c]; ring
  · rw [if_neg (by simpa using c), if_neg c]; ring

theorem rowVF_sum (w : m.WF) {v : Nat} (a : m.vAlive v = true) (y : Nat → ℝ) : ((rowVF m p vs v).map fun k => k.2.2 * y k.2.1).sum =
    m.weightOut (fun h => if m.hSrc (m.hNext h) ∈ vs then 0 else -(m.cotOf p h * y (m.hSrc (m.hNext h)))) v := by
  unfold rowVF offV
  rw [List.map_map, w.weightOut_ring a, sum_filter_ite (fun h => !vs.contains (m.hSrc (m.hNext h)))]
  congr 1
  refine List.map_congr_left fun h hh => ?_
  simp only [Function.comp]
  by_cases c : m.hSrc (m.hNext h) ∈ vs
  · rw [if_neg (by simpa using c), if_pos c]
  · rw [if_pos (by simpa using c), if_neg c]; ring

/-- the system matrix -/
noncomputable def psMat (m : Mesh XR) (p : Nat → E3) (vs l : List Nat) : Matrix (Fin l.length) (Fin l.length) ℝ :=
  fun a b => coef ((vs.flatMap (rowV m p vs)).map (numbered l l)) a b

theorem psMat_apply (w : m.WF) (H : PSys m p vs t) (y : Nat → ℝ) (a : Fin t.free.length) :
    (psMat m p vs t.free).mulVec (fun b => y t.free[b]) a =
      m.weightOut (fun h => m.cotOf p h * y t.free[a] - if m.hSrc (m.hNext h) ∈ vs then m.cotOf p h * y (m.hSrc (m.hNext h)) else 0) t.free[a] := by
  have ha : t.free[a] ∈ t.free := List.getElem_mem _
  have hx : t.free.idxOf t.free[a] = a := List.Nodup.idxOf_getElem H.sys.nd _ _
  have := coefK ha H.sys.nd y _ H.sys.keys
  rw [filter_rows_of rowV_fst _ H.nd (H.free ha), rowV_sum w (H.alive _ (H.free ha)), hx] at this
  exact this

theorem psFixed_apply (w : m.WF) (H : PSys m p vs t) (y : Nat → ℝ) (a : Fin t.free.length) :
    ∑ b : Fin t.fixed.length, coef ((vs.flatMap (rowVF m p vs)).map (numbered t.free t.fixed)) a b * y t.fixed[b] =
      m.weightOut (fun h => if m.hSrc (m.hNext h) ∈ vs then 0 else -(m.cotOf p h * y (m.hSrc (m.hNext h)))) t.free[a] := by
  have ha : t.free[a] ∈ t.free := List.getElem_mem _
  have hx : t.free.idxOf t.free[a] = a := List.Nodup.idxOf_getElem H.sys.nd _ _
  have := coefK ha H.sys.ndF y _ H.sys.keysF
  rw [filter_rows_of rowVF_fst _ H.nd (H.free ha), rowVF_sum w (H.alive _ (H.free ha)), hx] at this
  exact this

theorem ps_row (w : m.WF) {y : Nat → ℝ} (v : Nat) :
    m.weightOut (fun h => m.cotOf p h * y v - if m.hSrc (m.hNext h) ∈ vs then m.cotOf p h * y (m.hSrc (m.hNext h)) else 0) v -
      -m.weightOut (fun h => if m.hSrc (m.hNext h) ∈ vs then 0 else -(m.cotOf p h * y (m.hSrc (m.hNext h)))) v =
    m.weightOut (fun h => m.cotOf p h * (y v - y (m.hSrc (m.hNext h)))) v := by
  rw [← weightOut_neg, ← weightOut_sub]
  refine weightOut_congr w fun x _ _ => ?_
  by_cases c : m.hSrc (m.hNext x) ∈ vs
  · rw [if_pos c, if_pos c]; ring
  · rw [if_neg c, if_neg c]; ring

theorem PSys.inj (H : PSys m p vs t) {a b : Fin t.free.length} (h : t.free[a] = t.free[b]) : a = b :=
  Fin.ext ((List.Nodup.getElem_inj_iff H.sys.nd).1 h)

theorem psMat_symm (w : m.WF) (H : PSys m p vs t) : (psMat m p vs t.free).IsSymm := by
  classical
  have entry : ∀ a b, psMat m p vs t.free a b = (if t.free[a] = t.free[b] then m.weightOut (m.cotOf p) t.free[a] else 0) -
      m.weightTo (m.cotOf p) t.free[a] t.free[b] := by
    intro a b
    have h1 := psMat_apply w H (fun x => if x = t.free[b] then 1 else 0) a
    have h2 : (fun b' : Fin t.free.length => if t.free[b'] = t.free[b] then (1 : ℝ) else 0) = Pi.single b 1 := by
      funext b'
      rw [Pi.single_apply]
      by_cases e : b' = b
      · rw [if_pos e, e, if_pos rfl]
      · rw [if_neg e, if_neg (fun h => e (H.inj h))]
    rw [h2, Matrix.mulVec_single_one, Matrix.col_apply] at h1
    rw [h1, weightOut_sub]
    congr 1
    · by_cases e : t.free[a] = t.free[b]
      · simp only [if_pos e, mul_one]
      · rw [if_neg e]
        unfold Mesh.weightOut
        simp only [if_neg e, mul_zero]
        exact List.sum_eq_zero fun z hz => by obtain ⟨_, -, rfl⟩ := List.mem_map.1 hz; rfl
    · rw [weightTo_eq, sum_filter_ite (fun h => m.hSrc (m.hNext h) == t.free[b])]
      refine weightOut_congr w fun x ax _ => ?_
      by_cases e : m.hSrc (m.hNext x) = t.free[b]
      · have hb : m.hSrc (m.hNext x) ∈ vs := by rw [e]; exact H.free (List.getElem_mem b.2)
        rw [if_pos hb, if_pos e, if_pos (by simpa using e), mul_one]
      · rw [if_neg e, mul_zero, ite_self, if_neg (by simpa using e)]
  refine Matrix.IsSymm.ext fun a b => ?_
  rw [entry, entry, w.weightTo_symm fun h a => cotOf_rev w p a]
  congr 1
  by_cases e : t.free[a] = t.free[b]
  · rw [if_pos e, if_pos e.symm, e]
  · rw [if_neg e, if_neg fun h => e h.symm]

/-- values at rows as a function of vertices -/
theorem PSys.extend (H : PSys m p vs t) (x : Fin t.free.length → ℝ) (D : Nat → ℝ) :
    ∃ y : Nat → ℝ, (∀ a : Fin t.free.length, y t.free[a] = x a) ∧ ∀ v, v ∉ vs → y v = D v := by
  classical
  refine ⟨fun v => if h : ∃ a : Fin t.free.length, t.free[a] = v then x h.choose else D v, ?_, ?_⟩
  · intro a
    have h : ∃ b : Fin t.free.length, t.free[b] = t.free[a] := ⟨a, rfl⟩
    dsimp only
    rw [dif_pos h, H.inj h.choose_spec]
  · intro v hv
    dsimp only
    rw [dif_neg]
    rintro ⟨a, rfl⟩
    exact hv (H.free (List.getElem_mem a.2))

/-- only zero is harmonic inside and zero outside -/
theorem Mesh.Anchored.zero (w : m.WF) {S : Nat → Prop} (P : m.Anchored p S) {x : Nat → ℝ} (on : ∀ v, m.vAlive v = true → ¬ S v → x v = 0)
    (off : ∀ v, m.vAlive v = true → S v → m.weightOut (fun h => m.cotOf p h * (x v - x (m.hSrc (m.hNext h)))) v = 0) : ∀ v, m.vAlive v = true → x v = 0 := by
  have nn : ∀ h, m.hAlive h = true → ¬ ¬ S (m.hSrc h) → 0 ≤ m.cotOf p h := fun h a s => P.nonneg h a (not_not.1 s)
  have lk : ∀ v, m.vAlive v = true → m.Linked p (fun u => ¬ S u) v := by
    intro v a
    by_cases s : S v
    · exact P.linked v a s
    · exact .here s
  have up := harm_le w nn lk (x := x) (c := 0) (fun v a s => (on v a s).le) (fun v a s => off v a (not_not.1 s))
  have dn := harm_le w nn lk (x := fun v => -(x v)) (c := 0) (fun v a s => by simp [on v a s]) (fun v a s => by
    have := off v a (not_not.1 s)
    have e : (fun h => m.cotOf p h * (-(x v) - -(x (m.hSrc (m.hNext h))))) = fun h => -(m.cotOf p h * (x v - x (m.hSrc (m.hNext h)))) := by
      funext h; ring
    rw [e, weightOut_neg, this, neg_zero])
  intro v a
  have := dn v a
  exact le_antisymm (up v a) (by simpa using this)

theorem psMat_det (w : m.WF) (H : PSys m p vs t) (P : m.Anchored p (· ∈ vs)) : (psMat m p vs t.free).det ≠ 0 := by
  intro h
  obtain ⟨x, hx, h0⟩ := Matrix.exists_mulVec_eq_zero_iff.2 h
  obtain ⟨y, hy, hz⟩ := H.extend x fun _ => 0
  have ex : (fun b : Fin t.free.length => y t.free[b]) = x := funext hy
  have off : ∀ v, m.vAlive v = true → v ∈ vs → m.weightOut (fun h => m.cotOf p h * (y v - y (m.hSrc (m.hNext h)))) v = 0 := by
    intro v a s
    obtain ⟨a', ha', rfl⟩ := List.mem_iff_getElem.1 (H.all v s)
    have h1 := psMat_apply w H y ⟨a', ha'⟩
    rw [ex, h0] at h1
    have h1 : (0 : ℝ) = _ := h1
    dsimp only [Fin.getElem_fin] at h1
    rw [← ps_row (vs := vs) w, ← h1, zero_sub, neg_neg]
    unfold Mesh.weightOut
    rw [List.sum_eq_zero]
    intro z hz'
    obtain ⟨q, hq, rfl⟩ := List.mem_map.1 hz'
    by_cases c : m.hSrc (m.hNext q) ∈ vs
    · rw [if_pos c]
    · rw [if_neg c, hz _ c, mul_zero, neg_zero]
  have z := P.zero w (fun v _ s => hz v s) off
  refine hx (funext fun a => ?_)
  rw [← hy a]
  exact z _ (H.alive _ (H.free (List.getElem_mem a.2)))

/-- one coordinate of the solution -/
theorem ps_solve (w : m.WF) {solve : LinSolve XR} (hE : solve.ExactSym) (H : PSys m p vs t) (det : (psMat m p vs t.free).det ≠ 0) {L SS : Nat → Nat → XR}
    (hL : ∀ i j, L i j = XR.fin (coef ((vs.flatMap (rowV m p vs)).map (numbered t.free t.free)) i j))
    (hSS : ∀ i j, SS i j = XR.fin (coef ((vs.flatMap (rowVF m p vs)).map (numbered t.free t.fixed)) i j))
    {d : Nat → XR} {D : Nat → ℝ} (hd : ∀ v ∈ t.fixed, d v = .fin (D v)) {g : Nat → XR} {G : Nat → ℝ} (hg : ∀ v ∈ vs, g v = .fin (G v)) :
    ∃ y : Nat → ℝ, (∀ v, v ∉ vs → y v = D v) ∧
      (∀ v ∈ vs, m.weightOut (fun h => m.cotOf p h * (y v - y (m.hSrc (m.hNext h)))) v = G v) ∧
      ∀ a : Fin t.free.length, solve t.free.length L
        (fun i => g ((t.free[i]?).getD 0) - sumN t.fixed.length fun k => SS i k * d ((t.fixed[k]?).getD 0)) a = .fin (y t.free[a]) := by
  obtain ⟨x, h1, h2⟩ := hE t.free.length (psMat m p vs t.free)
    (fun a => G t.free[a] - ∑ b : Fin t.fixed.length, coef ((vs.flatMap (rowVF m p vs)).map (numbered t.free t.fixed)) a b *
        D t.fixed[b]) L (fun i => g ((t.free[i]?).getD 0) - sumN t.fixed.length fun k => SS i k * d ((t.fixed[k]?).getD 0))
    (psMat_symm w H) det (fun i j => hL i j) (fun a => by
      have ha : t.free[(a : Nat)]? = some t.free[a] := List.getElem?_eq_getElem a.2
      rw [sumN_fin (g := fun k : Fin t.fixed.length =>
        coef ((vs.flatMap (rowVF m p vs)).map (numbered t.free t.fixed)) a k * D t.fixed[k]), ha, Option.getD_some,
        hg t.free[a] (H.free (List.getElem_mem a.2)), X_sub]
      intro k
      have hk : t.fixed[(k : Nat)]? = some t.fixed[k] := List.getElem?_eq_getElem k.2
      rw [hSS, hk, Option.getD_some, hd t.fixed[k] (List.getElem_mem k.2), X_mul])
  obtain ⟨y, hy, hz⟩ := H.extend x D
  refine ⟨y, hz, ?_, fun a => by rw [h2 a, hy a]⟩
  intro v hv
  obtain ⟨a, ha, rfl⟩ := List.mem_iff_getElem.1 (H.all v hv)
  have e1 := psMat_apply w H y ⟨a, ha⟩
  have e2 := psFixed_apply w H y ⟨a, ha⟩
  rw [show (fun b : Fin t.free.length => y t.free[b]) = x from funext hy, h1] at e1
  have e3 : ∀ b : Fin t.fixed.length, D t.fixed[b] = y t.fixed[b] := by
    intro b
    refine (hz _ ?_).symm
    have := (H.sys.memF _ (List.getElem_mem b.2)).2
    simpa using this
  simp only [e3] at e1
  rw [e2] at e1
  dsimp only [Fin.getElem_fin] at e1
  rw [← ps_row (vs := vs) w, ← e1]
  ring

/-! ### The run -/

theorem putInside_ok (x : Nat → Vec3 XR) : ∀ (l : List Nat) (k : Nat) (m : Mesh XR), l.Nodup → (∀ v ∈ l, m.vAlive v = true) →
    ∃ m', putInside x k l m = .ok () m' ∧ m' = { m with vPos := m'.vPos } ∧ (∀ v, v ∉ l → m'.vPos v = m.vPos v) ∧
      ∀ (i : Nat) v, l[i]? = some v → m'.vPos v = x (k + i)
  | [], k, m, _, _ => ⟨m, rfl, rfl, fun _ _ => rfl, fun i v h => by simp at h⟩
  | v :: l, k, m, nd, a => by
    obtain ⟨n1, n2⟩ := List.nodup_cons.1 nd
    have av := a v (by simp)
    obtain ⟨m', e, h1, h2, h3⟩ := putInside_ok x l (k + 1) { m with vPos := upd m.vPos v (x k) } n2 (fun u hu => a u (by simp [hu]))
    refine ⟨m', ?_, h1, fun u hu => ?_, fun i u hi => ?_⟩
    · unfold putInside
      rw [bind_apply, setPos_run av]
      exact e
    · rw [h2 u fun c => hu (by simp [c])]
      exact upd_ne _ _ fun c => hu (by simp [c])
    · cases i with
      | zero =>
        obtain rfl : v = u := by simpa using hi
        rw [h2 v n1]
        exact upd_same ..
      | succ i =>
        rw [h3 i u (by simpa using hi)]
        congr 1; omega

/-- the system up to the solver -/
theorem poisson_start (w : m.WF) (A : m.AtE p) (nd : vs.Nodup) (al : ∀ v ∈ vs, m.vAlive v = true) : ∃ (t : LineSys XR) (LL SS : Nat → Nat → XR), PSys m p vs t ∧
      (∀ i j, LL i j = XR.fin (coef ((vs.flatMap (rowV m p vs)).map (numbered t.free t.free)) i j)) ∧
      (∀ i j, SS i j = XR.fin (coef ((vs.flatMap (rowVF m p vs)).map (numbered t.free t.fixed)) i j)) ∧
      ∀ (solve : LinSolve XR) (g : Nat → Vec3 XR), poisson solve vs g m =
        (let bb (c : Vec3 XR → XR) : Nat → XR := fun i =>
          c (g ((t.free[i]?).getD 0)) - sumN t.fixed.length fun k => SS i k * c (((t.fixed.map m.vPos)[k]?).getD Vec3.zero)
        putInside (fun i => ⟨solve t.free.length LL (bb Vec3.x) i, solve t.free.length LL (bb Vec3.y) i, solve t.free.length LL (bb Vec3.z) i⟩) 0 t.free) m := by
  obtain ⟨t, t1, t2, t3, t4⟩ := poissonSys_ok w A (vs := vs) vs [] ⟨[], [], [], []⟩ (fun v hv => ⟨hv, al v hv⟩)
    ⟨List.nodup_nil, List.nodup_nil, by simp, by simp, by simp, by simp, rfl, rfl⟩ (by simp) (by simp)
  rw [List.nil_append] at t2 t4
  obtain ⟨LL, l1, l2⟩ := ofTripletsRect_fin (r := t.free.length) (c := t.free.length)
    (ts := (vs.flatMap (rowV m p vs)).map (numbered t.free t.free)) (by
      intro x hx
      obtain ⟨k, hk, rfl⟩ := List.mem_map.1 hx
      obtain ⟨a1, a2⟩ := t2.keys k hk
      have b1 := List.idxOf_lt_length_iff.2 a1
      have b2 := List.idxOf_lt_length_iff.2 a2
      unfold numbered
      dsimp only
      omega) m
  obtain ⟨SS, l3, l4⟩ := ofTripletsRect_fin (r := t.free.length) (c := t.fixed.length)
    (ts := (vs.flatMap (rowVF m p vs)).map (numbered t.free t.fixed)) (by
      intro x hx
      obtain ⟨k, hk, rfl⟩ := List.mem_map.1 hx
      obtain ⟨a1, a2⟩ := t2.keysF k hk
      have b1 := List.idxOf_lt_length_iff.2 a1
      have b2 := List.idxOf_lt_length_iff.2 a2
      unfold numbered
      dsimp only
      omega) m
  refine ⟨t, LL, SS, ⟨nd, al, t2, t4, t3⟩, l2, l4, fun solve g => ?_⟩
  unfold poisson
  rw [bind_apply, t1]; dsimp only
  rw [bind_apply, getPosList_ok _ t3]; dsimp only
  rw [bind_apply, t2.entries, l1]; dsimp only
  rw [bind_apply, t2.entriesF, l3]

/-- the last step never fails -/
theorem poisson_runs (w : m.WF) (A : m.AtE p) (nd : vs.Nodup) (al : ∀ v ∈ vs, m.vAlive v = true) (solve : LinSolve XR) (g : Nat → Vec3 XR) :
    ∃ m', poisson solve vs g m = .ok () m' := by
  obtain ⟨t, LL, SS, H, -, -, run⟩ := poisson_start w A nd al
  obtain ⟨m', e, -⟩ := putInside_ok _ t.free 0 m H.sys.nd (fun v hv => al v (H.free hv))
  exact ⟨m', (run solve g).trans e⟩

/-- the positions solve the system -/
theorem poisson_exact (w : m.WF) (A : m.AtE p) (nd : vs.Nodup) (al : ∀ v ∈ vs, m.vAlive v = true) (P : m.Anchored p (· ∈ vs)) {solve : LinSolve XR}
    (hE : solve.ExactSym) {g : Nat → Vec3 XR} {G : Nat → E3} (hg : ∀ v ∈ vs, (g v).Is (G v)) :
    ∃ m' x, poisson solve vs g m = .ok () m' ∧ m' = { m with vPos := m'.vPos } ∧ m'.AtE x ∧ (∀ v, v ∉ vs → x v = p v ∧ m'.vPos v = m.vPos v) ∧
      ∀ v ∈ vs, m.lap p x v = G v := by
  obtain ⟨t, LL, SS, H, l2, l4, run⟩ := poisson_start w A nd al
  have det := psMat_det w H P
  have key : ∀ (co : Vec3 XR → XR) (k : Fin 3), (∀ (a : Vec3 XR) (x : E3), a.Is x → co a = XR.fin (x k)) → _ := fun co k hco =>
    ps_solve w hE H det l2 l4 (d := fun v => co (m.vPos v)) (D := fun v => p v k) (fun v hv => hco _ _ (A v (H.fixed v hv)))
      (g := fun v => co (g v)) (G := fun v => G v k) (fun v hv => hco _ _ (hg v hv))
  obtain ⟨y0, o0, h0, s0⟩ := key Vec3.x 0 (fun a x h => by rw [h.coords])
  obtain ⟨y1, o1, h1, s1⟩ := key Vec3.y 1 (fun a x h => by rw [h.coords])
  obtain ⟨y2, o2, h2, s2⟩ := key Vec3.z 2 (fun a x h => by rw [h.coords])
  obtain ⟨m', e, q1, q2, q3⟩ := putInside_ok (fun i => ⟨solve t.free.length LL (fun i => (g ((t.free[i]?).getD 0)).x -
        sumN t.fixed.length fun k => SS i k * (((t.fixed.map m.vPos)[k]?).getD Vec3.zero).x) i,
      solve t.free.length LL (fun i => (g ((t.free[i]?).getD 0)).y - sumN t.fixed.length fun k => SS i k * (((t.fixed.map m.vPos)[k]?).getD Vec3.zero).y) i,
      solve t.free.length LL (fun i => (g ((t.free[i]?).getD 0)).z - sumN t.fixed.length fun k => SS i k * (((t.fixed.map m.vPos)[k]?).getD Vec3.zero).z) i⟩)
    t.free 0 m H.sys.nd (fun v hv => al v (H.free hv))
  have conv : ∀ (co : Vec3 XR → XR) (i : Nat), (sumN t.fixed.length fun k => SS i k * co (((t.fixed.map m.vPos)[k]?).getD Vec3.zero)) =
      sumN t.fixed.length fun k => SS i k * co (m.vPos ((t.fixed[k]?).getD 0)) := by
    intro co i
    unfold sumN
    refine List.foldl_ext _ _ _ fun s k hk => ?_
    rw [List.mem_range] at hk
    dsimp only
    rw [List.getElem?_map, List.getElem?_eq_getElem hk, Option.map_some, Option.getD_some, Option.getD_some]
  simp only [conv Vec3.x, conv Vec3.y, conv Vec3.z] at q3
  have c0 := run solve g
  dsimp only at c0
  have out : ∀ v, v ∉ vs → m'.vPos v = m.vPos v := fun v hv => q2 v fun c => hv (H.free c)
  have vec : ∀ (a b : E3), a 0 = b 0 → a 1 = b 1 → a 2 = b 2 → a = b := by
    intro a b h0 h1 h2
    ext k
    fin_cases k
    · exact h0
    · exact h1
    · exact h2
  refine ⟨m', fun v => !₂[y0 v, y1 v, y2 v], c0.trans e, q1, ?_, fun v hv => ⟨?_, out v hv⟩, ?_⟩
  · intro v a
    by_cases hv : v ∈ vs
    · obtain ⟨i, hi, rfl⟩ := List.mem_iff_getElem.1 (H.all v hv)
      rw [q3 i _ (List.getElem?_eq_getElem hi), Nat.zero_add]
      have e0 := s0 ⟨i, hi⟩
      have e1 := s1 ⟨i, hi⟩
      have e2 := s2 ⟨i, hi⟩
      dsimp only at e0 e1 e2
      rw [e0, e1, e2]
      exact Vec3.Is.of _ _ _
    · rw [out v hv]
      dsimp only
      have : (!₂[y0 v, y1 v, y2 v] : E3) = p v := vec _ _ (o0 v hv) (o1 v hv) (o2 v hv)
      rw [this]
      refine A v ?_
      rw [q1] at a
      exact a
  · exact vec _ _ (o0 v hv) (o1 v hv) (o2 v hv)
  · intro v hv
    unfold Mesh.lap
    refine vec _ _ ?_ ?_ ?_
    · exact (outs_smul_sum (m := m) (p := p) v (fun v => !₂[y0 v, y1 v, y2 v]) 0).trans (h0 v hv)
    · exact (outs_smul_sum (m := m) (p := p) v (fun v => !₂[y0 v, y1 v, y2 v]) 1).trans (h1 v hv)
    · exact (outs_smul_sum (m := m) (p := p) v (fun v => !₂[y0 v, y1 v, y2 v]) 2).trans (h2 v hv)

end
end TinyMesh
