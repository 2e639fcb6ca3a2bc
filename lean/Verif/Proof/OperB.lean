import Verif.Proof.OperA
/-
Row sums, symmetry and quadratic form of weighted Laplacians.
-/
namespace TinyMesh
variable {F : Type} {m : Mesh F}

theorem sum_by_key {l : List Nat} (k : Nat → Nat) (f : Nat → ℝ) (g : Nat → ℝ) : ∀ {vs : List Nat}, vs.Nodup → (∀ h ∈ l, k h ∈ vs) →
    (vs.map fun v => ((l.filter fun h => k h == v).map f).sum * g v).sum = (l.map fun h => f h * g (k h)).sum := by
  intro vs nd hl
  induction l with
  | nil => simp
  | cons h l ih =>
    have e : ∀ vs : List Nat, (vs.map fun v => (((h :: l).filter fun h => k h == v).map f).sum * g v).sum =
        (vs.map fun v => (if k h = v then f h else 0) * g v).sum + (vs.map fun v => ((l.filter fun h => k h == v).map f).sum * g v).sum := by
      intro vs
      induction vs with
      | nil => simp
      | cons v vs ih =>
        rw [List.map_cons, List.sum_cons, ih, List.map_cons, List.sum_cons, List.map_cons, List.sum_cons, List.filter_cons]
        by_cases c : k h = v
        · simp [c]; ring
        · simp [c]; ring
    have e1 : ∀ vs : List Nat, vs.Nodup → k h ∈ vs → (vs.map fun v => (if k h = v then f h else 0) * g v).sum = f h * g (k h) := by
      intro vs
      induction vs with
      | nil => intro _ h; cases h
      | cons v vs ih =>
        intro nd hm
        obtain ⟨h1, nd⟩ := List.nodup_cons.1 nd
        rw [List.map_cons, List.sum_cons]
        by_cases c : k h = v
        · have : (vs.map fun v => (if k h = v then f h else 0) * g v) = vs.map fun _ => (0 : ℝ) := by
            apply List.map_congr_left
            intro x hx
            rw [if_neg, zero_mul]
            rintro e; rw [← e, c] at hx; exact h1 hx
          rw [this, if_pos c, c]
          simp
        · rw [if_neg c, zero_mul, zero_add, ih nd]
          exact (List.mem_cons.1 hm).resolve_left c
    rw [e, e1 vs nd (hl h (by simp)), ih fun x hx => hl x (by simp [hx])]
    simp

theorem weightTo_eq (w : Nat → ℝ) (u v : Nat) :
    m.weightTo w u v = (((m.hes.filter fun h => m.hSrc h == u).filter fun h => m.hSrc (m.hNext h) == v).map w).sum := by
  unfold Mesh.weightTo
  rw [List.filter_filter]
  congr 2
  apply List.filter_congr
  intro x _
  rw [Bool.and_comm]

theorem Mesh.WF.sum_weightTo (wf : m.WF) (w g : Nat → ℝ) (u : Nat) :
    (m.vs.map fun v => m.weightTo w u v * g v).sum =
      ((m.hes.filter fun h => m.hSrc h == u).map fun h => w h * g (m.hSrc (m.hNext h))).sum := by
  rw [← sum_by_key (fun h => m.hSrc (m.hNext h)) w g wf.vDense.nodup]
  · congr 1
    apply List.map_congr_left
    intro v _
    rw [weightTo_eq]
  · intro h hh
    have := (wf.hDense.mem h).1 (List.mem_filter.1 hh).1
    exact (wf.vDense.mem _).2 (wf.src_alive _ (wf.next_alive _ this))

theorem Mesh.WF.sum_src (wf : m.WF) (f g : Nat → ℝ) :
    (m.vs.map fun u => ((m.hes.filter fun h => m.hSrc h == u).map f).sum * g u).sum = (m.hes.map fun h => f h * g (m.hSrc h)).sum := by
  rw [← sum_by_key m.hSrc f g wf.vDense.nodup]
  intro h hh
  exact (wf.vDense.mem _).2 (wf.src_alive _ ((wf.hDense.mem h).1 hh))

theorem Mesh.WF.rev_perm (wf : m.WF) : (m.hes.map m.hRev).Perm m.hes := by
  rw [List.perm_ext_iff_of_nodup ?_ wf.hDense.nodup]
  · intro x
    rw [List.mem_map]
    constructor
    · rintro ⟨y, hy, rfl⟩
      exact (wf.hDense.mem _).2 (wf.rev_alive _ ((wf.hDense.mem _).1 hy))
    · intro hx
      have := (wf.hDense.mem _).1 hx
      exact ⟨_, (wf.hDense.mem _).2 (wf.rev_alive _ this), wf.rev_rev _ this⟩
  · rw [List.nodup_map_iff_inj_on wf.hDense.nodup]
    intro x hx y hy h
    rw [← wf.rev_rev _ ((wf.hDense.mem _).1 hx), h, wf.rev_rev _ ((wf.hDense.mem _).1 hy)]

theorem Mesh.WF.sum_rev (wf : m.WF) (f : Nat → ℝ) : (m.hes.map fun h => f (m.hRev h)).sum = (m.hes.map f).sum := by
  rw [← (wf.rev_perm.map f).sum_eq, List.map_map]; rfl

theorem Mesh.WF.src_next_rev (wf : m.WF) {h : Nat} (a : m.hAlive h = true) : m.hSrc (m.hNext (m.hRev h)) = m.hSrc h := by
  have h2 := wf.src_rev _ (wf.rev_alive _ a)
  rw [wf.rev_rev _ a] at h2
  exact h2.symm

theorem Mesh.WF.weightTo_symm (wf : m.WF) {w : Nat → ℝ} (hw : ∀ h, m.hAlive h = true → w (m.hRev h) = w h) (u v : Nat) :
    m.weightTo w u v = m.weightTo w v u := by
  unfold Mesh.weightTo
  rw [← ((wf.rev_perm.filter _).map w).sum_eq, List.filter_map, List.map_map]
  have e : (m.hes.filter ((fun h => m.hSrc h == u && m.hSrc (m.hNext h) == v) ∘ m.hRev)) =
      m.hes.filter fun h => m.hSrc h == v && m.hSrc (m.hNext h) == u := by
    apply List.filter_congr
    intro x hx
    have a := (wf.hDense.mem x).1 hx
    simp only [Function.comp]
    rw [wf.src_rev _ a, wf.src_next_rev a, Bool.and_comm]
  rw [e]
  congr 1
  apply List.map_congr_left
  intro x hx
  exact hw x ((wf.hDense.mem x).1 (List.mem_filter.1 hx).1)

theorem sum_fin_list (l : List Nat) (f : Nat → ℝ) : ∑ i : Fin l.length, f l[i] = (l.map f).sum := by
  rw [← Fin.sum_univ_fun_getElem]
  simp

/-- the real matrix of the weights -/
noncomputable def Mesh.lapMat (m : Mesh F) (w : Nat → ℝ) : Matrix (Fin m.vs.length) (Fin m.vs.length) ℝ :=
  fun i j => (if i = j then m.weightOut w m.vs[i] else 0) - m.weightTo w m.vs[i] m.vs[j]

theorem Mesh.IsLaplacian.hasMatrix {m : Mesh XR} {w : Nat → ℝ} {L : Nat → Nat → XR} (h : m.IsLaplacian w L) : m.HasMatrix L (m.lapMat w) := by
  intro i j
  rw [h i j m.vs[i] m.vs[j] (by simp) (by simp)]
  unfold Mesh.lapMat
  congr 2
  by_cases c : i = j
  · rw [if_pos c, if_pos (by rw [c])]
  · rw [if_neg c, if_neg (fun e => c (Fin.ext e))]

theorem lapMat_apply (wf : m.WF) (w : Nat → ℝ) (x : Nat → ℝ) (i : Fin m.vs.length) :
    ∑ j, m.lapMat w i j * x m.vs[j] = ((m.hes.filter fun h => m.hSrc h == m.vs[i]).map fun h => w h * (x m.vs[i] - x (m.hSrc (m.hNext h)))).sum := by
  unfold Mesh.lapMat
  simp only [sub_mul, Finset.sum_sub_distrib]
  have e1 : ∑ j, (if i = j then m.weightOut w m.vs[i] else 0) * x m.vs[j] = m.weightOut w m.vs[i] * x m.vs[i] := by
    simp [ite_mul]
  have e2 : ∑ j : Fin m.vs.length, m.weightTo w m.vs[i] m.vs[j] * x m.vs[j] =
      (m.vs.map fun v => m.weightTo w m.vs[i] v * x v).sum := sum_fin_list m.vs fun v => m.weightTo w m.vs[i] v * x v
  rw [e1, e2, wf.sum_weightTo]
  unfold Mesh.weightOut
  generalize m.hes.filter (fun h => m.hSrc h == m.vs[i]) = l
  induction l with
  | nil => simp
  | cons h l ih => simp only [List.map_cons, List.sum_cons]; rw [← ih]; ring

theorem lapMat_rows (wf : m.WF) (w : Nat → ℝ) : (m.lapMat w).mulVec (fun _ => 1) = 0 := by
  funext i
  have := lapMat_apply wf w (fun _ => 1) i
  simp only [sub_self, mul_zero, List.map_const', List.sum_replicate, smul_zero] at this
  rw [Matrix.mulVec, dotProduct]
  exact this

theorem lapMat_symm (wf : m.WF) {w : Nat → ℝ} (hw : ∀ h, m.hAlive h = true → w (m.hRev h) = w h) : (m.lapMat w).IsSymm := by
  apply Matrix.IsSymm.ext
  intro i j
  unfold Mesh.lapMat
  rw [wf.weightTo_symm hw]
  congr 1
  by_cases c : i = j
  · subst c; rfl
  · rw [if_neg c, if_neg (Ne.symm c)]

theorem lapMat_energy (wf : m.WF) {w : Nat → ℝ} (hw : ∀ h, m.hAlive h = true → w (m.hRev h) = w h) (x : Nat → ℝ) :
    dotProduct (fun i : Fin m.vs.length => x m.vs[i]) ((m.lapMat w).mulVec fun i => x m.vs[i]) = m.energy w x := by
  have e : ∀ i : Fin m.vs.length, (m.lapMat w).mulVec (fun i => x m.vs[i]) i =
      ((m.hes.filter fun h => m.hSrc h == m.vs[i]).map fun h => w h * (x (m.hSrc h) - x (m.hSrc (m.hNext h)))).sum := by
    intro i
    rw [Matrix.mulVec, dotProduct, lapMat_apply wf]
    congr 1
    apply List.map_congr_left
    intro h hh
    rw [beq_iff_eq.1 (List.mem_filter.1 hh).2]
  rw [dotProduct]
  simp only [e]
  have e2 := sum_fin_list m.vs fun v => x v * ((m.hes.filter fun h => m.hSrc h == v).map fun h =>
    w h * (x (m.hSrc h) - x (m.hSrc (m.hNext h)))).sum
  refine e2.trans ?_
  have e3 := wf.sum_src (fun h => w h * (x (m.hSrc h) - x (m.hSrc (m.hNext h)))) x
  simp only [mul_comm (x _) (List.sum _)]
  rw [e3]
  have e4 := wf.sum_rev fun h => w h * (x (m.hSrc h) - x (m.hSrc (m.hNext h))) * x (m.hSrc h)
  have e5 : (m.hes.map fun h => w (m.hRev h) * (x (m.hSrc (m.hRev h)) - x (m.hSrc (m.hNext (m.hRev h)))) * x (m.hSrc (m.hRev h))) =
      m.hes.map fun h => w h * (x (m.hSrc (m.hNext h)) - x (m.hSrc h)) * x (m.hSrc (m.hNext h)) := by
    apply List.map_congr_left
    intro h hh
    have a := (wf.hDense.mem h).1 hh
    rw [hw h a, wf.src_rev h a, wf.src_next_rev a]
  rw [e5] at e4
  unfold Mesh.energy
  have e6 : ∀ l : List Nat, (l.map fun h => w h * (x (m.hSrc h) - x (m.hSrc (m.hNext h))) ^ 2).sum =
      (l.map fun h => w h * (x (m.hSrc h) - x (m.hSrc (m.hNext h))) * x (m.hSrc h)).sum +
      (l.map fun h => w h * (x (m.hSrc (m.hNext h)) - x (m.hSrc h)) * x (m.hSrc (m.hNext h))).sum := by
    intro l
    induction l with
    | nil => simp
    | cons h l ih => simp only [List.map_cons, List.sum_cons, ih]; ring
  rw [e6, e4]
  ring

theorem cotOf_rev (wf : m.WF) (p : Nat → E3) {h : Nat} (a : m.hAlive h = true) : m.cotOf p (m.hRev h) = m.cotOf p h := by
  unfold Mesh.cotOf
  have c : ∀ a b c : E3, cotAt a b c = cotAt b a c := by
    intro a b c
    unfold cotAt
    rw [real_inner_comm, mul_comm (‖a - c‖ ^ 2)]
  rw [wf.src_rev h a, wf.src_next_rev a, wf.rev_rev h a, c, c (p (m.hSrc (m.hNext h))) (p (m.hSrc h))]
  ring

theorem gaussOf_rev (wf : m.WF) (p : Nat → E3) (t : ℝ) {h : Nat} (a : m.hAlive h = true) : m.gaussOf p t (m.hRev h) = m.gaussOf p t h := by
  unfold Mesh.gaussOf
  rw [wf.src_rev h a, wf.src_next_rev a, dist_comm]

theorem meanLen_pos (wf : m.WF) {p : Nat → E3} {h : Nat} (a : m.hAlive h = true) (hp : p (m.hSrc h) ≠ p (m.hSrc (m.hNext h))) :
    0 < m.meanLen p := by
  have hm := (wf.hDense.mem h).2 a
  unfold Mesh.meanLen
  apply div_pos
  · have : ∀ l : List Nat, h ∈ l → 0 < (l.map fun h => dist (p (m.hSrc h)) (p (m.hSrc (m.hNext h)))).sum := by
      intro l
      induction l with
      | nil => intro h; cases h
      | cons y l ih =>
        intro hm
        rw [List.map_cons, List.sum_cons]
        have nn : 0 ≤ (l.map fun h => dist (p (m.hSrc h)) (p (m.hSrc (m.hNext h)))).sum := by
          apply List.sum_nonneg
          intro x hx
          obtain ⟨y, -, rfl⟩ := List.mem_map.1 hx
          exact dist_nonneg
        rcases List.mem_cons.1 hm with rfl | hm
        · have := dist_pos.2 hp
          linarith
        · have := ih hm
          have := dist_nonneg (x := p (m.hSrc y)) (y := p (m.hSrc (m.hNext y)))
          linarith
    exact this _ hm
  · exact_mod_cast List.length_pos_of_mem hm

end TinyMesh
