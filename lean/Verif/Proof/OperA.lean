import Verif.Model.Operators
import Verif.Spec.Operators
import Verif.Proof.SmoothD
import Verif.Proof.Count
import Verif.Proof.FeatC
/-
The Laplacian matrices.
-/
namespace TinyMesh
open Orbit

section
variable {F : Type} {m : Mesh F}

theorem Mesh.WF.weightOut_ring (w : m.WF) {v : Nat} (a : m.vAlive v = true) (f : Nat → ℝ) :
    m.weightOut f v = ((orbit m.sig (m.vHe v)).map f).sum := ((w.ring_perm a).map f).sum_eq.symm

theorem Mesh.WF.weightTo_ring (w : m.WF) {v : Nat} (a : m.vAlive v = true) (f : Nat → ℝ) (u : Nat) :
    m.weightTo f v u = (((orbit m.sig (m.vHe v)).filter fun h => m.hSrc (m.hNext h) == u).map f).sum := by
  unfold Mesh.weightTo
  rw [(((w.ring_perm a).filter _).map f).sum_eq, List.filter_filter]
  congr 2
  apply List.filter_congr
  intro x _
  rw [Bool.and_comm]

theorem Dense.idx_of {al : Nat → Bool} {ix : Nat → Int} {l : List Nat} (d : Dense al ix l) {i v : Nat} (h : l[i]? = some v) :
    ix v = i := by
  obtain ⟨h1, h2⟩ := List.getElem?_eq_some_iff.1 h
  rw [← h2, d.idx i h1]

theorem Dense.exists_at {al : Nat → Bool} {ix : Nat → Int} {l : List Nat} (d : Dense al ix l) {v : Nat} (h : al v = true) :
    ∃ i : Nat, l[i]? = some v := List.mem_iff_getElem?.1 ((d.mem v).2 h)

end

/-! ### Matrices from triplets -/

theorem sumDup_fin : ∀ l : List ℝ, sumDup (l.map XR.fin) = XR.fin l.sum
  | [] => by simp [sumDup, R_lit0]
  | x :: l => by
    have : ∀ (l : List ℝ) (a : ℝ), (l.map XR.fin).foldl (· + ·) (XR.fin a) = XR.fin (a + l.sum) := by
      intro l
      induction l with
      | nil => intro a; simp
      | cons y l ih => intro a; rw [List.map_cons, List.foldl_cons, X_add, ih]; simp [add_assoc]
    rw [List.map_cons, sumDup, this]; simp

/-- sum of the values for a coefficient -/
def coef (ts : List (Int × Int × ℝ)) (i j : Nat) : ℝ :=
  ((ts.filter fun t => decide (t.1 = (i : Int) ∧ t.2.1 = (j : Int))).map fun t => t.2.2).sum

theorem coef_append (a b : List (Int × Int × ℝ)) (i j : Nat) : coef (a ++ b) i j = coef a i j + coef b i j := by
  simp [coef]

theorem coef_other {ts : List (Int × Int × ℝ)} {i' i j : Nat} (h : ∀ t ∈ ts, t.1 = (i' : Int)) (hi : i' ≠ i) : coef ts i j = 0 := by
  unfold coef
  rw [List.filter_eq_nil_iff.2]
  · simp
  · intro t ht
    rw [h t ht]
    simp only [decide_eq_true_eq, not_and]
    intro h; exact absurd (by exact_mod_cast h) hi

theorem coef_flat {f : Nat → List (Int × Int × ℝ)} (hf : ∀ i, ∀ t ∈ f i, t.1 = (i : Int)) (n : Nat) {i : Nat} (hi : i < n) (j : Nat) :
    coef ((List.range n).flatMap f) i j = coef (f i) i j := by
  have key : ∀ l : List Nat, l.Nodup → i ∈ l → coef (l.flatMap f) i j = coef (f i) i j := by
    intro l
    induction l with
    | nil => intro _ h; cases h
    | cons x l ih =>
      intro hn hm
      rw [List.flatMap_cons, coef_append]
      obtain ⟨hx, hn⟩ := List.nodup_cons.1 hn
      rcases List.mem_cons.1 hm with h | h
      · subst h
        have : ∀ l : List Nat, i ∉ l → coef (l.flatMap f) i j = 0 := by
          intro l
          induction l with
          | nil => intro _; rfl
          | cons y l ih =>
            intro h
            rw [List.flatMap_cons, coef_append, coef_other (hf y) (fun e => h (by simp [e])), ih (fun e => h (by simp [e]))]
            simp
        rw [this l hx, add_zero]
      · have : x ≠ i := by rintro rfl; exact hx h
        rw [coef_other (hf x) this, zero_add, ih hn h]
  exact key _ List.nodup_range (by simpa using hi)

/-- triplets with finite values -/
def finT (t : Int × Int × ℝ) : Triplet XR := (t.1, t.2.1, XR.fin t.2.2)

theorem ofTriplets_fin {n : Nat} {ts : List (Int × Int × ℝ)} (h : ∀ t ∈ ts, 0 ≤ t.1 ∧ t.1 < n ∧ 0 ≤ t.2.1 ∧ t.2.1 < n) (m : Mesh XR) :
    ∃ L, ofTriplets n (ts.map finT) m = .ok L m ∧ ∀ i j, L i j = XR.fin (coef ts i j) := by
  unfold ofTriplets
  rw [if_pos]
  · refine ⟨_, rfl, ?_⟩
    intro i j
    rw [coef, ← sumDup_fin, List.filter_map, List.map_map, List.map_map]
    rfl
  · rw [List.all_eq_true]
    intro t ht
    obtain ⟨t', ht', rfl⟩ := List.mem_map.1 ht
    exact decide_eq_true (h t' ht')

theorem rows_ok {m : Mesh XR} {row : Nat → M XR (List (Triplet XR))} {f : Nat → List (Int × Int × ℝ)} : ∀ is : List Nat,
    (∀ i ∈ is, row i m = .ok ((f i).map finT) m) → rows row is m = .ok ((is.flatMap f).map finT) m
  | [], _ => rfl
  | i :: is, h => by
    unfold rows
    rw [bind_apply, h i (by simp)]
    dsimp only
    rw [bind_apply, rows_ok is fun x hx => h x (by simp [hx])]
    simp [List.flatMap_cons]

/-! ### One row -/

section
variable {m : Mesh XR} {p : Nat → E3}

/-- the triplets of the row of vertex `v` with number `i` -/
noncomputable def rowT (m : Mesh XR) (w : Nat → ℝ) (i v : Nat) : List (Int × Int × ℝ) :=
  (orbit m.sig (m.vHe v)).map (fun h => ((i : Int), m.vIdx (m.hSrc (m.hNext h)), -(w h))) ++
    [((i : Int), (i : Int), ((orbit m.sig (m.vHe v)).map w).sum)]

theorem rowT_fst (w : Nat → ℝ) (i v : Nat) : ∀ t ∈ rowT m w i v, t.1 = (i : Int) := by
  intro t ht
  rcases List.mem_append.1 ht with h | h
  · obtain ⟨x, -, rfl⟩ := List.mem_map.1 h; rfl
  · rw [List.mem_singleton] at h; rw [h]

theorem rowT_range (wf : m.WF) (w : Nat → ℝ) {i v : Nat} (hi : m.vs[i]? = some v) : ∀ t ∈ rowT m w i v,
    0 ≤ t.1 ∧ t.1 < m.vs.length ∧ 0 ≤ t.2.1 ∧ t.2.1 < m.vs.length := by
  have hl : i < m.vs.length := (List.getElem?_eq_some_iff.1 hi).1
  have a := wf.vDense.alive_at hi
  intro t ht
  rw [rowT_fst w i v t ht]
  refine ⟨by omega, by omega, ?_⟩
  rcases List.mem_append.1 ht with h | h
  · obtain ⟨x, hx, rfl⟩ := List.mem_map.1 h
    dsimp only
    have ax := ((wf.mem_ring a).1 hx).1
    obtain ⟨k, hk⟩ := wf.vDense.exists_at (wf.src_alive _ (wf.next_alive _ ax))
    rw [wf.vDense.idx_of hk]
    have := (List.getElem?_eq_some_iff.1 hk).1
    omega
  · rw [List.mem_singleton] at h; rw [h]; dsimp only; omega

theorem rowT_coef (wf : m.WF) (w : Nat → ℝ) {i j u v : Nat} (hi : m.vs[i]? = some u) (hj : m.vs[j]? = some v) :
    coef (rowT m w i u) i j = (if i = j then m.weightOut w u else 0) - m.weightTo w u v := by
  have a := wf.vDense.alive_at hi
  rw [rowT, coef_append, wf.weightOut_ring a, wf.weightTo_ring a, sub_eq_neg_add]
  congr 1
  · unfold coef
    rw [List.filter_map, List.map_map]
    have : ((orbit m.sig (m.vHe u)).filter ((fun t : Int × Int × ℝ => decide (t.1 = (i : Int) ∧ t.2.1 = (j : Int))) ∘
        fun h => ((i : Int), m.vIdx (m.hSrc (m.hNext h)), -(w h)))) =
        (orbit m.sig (m.vHe u)).filter fun h => m.hSrc (m.hNext h) == v := by
      apply List.filter_congr
      intro x hx
      have ax := ((wf.mem_ring a).1 hx).1
      obtain ⟨k, hk⟩ := wf.vDense.exists_at (wf.src_alive _ (wf.next_alive _ ax))
      simp only [Function.comp, true_and]
      rw [wf.vDense.idx_of hk, Bool.eq_iff_iff, decide_eq_true_eq, beq_iff_eq]
      constructor
      · intro h
        have h : k = j := by exact_mod_cast h
        subst h
        rw [hk] at hj
        injection hj
      · intro h
        rw [h] at hk
        obtain ⟨h1, e1⟩ := List.getElem?_eq_some_iff.1 hk
        obtain ⟨h2, e2⟩ := List.getElem?_eq_some_iff.1 hj
        have : k = j := (List.Nodup.getElem_inj_iff wf.vDense.nodup).1 (e1.trans e2.symm)
        exact_mod_cast this
    rw [this]
    have e : ∀ l : List Nat, (l.map ((fun t : Int × Int × ℝ => t.2.2) ∘ fun h => ((i : Int), m.vIdx (m.hSrc (m.hNext h)), -(w h)))).sum =
        -(l.map w).sum := by
      intro l
      induction l with
      | nil => simp
      | cons x l ih => rw [List.map_cons, List.sum_cons, ih, List.map_cons, List.sum_cons]; simp [add_comm]
    exact e _
  · unfold coef
    by_cases h : i = j
    · subst h; simp
    · have : ¬ (i : Int) = (j : Int) := by exact_mod_cast h
      simp [h, this]

/-- a matrix made of such rows -/
theorem laplacian_of (wf : m.WF) {w : Nat → ℝ} {row : Nat → M XR (List (Triplet XR))}
    (h : ∀ i v, m.vs[i]? = some v → row i m = .ok ((rowT m w i v).map finT) m) :
    ∃ ts L, rows row (List.range m.vs.length) m = .ok ts m ∧ ofTriplets m.vs.length ts m = .ok L m ∧ m.IsLaplacian w L := by
  let f : Nat → List (Int × Int × ℝ) := fun i => match m.vs[i]? with
    | some v => rowT m w i v
    | none => []
  have hf : ∀ i v, m.vs[i]? = some v → f i = rowT m w i v := fun i v hv => by simp only [f, hv]
  have h1 := rows_ok (m := m) (row := row) (f := f) (List.range m.vs.length) (by
    intro i hi
    have hv : m.vs[i]? = some _ := List.getElem?_eq_getElem (by simpa using hi)
    rw [h i _ hv, hf i _ hv])
  obtain ⟨L, h2, h3⟩ := ofTriplets_fin (n := m.vs.length) (ts := (List.range m.vs.length).flatMap f) (by
    intro t ht
    obtain ⟨i, hi, ht⟩ := List.mem_flatMap.1 ht
    have hv : m.vs[i]? = some _ := List.getElem?_eq_getElem (by simpa using hi)
    rw [hf i _ hv] at ht
    exact rowT_range wf w hv t ht) m
  refine ⟨_, L, h1, h2, ?_⟩
  intro i j u v hi hj
  rw [h3, coef_flat ?_ _ (List.getElem?_eq_some_iff.1 hi).1, hf i u hi, rowT_coef wf w hi hj]
  intro i t ht
  cases hv : m.vs[i]? with
  | none => simp only [f, hv] at ht; cases ht
  | some v => rw [hf i v hv] at ht; exact rowT_fst w i v t ht

theorem idxList_ok {F : Type} {m : Mesh F} : ∀ l : List Nat, (∀ v ∈ l, m.vAlive v = true) → idxList l m = .ok (l.map m.vIdx) m
  | [], _ => rfl
  | v :: l, h => by
    unfold idxList
    rw [bind_apply, getVIdx_ok (h v (by simp))]
    dsimp only
    rw [bind_apply, idxList_ok l fun x hx => h x (by simp [hx])]
    rfl

theorem adjRow_ok (wf : m.WF) {i v : Nat} (hi : m.vs[i]? = some v) : adjRow i m = .ok ((rowT m (fun _ => 1) i v).map finT) m := by
  have a := wf.vDense.alive_at hi
  unfold adjRow
  rw [bind_apply, vertexAt_ok hi]; dsimp only
  rw [bind_apply, wf.ringVerts_ok a]; dsimp only
  rw [bind_apply, idxList_ok]
  · dsimp only
    rw [pure_apply]
    congr 1
    rw [rowT, List.map_append, List.map_map, List.map_map]
    congr 1
    · rw [List.map_map]
      apply List.map_congr_left
      intro x _
      simp [finT, R_lit]
    · simp [finT, R_lit]
  · intro u hu
    obtain ⟨h, hh, rfl⟩ := List.mem_map.1 hu
    exact wf.src_alive _ (wf.next_alive _ ((wf.mem_ring a).1 hh).1)

/-! ### Cotangent weights -/

theorem Vec3.Is.dot {a b : Vec3 XR} {x y : E3} (ha : a.Is x) (hb : b.Is y) : a.dot b = XR.fin (inner ℝ x y) := by
  obtain ⟨u, rfl, rfl⟩ := ha
  obtain ⟨v, rfl, rfl⟩ := hb
  rw [Vec3.X_vdot, Vec3.dot_def]
  simp [Vec3.E, Fin.sum_univ_three, PiLp.inner_apply, mul_comm]

theorem Vec3.Is.crossLen {a b : Vec3 XR} {x y : E3} (ha : a.Is x) (hb : b.Is y) :
    (a.cross b).length = XR.fin (Real.sqrt (‖x‖ ^ 2 * ‖y‖ ^ 2 - inner ℝ x y ^ 2)) := by
  obtain ⟨u, rfl, rfl⟩ := ha
  obtain ⟨v, rfl, rfl⟩ := hb
  rw [Vec3.X_vcross, Vec3.X_vlength, Vec3.length_def, Vec3.dot_def, Vec3.cross_def]
  rw [EuclideanSpace.norm_sq_eq, EuclideanSpace.norm_sq_eq]
  congr 2
  simp [Vec3.E, Fin.sum_univ_three, PiLp.inner_apply]
  ring

theorem Vec3.Is.length {a : Vec3 XR} {x : E3} (ha : a.Is x) : a.length = XR.fin ‖x‖ := by
  obtain ⟨u, rfl, rfl⟩ := ha
  rw [Vec3.X_vlength, Vec3.length_def, Vec3.dot_def, EuclideanSpace.norm_eq]
  congr 2
  simp [Vec3.E, Fin.sum_univ_three]
  ring

theorem cotW_exact {a b c d : Vec3 XR} {x y z t : E3} (ha : a.Is x) (hb : b.Is y) (hc : c.Is z) (hd : d.Is t) :
    cotW a b c d = XR.fin ((cotAt x y z + cotAt x y t) / 2) := by
  have h : ∀ {e : Vec3 XR} {q : E3}, e.Is q →
      Vec3.dot (a.sub e) (b.sub e) / fmax (Vec3.length (Vec3.cross (a.sub e) (b.sub e))) (Scalar.lit 1 (10 ^ 6)) =
        XR.fin (cotAt x y q) := by
    intro e q he
    rw [(ha.sub he).dot (hb.sub he), (ha.sub he).crossLen (hb.sub he), X_lit, X_fmax, R_fmax, X_div]
    · unfold cotAt
      rw [R_lit]
      norm_num
    · have : (0 : ℝ) < Scalar.lit 1 (10 ^ 6) := by rw [R_lit]; norm_num
      exact (lt_of_lt_of_le this (le_max_right _ _)).ne'
  unfold cotW
  dsimp only
  rw [h hc, h hd, X_add, X_lit, X_mul, R_lit]
  congr 1
  push_cast
  ring

theorem cotWeight_exact (wf : m.WF) (A : m.AtE p) {h : Nat} (a : m.hAlive h = true) : cotWeight h m = .ok (XR.fin (m.cotOf p h)) m := by
  have a1 := wf.next_alive h a
  have a2 := wf.next_alive _ a1
  have b := wf.rev_alive h a
  have b2 := wf.next_alive _ (wf.next_alive _ b)
  unfold cotWeight
  rw [bind_apply, cotVerts_ok wf a]; dsimp only
  rw [bind_apply, getPos_ok (wf.src_alive _ a)]; dsimp only
  rw [bind_apply, getPos_ok (wf.src_alive _ a1)]; dsimp only
  rw [bind_apply, getPos_ok (wf.src_alive _ a2)]; dsimp only
  rw [bind_apply, getPos_ok (wf.src_alive _ b2)]; dsimp only
  rw [pure_apply, cotW_exact (A _ (wf.src_alive _ a)) (A _ (wf.src_alive _ a1)) (A _ (wf.src_alive _ a2)) (A _ (wf.src_alive _ b2))]
  rfl

theorem cotRowLoop_ok (wf : m.WF) (A : m.AtE p) (i : Nat) : ∀ (hs : List Nat) (s : ℝ), (∀ h ∈ hs, m.hAlive h = true) →
    cotRowLoop i hs (XR.fin s) m = .ok ((hs.map fun h => finT ((i : Int), m.vIdx (m.hSrc (m.hNext h)), -(m.cotOf p h))),
      XR.fin (s + (hs.map (m.cotOf p)).sum)) m
  | [], s, _ => by simp [cotRowLoop]
  | h :: hs, s, ha => by
    have a := ha h (by simp)
    have a1 := wf.next_alive h a
    unfold cotRowLoop
    rw [bind_apply, getDst_ok a a1]; dsimp only
    rw [bind_apply, getVIdx_ok (wf.src_alive _ a1)]; dsimp only
    rw [bind_apply, cotWeight_exact wf A a]; dsimp only
    rw [X_add, bind_apply, cotRowLoop_ok wf A i hs _ fun x hx => ha x (by simp [hx])]
    simp [finT, add_assoc]

theorem cotRow_ok (wf : m.WF) (A : m.AtE p) {i v : Nat} (hi : m.vs[i]? = some v) :
    cotRow i m = .ok ((rowT m (m.cotOf p) i v).map finT) m := by
  have a := wf.vDense.alive_at hi
  have hl : (Scalar.lit 0 1 : XR) = XR.fin 0 := by rw [X_lit, R_lit0]
  unfold cotRow
  rw [bind_apply, vertexAt_ok hi]; dsimp only
  rw [bind_apply, wf.ringList_ok a]; dsimp only
  rw [bind_apply, hl, cotRowLoop_ok wf A i _ _ fun h hh => ((wf.mem_ring a).1 hh).1]
  simp [rowT, finT]

/-! ### Gaussian weights -/

theorem belkinW_exact {a b : Vec3 XR} {x y : E3} (ha : a.Is x) (hb : b.Is y) {t : ℝ} (ht : t ≠ 0) :
    belkinW (XR.fin t) a b = XR.fin (Real.exp (-(dist x y ^ 2 / (4 * t))) / (4 * Real.pi * t)) := by
  unfold belkinW
  dsimp only
  rw [(ha.sub hb).length, X_lit, R_lit, X_mul, X_pi, X_mul, X_mul, X_neg, X_mul, X_div, X_exp, X_div, dist_eq_norm]
  · congr 1
    push_cast
    ring_nf
  · have := Real.pi_pos.ne'
    push_cast
    positivity
  · push_cast
    simpa using ht

theorem belRowLoop_ok (wf : m.WF) (A : m.AtE p) {t : ℝ} (ht : t ≠ 0) (i v : Nat) (av : m.vAlive v = true) : ∀ (hs : List Nat) (s : ℝ),
    (∀ h ∈ hs, m.hAlive h = true ∧ m.hSrc h = v) →
    belRowLoop (XR.fin t) v i hs (XR.fin s) m = .ok ((hs.map fun h => finT ((i : Int), m.vIdx (m.hSrc (m.hNext h)), -(m.gaussOf p t h))),
      XR.fin (s + (hs.map (m.gaussOf p t)).sum)) m
  | [], s, _ => by simp [belRowLoop]
  | h :: hs, s, ha => by
    obtain ⟨a, hs'⟩ := ha h (by simp)
    have a1 := wf.next_alive h a
    have a2 := wf.next_alive _ a1
    have e : belkinW (XR.fin t) (m.vPos v) (m.vPos (m.hSrc (m.hNext h))) = XR.fin (m.gaussOf p t h) := by
      rw [belkinW_exact (A _ av) (A _ (wf.src_alive _ a1)) ht, Mesh.gaussOf, hs']
    unfold belRowLoop
    rw [bind_apply, getDst_ok a a1]; dsimp only
    rw [bind_apply, getPos_ok av]; dsimp only
    rw [bind_apply, getPos_ok (wf.src_alive _ a1)]; dsimp only
    rw [bind_apply, getVIdx_ok (wf.src_alive _ a1)]; dsimp only
    rw [bind_apply, getNext_ok a]; dsimp only
    rw [bind_apply, getDst_ok a1 a2]; dsimp only
    rw [bind_apply, getPos_ok (wf.src_alive _ a2)]; dsimp only
    rw [e, X_add, bind_apply, belRowLoop_ok wf A ht i v av hs _ fun x hx => ha x (by simp [hx])]
    simp [finT, add_assoc]

theorem belRow_ok (wf : m.WF) (A : m.AtE p) {t : ℝ} (ht : t ≠ 0) {i v : Nat} (hi : m.vs[i]? = some v) :
    belRow (XR.fin t) i m = .ok ((rowT m (m.gaussOf p t) i v).map finT) m := by
  have a := wf.vDense.alive_at hi
  have hl : (Scalar.lit 0 1 : XR) = XR.fin 0 := by rw [X_lit, R_lit0]
  unfold belRow
  rw [bind_apply, vertexAt_ok hi]; dsimp only
  rw [bind_apply, wf.ringList_ok a]; dsimp only
  rw [bind_apply, hl, belRowLoop_ok wf A ht i v a _ _ fun h hh => (wf.mem_ring a).1 hh]
  simp [rowT, finT]

/-! ### Mean edge length -/

/-- length of the edge of a half-edge -/
noncomputable def lenOf (m : Mesh XR) (p : Nat → E3) (h : Nat) : ℝ := dist (p (m.hSrc h)) (p (m.hSrc (m.hNext h)))

theorem lenOf_rev (wf : m.WF) {h : Nat} (a : m.hAlive h = true) : lenOf m p (m.hRev h) = lenOf m p h := by
  unfold lenOf
  have h1 := wf.src_rev h a
  have h2 := wf.src_rev _ (wf.rev_alive _ a)
  rw [wf.rev_rev _ a] at h2
  rw [h1, ← h2, dist_comm]

theorem meanEdgeLoop_exact (wf : m.WF) (A : m.AtE p) : ∀ (l S : List Nat), (∀ h ∈ l, m.hAlive h = true) → S.Nodup →
    (∀ h ∈ S, m.hAlive h = true ∧ m.hRev h ∉ S) →
    ∃ S' : List Nat, meanEdgeLoop l S (XR.fin (S.map (lenOf m p)).sum) m = .ok (XR.fin (S'.map (lenOf m p)).sum, S'.length) m ∧ S'.Nodup ∧
      (∀ h ∈ S', m.hAlive h = true ∧ m.hRev h ∉ S') ∧ (∀ h ∈ S, h ∈ S') ∧ ∀ h ∈ l, h ∈ S' ∨ m.hRev h ∈ S'
  | [], S, _, nd, hS => ⟨S, rfl, nd, hS, fun _ h => h, by simp⟩
  | h :: l, S, hl, nd, hS => by
    have ah := hl h List.mem_cons_self
    have a1 := wf.next_alive h ah
    have hl' := fun x hx => hl x (List.mem_cons_of_mem _ hx)
    unfold meanEdgeLoop
    by_cases c1 : h ∈ S
    · rw [if_pos c1]
      obtain ⟨S', e, n', p', q, r⟩ := meanEdgeLoop_exact wf A l S hl' nd hS
      refine ⟨S', e, n', p', q, ?_⟩
      intro x hx
      rcases List.mem_cons.1 hx with rfl | hx
      · exact Or.inl (q _ c1)
      · exact r x hx
    · rw [if_neg c1, bind_apply, getRev_ok ah]
      dsimp only
      by_cases c2 : m.hRev h ∈ S
      · rw [if_pos c2]
        obtain ⟨S', e, n', p', q, r⟩ := meanEdgeLoop_exact wf A l S hl' nd hS
        refine ⟨S', e, n', p', q, ?_⟩
        intro x hx
        rcases List.mem_cons.1 hx with rfl | hx
        · exact Or.inr (q _ c2)
        · exact r x hx
      · rw [if_neg c2, bind_apply, getSrc_ok ah]; dsimp only
        rw [bind_apply, getPos_ok (wf.src_alive _ ah)]; dsimp only
        rw [bind_apply, getDst_ok ah a1]; dsimp only
        rw [bind_apply, getPos_ok (wf.src_alive _ a1)]; dsimp only
        rw [((A _ (wf.src_alive _ ah)).sub (A _ (wf.src_alive _ a1))).length, X_add]
        have e0 : (S.map (lenOf m p)).sum + ‖p (m.hSrc h) - p (m.hSrc (m.hNext h))‖ = ((h :: S).map (lenOf m p)).sum := by
          rw [List.map_cons, List.sum_cons, add_comm, lenOf, dist_eq_norm]
        rw [e0]
        obtain ⟨S', e, n', p', q, r⟩ := meanEdgeLoop_exact wf A l (h :: S) hl' (List.nodup_cons.2 ⟨c1, nd⟩) (by
          intro x hx
          rcases List.mem_cons.1 hx with rfl | hx
          · refine ⟨ah, fun hm => ?_⟩
            rcases List.mem_cons.1 hm with h1 | h1
            · exact wf.rev_ne _ ah h1
            · exact c2 h1
          · refine ⟨(hS x hx).1, fun hm => ?_⟩
            rcases List.mem_cons.1 hm with h1 | h1
            · apply c2; rw [← h1, wf.rev_rev _ (hS x hx).1]; exact hx
            · exact (hS x hx).2 h1)
        refine ⟨S', e, n', p', fun x hx => q x (List.mem_cons_of_mem _ hx), ?_⟩
        intro x hx
        rcases List.mem_cons.1 hx with rfl | hx
        · exact Or.inl (q _ List.mem_cons_self)
        · exact r x hx

theorem onePerEdge_perm {F : Type} {m : Mesh F} (wf : m.WF) {S : List Nat} (o : m.OnePerEdge S) : m.hes.Perm (S ++ S.map m.hRev) := by
  rw [List.perm_ext_iff_of_nodup wf.hDense.nodup]
  · intro x
    rw [List.mem_append, List.mem_map]
    constructor
    · intro hx
      have a := (wf.hDense.mem x).1 hx
      rcases o.all x a with h | h
      · exact Or.inl h
      · exact Or.inr ⟨_, h, wf.rev_rev _ a⟩
    · rintro (h | ⟨y, hy, rfl⟩)
      · exact (wf.hDense.mem x).2 (o.alive x h)
      · exact (wf.hDense.mem _).2 (wf.rev_alive _ (o.alive y hy))
  · rw [List.nodup_append]
    refine ⟨o.nodup, ?_, ?_⟩
    · rw [List.nodup_map_iff_inj_on o.nodup]
      intro x hx y hy h
      rw [← wf.rev_rev _ (o.alive x hx), h, wf.rev_rev _ (o.alive y hy)]
    · intro x hx y hy h
      obtain ⟨z, hz, rfl⟩ := List.mem_map.1 hy
      exact o.one z hz (h ▸ hx)

/-- sums over one half-edge of every edge do not depend on the choice -/
theorem onePerEdge_sum {F : Type} {m : Mesh F} (wf : m.WF) {S : List Nat} (o : m.OnePerEdge S) {f : Nat → ℝ}
    (hf : ∀ h, m.hAlive h = true → f (m.hRev h) = f h) : (m.hes.map f).sum = 2 * (S.map f).sum := by
  rw [((onePerEdge_perm wf o).map _).sum_eq, List.map_append, List.sum_append, List.map_map]
  have : S.map (f ∘ m.hRev) = S.map f := by
    apply List.map_congr_left
    intro x hx
    exact hf x (o.alive x hx)
  rw [this]; ring

theorem onePerEdge_length {F : Type} {m : Mesh F} (wf : m.WF) {S : List Nat} (o : m.OnePerEdge S) : m.hes.length = 2 * S.length := by
  rw [(onePerEdge_perm wf o).length_eq, List.length_append, List.length_map]; omega

theorem mean_exact (wf : m.WF) {S : List Nat} (o : m.OnePerEdge S) {f : Nat → ℝ} (hf : ∀ h, m.hAlive h = true → f (m.hRev h) = f h)
    (hne : m.hes ≠ []) : XR.fin (S.map f).sum / Scalar.lit S.length 1 = XR.fin ((m.hes.map f).sum / m.hes.length) := by
  have hlen := onePerEdge_length wf o
  have hS : (S.length : ℝ) ≠ 0 := by
    have : 0 < m.hes.length := List.length_pos_iff.2 hne
    have : 0 < S.length := by omega
    exact_mod_cast this.ne'
  have e3 : ((S.length : Int) : ℝ) / ((1 : Nat) : ℝ) ≠ 0 := by push_cast; simpa using hS
  rw [X_lit, R_lit, X_div _ e3, onePerEdge_sum wf o hf, hlen]
  congr 1
  push_cast
  field_simp

theorem meanEdgeLength_exact (wf : m.WF) (A : m.AtE p) (hne : m.hes ≠ []) : meanEdgeLength m = .ok (XR.fin (m.meanLen p)) m := by
  obtain ⟨S, e, nd, q, _, r⟩ := meanEdgeLoop_exact wf A m.hes [] (fun h hh => (wf.hDense.mem h).1 hh) List.nodup_nil (by simp)
  have o : m.OnePerEdge S := ⟨nd, fun h hh => (q h hh).1, fun h hh => (q h hh).2, fun h a => r h ((wf.hDense.mem h).2 a)⟩
  have hl : (Scalar.lit 0 1 : XR) = XR.fin (([] : List Nat).map (lenOf m p)).sum := by rw [X_lit, R_lit0]; simp
  unfold meanEdgeLength
  rw [bind_apply, read_apply]
  dsimp only
  rw [bind_apply, hl, e]
  dsimp only
  rw [pure_apply, mean_exact wf o (fun h a => lenOf_rev wf a) hne]
  rfl

/-! ### Mean dihedral angle -/

theorem edgeAngle_exact (wf : m.WF) (A : m.AtE p) {h : Nat} (a : m.hAlive h = true) : edgeAngle h m = .ok (XR.fin (m.angleOf p h)) m := by
  have a1 := wf.next_alive h a
  have a2 := wf.next_alive _ a1
  have b := wf.rev_alive h a
  have b1 := wf.next_alive _ b
  have b2 := wf.next_alive _ b1
  unfold edgeAngle
  rw [bind_apply, getRev_ok a]; dsimp only
  rw [bind_apply, getSrc_ok a]; dsimp only
  rw [bind_apply, getNext_ok a]; dsimp only
  rw [bind_apply, getDst_ok a1 a2]; dsimp only
  rw [bind_apply, getSrc_ok b]; dsimp only
  rw [bind_apply, getNext_ok b]; dsimp only
  rw [bind_apply, getDst_ok b1 b2]; dsimp only
  rw [bind_apply, getPos_ok (wf.src_alive _ a)]; dsimp only
  rw [bind_apply, getPos_ok (wf.src_alive _ a2)]; dsimp only
  rw [bind_apply, getPos_ok (wf.src_alive _ b)]; dsimp only
  rw [bind_apply, getPos_ok (wf.src_alive _ b2)]; dsimp only
  obtain ⟨p1, e1, f1⟩ := A _ (wf.src_alive _ a)
  obtain ⟨p2, e2, f2⟩ := A _ (wf.src_alive _ a2)
  obtain ⟨p3, e3, f3⟩ := A _ (wf.src_alive _ b)
  obtain ⟨p4, e4, f4⟩ := A _ (wf.src_alive _ b2)
  rw [pure_apply, e1, e2, e3, e4, dihedral_ok]
  unfold Mesh.angleOf
  dsimp only
  rw [f1, f2, f3, f4, wf.src_rev h a]

theorem angleOf_rev (wf : m.WF) {h : Nat} (a : m.hAlive h = true) : m.angleOf p (m.hRev h) = m.angleOf p h := by
  unfold Mesh.angleOf
  dsimp only
  rw [wf.src_rev h a, wf.rev_rev h a]
  have : m.hSrc (m.hNext (m.hRev h)) = m.hSrc h := by
    have h2 := wf.src_rev _ (wf.rev_alive _ a)
    rw [wf.rev_rev _ a] at h2
    exact h2.symm
  rw [this, triNormal_swap, triNormal_swap (p (m.hSrc (m.hNext (m.hNext h)))), InnerProductGeometry.angle_neg_neg,
    InnerProductGeometry.angle_comm]
  simp only [neg_eq_zero, or_comm]

theorem meanAngleLoop_exact (wf : m.WF) (A : m.AtE p) : ∀ (l S : List Nat), (∀ h ∈ l, m.hAlive h = true) → S.Nodup →
    (∀ h ∈ S, m.hAlive h = true ∧ m.hRev h ∉ S) →
    ∃ S' : List Nat, meanAngleLoop l S (XR.fin (S.map (m.angleOf p)).sum) m = .ok (XR.fin (S'.map (m.angleOf p)).sum, S'.length) m ∧ S'.Nodup ∧
      (∀ h ∈ S', m.hAlive h = true ∧ m.hRev h ∉ S') ∧ (∀ h ∈ S, h ∈ S') ∧ ∀ h ∈ l, h ∈ S' ∨ m.hRev h ∈ S'
  | [], S, _, nd, hS => ⟨S, rfl, nd, hS, fun _ h => h, by simp⟩
  | h :: l, S, hl, nd, hS => by
    have ah := hl h List.mem_cons_self
    have hl' := fun x hx => hl x (List.mem_cons_of_mem _ hx)
    unfold meanAngleLoop
    by_cases c1 : h ∈ S
    · rw [if_pos c1]
      obtain ⟨S', e, n', p', q, r⟩ := meanAngleLoop_exact wf A l S hl' nd hS
      refine ⟨S', e, n', p', q, ?_⟩
      intro x hx
      rcases List.mem_cons.1 hx with rfl | hx
      · exact Or.inl (q _ c1)
      · exact r x hx
    · rw [if_neg c1, bind_apply, getRev_ok ah]
      dsimp only
      by_cases c2 : m.hRev h ∈ S
      · rw [if_pos c2]
        obtain ⟨S', e, n', p', q, r⟩ := meanAngleLoop_exact wf A l S hl' nd hS
        refine ⟨S', e, n', p', q, ?_⟩
        intro x hx
        rcases List.mem_cons.1 hx with rfl | hx
        · exact Or.inr (q _ c2)
        · exact r x hx
      · rw [if_neg c2, bind_apply, edgeAngle_exact wf A ah]; dsimp only
        rw [X_add]
        have e0 : (S.map (m.angleOf p)).sum + m.angleOf p h = ((h :: S).map (m.angleOf p)).sum := by
          rw [List.map_cons, List.sum_cons, add_comm]
        rw [e0]
        obtain ⟨S', e, n', p', q, r⟩ := meanAngleLoop_exact wf A l (h :: S) hl' (List.nodup_cons.2 ⟨c1, nd⟩) (by
          intro x hx
          rcases List.mem_cons.1 hx with rfl | hx
          · refine ⟨ah, fun hm => ?_⟩
            rcases List.mem_cons.1 hm with h1 | h1
            · exact wf.rev_ne _ ah h1
            · exact c2 h1
          · refine ⟨(hS x hx).1, fun hm => ?_⟩
            rcases List.mem_cons.1 hm with h1 | h1
            · apply c2; rw [← h1, wf.rev_rev _ (hS x hx).1]; exact hx
            · exact (hS x hx).2 h1)
        refine ⟨S', e, n', p', fun x hx => q x (List.mem_cons_of_mem _ hx), ?_⟩
        intro x hx
        rcases List.mem_cons.1 hx with rfl | hx
        · exact Or.inl (q _ List.mem_cons_self)
        · exact r x hx

theorem meanDihedralAngle_exact (wf : m.WF) (A : m.AtE p) (hne : m.hes ≠ []) :
    meanDihedralAngle m = .ok (XR.fin ((m.hes.map (m.angleOf p)).sum / m.hes.length)) m := by
  obtain ⟨S, e, nd, q, _, r⟩ := meanAngleLoop_exact wf A m.hes [] (fun h hh => (wf.hDense.mem h).1 hh) List.nodup_nil (by simp)
  have o : m.OnePerEdge S := ⟨nd, fun h hh => (q h hh).1, fun h hh => (q h hh).2, fun h a => r h ((wf.hDense.mem h).2 a)⟩
  have hl : (Scalar.lit 0 1 : XR) = XR.fin (([] : List Nat).map (m.angleOf p)).sum := by rw [X_lit, R_lit0]; simp
  unfold meanDihedralAngle
  rw [bind_apply, read_apply]
  dsimp only
  rw [bind_apply, hl, e]
  dsimp only
  rw [pure_apply, mean_exact wf o (fun h a => angleOf_rev wf a) hne]

/-! ### Mean face area -/

theorem posList_ok {F : Type} {m : Mesh F} : ∀ l : List Nat, (∀ v ∈ l, m.vAlive v = true) → posList l m = .ok (l.map m.vPos) m
  | [], _ => rfl
  | v :: l, h => by
    unfold posList
    rw [bind_apply, getPos_ok (h v (by simp))]
    dsimp only
    rw [bind_apply, posList_ok l fun x hx => h x (by simp [hx])]
    rfl

theorem polyArea_tri {a b c : Vec3 XR} {x y z : E3} (ha : a.Is x) (hb : b.Is y) (hc : c.Is z) :
    polyArea [a, b, c] = XR.fin (triArea x y z) := by
  have hl : (Scalar.lit 0 1 : XR) = XR.fin 0 := by rw [X_lit, R_lit0]
  obtain ⟨a, rfl, rfl⟩ := ha
  obtain ⟨b, rfl, rfl⟩ := hb
  obtain ⟨c, rfl, rfl⟩ := hc
  simp only [polyArea, areaLoop]
  rw [hl, Vec3.X_vsub, Vec3.X_vsub, Vec3.X_vcross, Vec3.X_vlength, X_lit, X_mul, X_add, triArea_E, R_lit]
  congr 1
  have : ((a.sub b).cross (c.sub b)).length = ((b.sub a).cross (c.sub a)).length := by
    apply length_congr
    simp only [Vec3.dot_def, Vec3.cross_def, Vec3.sub_def]; ring
  rw [this]
  push_cast
  ring

theorem faceArea_exact (g : m.Good) (A : m.AtE p) {f : Nat} (a : m.fAlive f = true) (t : m.OnTri (m.fHe f)) :
    faceArea f m = .ok (XR.fin (m.areaOf p (m.fHe f))) m := by
  have wf := g.wf
  have ah := (wf.fHe_ok f a).1
  have a1 := wf.next_alive _ ah
  have a2 := wf.next_alive _ a1
  unfold faceArea
  rw [bind_apply, wf.faceVerts_ok a]; dsimp only
  rw [wf.tri_orbit g.simple ah t]
  rw [bind_apply, posList_ok _ (by
    simp only [List.map_cons, List.map_nil, List.mem_cons, List.not_mem_nil, or_false]
    rintro v (rfl | rfl | rfl)
    · exact wf.src_alive _ ah
    · exact wf.src_alive _ a1
    · exact wf.src_alive _ a2)]
  dsimp only [List.map]
  rw [pure_apply, polyArea_tri (A _ (wf.src_alive _ ah)) (A _ (wf.src_alive _ a1)) (A _ (wf.src_alive _ a2))]
  rfl

theorem areaSum_exact (g : m.Good) (A : m.AtE p) : ∀ (l : List Nat) (s : ℝ), (∀ f ∈ l, m.fAlive f = true ∧ m.OnTri (m.fHe f)) →
    areaSum l (XR.fin s) m = .ok (XR.fin (s + (l.map fun f => m.areaOf p (m.fHe f)).sum)) m
  | [], s, _ => by simp [areaSum]
  | f :: l, s, h => by
    obtain ⟨a, t⟩ := h f (by simp)
    unfold areaSum
    rw [bind_apply, faceArea_exact g A a t]; dsimp only
    rw [X_add, areaSum_exact g A l _ fun x hx => h x (by simp [hx])]
    simp [add_assoc]

theorem meanFaceArea_exact (g : m.Good) (A : m.AtE p) (ht : ∀ f, m.fAlive f = true → m.OnTri (m.fHe f)) (hne : m.fs ≠ []) :
    meanFaceArea m = .ok (XR.fin ((m.fs.map fun f => m.areaOf p (m.fHe f)).sum / m.fs.length)) m := by
  have hl : (Scalar.lit 0 1 : XR) = XR.fin 0 := by rw [X_lit, R_lit0]
  have e3 : ((m.fs.length : Int) : ℝ) / ((1 : Nat) : ℝ) ≠ 0 := by
    have : 0 < m.fs.length := List.length_pos_iff.2 hne
    have : (m.fs.length : ℝ) ≠ 0 := by exact_mod_cast this.ne'
    push_cast; simpa using this
  unfold meanFaceArea
  rw [bind_apply, read_apply]
  dsimp only
  rw [bind_apply, hl, areaSum_exact g A _ _ fun f hf => ⟨(g.wf.fDense.mem f).1 hf, ht f ((g.wf.fDense.mem f).1 hf)⟩]
  dsimp only
  rw [pure_apply, X_lit, R_lit, X_div _ e3]
  simp

end
end TinyMesh
