import Verif.Proof.QueueA
import Verif.Props.Contract
/-
C92: the order in which simplification considers the edges.
-/
namespace TinyMesh

section
variable {m : Mesh XR} {p : Nat → E3}

/-- C92: what is pushed into the queue. There is one node for every half-edge, in the order of the half-edges. It holds the place the edge is
to be contracted to, and its value is the sum of the squared distances of that place to the planes around both ends, which is never
negative. Above all no value is NaN: the order of the queue is defined. -/
theorem c92_nodes (g : m.Good) (A : m.AtE p) {S : Solver4 XR} (hS : S.Exact) : ∃ (qs : Nat → Mat4 XR) (ns : List (QEMNode XR)) (x : Nat → E3),
    quadrics m.vs.length m.fs (fun _ => Mat4.zero) m = .ok (some qs) m ∧ qemNodes S m.vs.length qs m.hes m = .ok ns m ∧
    ns.map QEMNode.he = m.hes ∧ ∀ n ∈ ns, n.v.Is (x n.he) ∧ m.Target p n.he (x n.he) ∧ n.value = XR.fin (m.cost p n.he (x n.he)) ∧
      0 ≤ m.cost p n.he (x n.he) := by
  have w := g.wf
  obtain ⟨qs, e, hq⟩ := quadrics_exact g A (Nat.le_refl _) m.fs (fun _ => Mat4.zero) (fun _ _ => 0) (fun _ => 0)
    (fun f hf => (w.fDense.mem f).1 hf) (fun _ _ => ⟨_, Quad.zero⟩)
  have ah : ∀ h ∈ m.hes, m.hAlive h = true := fun h hh => (w.hDense.mem h).1 hh
  have ex : ∀ h, ∃ x : E3, m.hAlive h = true → (candPos S.base m qs h).Is x ∧ m.Target p h x ∧
      (nodeOf S m qs h).value = XR.fin (m.cost p h x) := by
    intro h
    by_cases a : m.hAlive h = true
    · have a1 := w.src_alive _ a
      have a2 := w.src_alive _ (w.next_alive _ a)
      obtain ⟨B1, h1⟩ := hq _ a1
      obtain ⟨B2, h2⟩ := hq _ a2
      simp only [zero_add] at h1 h2
      obtain ⟨x, hx, t⟩ := qemPos_exact hS.base h1 h2 (A _ a1) (A _ a2)
      exact ⟨x, fun _ => ⟨hx, t, qemValue_exact hS h1 h2 (A _ a1) (A _ a2) hx⟩⟩
    · exact ⟨0, fun k => absurd k a⟩
  choose x hx using ex
  refine ⟨qs, _, x, e, qemNodes_ok g S (Nat.le_refl _) qs m.hes ah, ?_, fun n hn => ?_⟩
  · rw [List.map_map]; exact List.map_id _
  · obtain ⟨h, hh, rfl⟩ := List.mem_map.1 hn
    obtain ⟨h1, h2, h3⟩ := hx h (ah h hh)
    exact ⟨h1, h2, h3, add_nonneg (m.errAt_nonneg p _ _) (m.errAt_nonneg p _ _)⟩

/-- C92: the order of the pass. The candidates come in the order of their costs at the begin of the trial, each half-edge once. -/
theorem c92_order (g : m.Good) (A : m.AtE p) {S : Solver4 XR} (hS : S.Exact) {pop : List (QEMNode XR) → List (QEMNode XR)} (hp : PopsLeast pop)
    (target nr : Int) : ∃ (q : List (Nat × Vec3 XR)) (x : Nat → E3),
      queueTrial S pop target nr m = (qemPass m.vs.length target q [] (fun _ => false) nr >>= fun k => pure (some k)) m ∧
      (q.map Prod.fst).Perm m.hes ∧ (∀ c ∈ q, c.2.Is (x c.1) ∧ m.Target p c.1 (x c.1)) ∧
      q.Pairwise fun a b => m.cost p a.1 (x a.1) ≤ m.cost p b.1 (x b.1) := by
  obtain ⟨qs, ns, x, e1, e2, hn, h⟩ := c92_nodes g A hS
  obtain ⟨perm, sorted⟩ := hp ns fun n hn => by rw [(h n hn).2.2.1]; simp
  refine ⟨(pop ns).map fun n => (n.he, n.v), x, ?_, ?_, fun c hc => ?_, ?_⟩
  · unfold queueTrial
    simp only [bind_apply, read_apply, e1, e2]
  · rw [List.map_map, ← hn]
    exact perm.map _
  · obtain ⟨n, k, rfl⟩ := List.mem_map.1 hc
    have := h n (perm.mem_iff.1 k)
    exact ⟨this.1, this.2.1⟩
  · refine List.pairwise_map.2 (sorted.imp_of_mem fun {a b} ha hb hab => ?_)
    have k1 := (h a (perm.mem_iff.1 ha)).2.2.1
    have k2 := (h b (perm.mem_iff.1 hb)).2.2.1
    unfold QEMNode.gt at hab
    rw [k1, k2] at hab
    by_contra c
    have : Scalar.lt (XR.fin (m.cost p b.he (x b.he))) (XR.fin (m.cost p a.he (x a.he))) = true := by
      rw [X_lt, R_lt]; exact not_le.1 c
    rw [this] at hab; cases hab

/-- C92: the first edge that is contracted in a trial is the cheapest one among all edges that can be contracted. If there is none, the trial
leaves the mesh alone. (What a contraction does is the matter of `c90_step`.) -/
theorem c92_cheapest (g : m.Good) (A : m.AtE p) {S : Solver4 XR} (hS : S.Exact) {pop : List (QEMNode XR) → List (QEMNode XR)}
    (hp : PopsLeast pop) {target nr : Int} (lt : nr < target) : ∃ x : Nat → E3, (∀ h, m.hAlive h = true → m.Target p h (x h)) ∧
    (((∀ h, m.hAlive h = true → ¬ m.Contractible p (fun _ => False) h (x h)) ∧ queueTrial S pop target nr m = .ok (some nr) m) ∨
    ∃ h v rest, m.hAlive h = true ∧ v.Is (x h) ∧ m.Contractible p (fun _ => False) h (x h) ∧
      (∀ h', m.hAlive h' = true → m.Contractible p (fun _ => False) h' (x h') → m.cost p h (x h) ≤ m.cost p h' (x h')) ∧
      queueTrial S pop target nr m =
        (qemPass m.vs.length target ((h, v) :: rest) [] (fun _ => false) nr >>= fun k => pure (some k)) m) := by
  obtain ⟨q, x, e, perm, hx, sorted⟩ := c92_order g A hS hp target nr
  have w := g.wf
  have al : ∀ h, m.hAlive h = true ↔ ∃ c ∈ q, c.1 = h := fun h => by
    rw [← w.hDense.mem, ← perm.mem_iff, List.mem_map]
  refine ⟨x, fun h a => ?_, ?_⟩
  · obtain ⟨c, hc, rfl⟩ := (al h).1 a
    exact (hx c hc).2
  · rcases qemPass_first g A (Nat.le_refl _) lt q fun c hc => ⟨(al _).2 ⟨c, hc, rfl⟩, (hx c hc).1⟩ with
      ⟨h1, h2⟩ | ⟨pre, c, post, rfl, h1, h2, h3⟩
    · refine Or.inl ⟨fun h a => ?_, ?_⟩
      · obtain ⟨c, hc, rfl⟩ := (al h).1 a
        exact h1 c hc
      · rw [e, bind_apply, h2]; rfl
    · refine Or.inr ⟨c.1, c.2, post, (al _).2 ⟨c, by simp, rfl⟩, (hx c (by simp)).1, h2, fun h' a k => ?_, ?_⟩
      · obtain ⟨d, hd, rfl⟩ := (al h').1 a
        rcases List.mem_append.1 hd with hd | hd
        · exact absurd k (h1 d hd)
        · rcases List.mem_cons.1 hd with rfl | hd
          · exact le_refl _
          · exact (List.pairwise_cons.1 (List.pairwise_append.1 sorted).2.1).1 d hd
      · rw [e, bind_apply, bind_apply, h3]

/-- C92: both half-edges of an edge have the same cost. -/
theorem c92_twin (g : m.Good) {h : Nat} (a : m.hAlive h = true) {x y : E3} (hx : m.Target p h x) (hy : m.Target p (m.hRev h) y) :
    m.cost p h x = m.cost p (m.hRev h) y := hx.twin g.wf a hy

end

/-- C92: a trial with the queue is one of the trials of `qemTrial`, whose order of candidates is arbitrary: what is proved for all orders
(C25, C26, C52) covers the queue. This holds for all numbers, whatever the queue does when it meets NaN, as long as it invents no elements. -/
theorem c92_covered {F : Type} [Scalar F] {m : Mesh F} (g : m.Good) (S : Solver4 F) {pop : List (QEMNode F) → List (QEMNode F)}
    (hp : ∀ l, ∀ n ∈ pop l, n ∈ l) (target nr : Int) : ∃ ord : List (Nat × Vec3 F) → List (Nat × Vec3 F), (∀ l, ∀ c ∈ ord l, c ∈ l) ∧
      queueTrial S pop target nr m = qemTrial S.base ord target nr m := by
  classical
  have w := g.wf
  have ah : ∀ h ∈ m.hes, m.hAlive h = true := fun h hh => (w.hDense.mem h).1 hh
  have e1 := fun qs => candidates_ok g S.base (Nat.le_refl _) qs m.hes ah
  have e2 := fun qs => qemNodes_ok g S (Nat.le_refl _) qs m.hes ah
  rcases quadrics_ok g (Nat.le_refl _) (Qp := fun _ => True) (E := fun _ => True) (fun _ _ _ _ => trivial)
    (fun a b c _ _ _ => by
      cases h : quadric (m.vPos a) (m.vPos b) (m.vPos c) with
      | none => exact Or.inr ⟨rfl, trivial⟩
      | some K => exact Or.inl ⟨K, rfl, trivial⟩) m.fs (fun _ => Mat4.zero) (fun f hf => (w.fDense.mem f).1 hf) (fun _ => trivial) with
    ⟨qs, e, -⟩ | ⟨e, -, he⟩
  · refine ⟨fun l => if l = m.hes.map (fun h => (h, candPos S.base m qs h)) then
      (pop (m.hes.map (nodeOf S m qs))).map fun n => (n.he, n.v) else l, fun l c hc => ?_, ?_⟩
    · dsimp only at hc
      split at hc
      · next k =>
        obtain ⟨n, hn, rfl⟩ := List.mem_map.1 hc
        obtain ⟨h, hh, rfl⟩ := List.mem_map.1 (hp _ n hn)
        rw [k]
        exact List.mem_map.2 ⟨h, hh, rfl⟩
      · exact hc
    · unfold queueTrial qemTrial
      simp only [bind_apply, read_apply, e, e1, e2, if_true]
  · refine ⟨id, fun _ _ h => h, ?_⟩
    unfold queueTrial qemTrial
    simp only [bind_apply, read_apply, he]

/-! ### The hypotheses can be met -/

/-- there is an exact solver -/
noncomputable def exactSolver4 : Solver4 XR where
  det A := XR.fin (Matrix.det fun i j => match A i j with | .fin r => r | _ => 0)
  solve A := fun i => XR.fin ((Matrix.of fun i j => match A i j with | .fin r => r | _ => 0)⁻¹.mulVec ![(0 : ℝ), 0, 0, 1] i)

theorem exactSolver4_exact : exactSolver4.Exact where
  det A := rfl
  solve A h := by
    refine ⟨A⁻¹.mulVec ![0, 0, 0, 1], ?_, rfl⟩
    rw [Matrix.mulVec_mulVec, Matrix.mul_nonsing_inv _ (isUnit_iff_ne_zero.2 h), Matrix.one_mulVec]

/-- a number for every value, in the same order except for NaN -/
noncomputable def XR.rank : XR → EReal
  | .fin r => (r : EReal)
  | .pinf => ⊤
  | .ninf => ⊥
  | .nan => ⊥

/-- there is a priority queue: sorting -/
noncomputable def sortPop (l : List (QEMNode XR)) : List (QEMNode XR) :=
  open Classical in l.mergeSort fun a b => decide (a.value.rank ≤ b.value.rank)

theorem sortPop_least : PopsLeast sortPop := by
  classical
  intro l hl
  have perm : (sortPop l).Perm l := List.mergeSort_perm _ _
  refine ⟨perm, ?_⟩
  have s : (sortPop l).Pairwise fun a b => a.value.rank ≤ b.value.rank := by
    have := List.pairwise_mergeSort (le := fun a b : QEMNode XR => decide (a.value.rank ≤ b.value.rank))
      (fun a b c h1 h2 => by simp only [decide_eq_true_eq] at *; exact le_trans h1 h2)
      (fun a b => by simpa using le_total a.value.rank b.value.rank) l
    exact this.imp fun h => by simpa using h
  refine s.imp_of_mem fun {a b} ha hb hab => ?_
  have na := hl a (perm.mem_iff.1 ha)
  have nb := hl b (perm.mem_iff.1 hb)
  unfold QEMNode.gt
  rw [← Bool.not_eq_true]
  intro k
  revert hab na nb k
  generalize a.value = x
  generalize b.value = y
  cases x <;> cases y <;> simp [XR.rank, Scalar.lt, XR.lt]

/-- a closed mesh in which an edge can be contracted to its target -/
example : ∃ (m : Mesh XR) (p : Nat → E3) (h : Nat), m.Good ∧ m.AtE p ∧ exactSolver4.Exact ∧ PopsLeast sortPop ∧ m.hAlive h = true ∧
    ∀ x, m.Target p h x → m.Contractible p (fun _ => False) h x := by
  obtain ⟨m, g, A, I, J, -⟩ := flat_run
  have W := g.wf
  obtain ⟨hi, r25, r30, s25, s30⟩ := I.edge
  have a25 : m.hAlive 25 = true := (W.hDense.mem 25).1 (List.mem_of_getElem? hi)
  have t25 : m.hSrc (m.hNext 25) = 9 := by rw [← W.src_rev _ a25, r25, s30]
  refine ⟨m, _, 25, g, A, exactSolver4_exact, sortPop_least, a25, fun x hx => ?_⟩
  have : x = (⟨5, 0, 0⟩ : Vec3 ℝ).E := by
    rw [hx.1 (by rw [s25, t25, flat_det g I J]; positivity), s25, t25, ← Vec3.E_add, ← Vec3.E_smul]
    congr 1
    norm_num [hexPlane, Vec3.add_def, Vec3.smul_def]
  rw [this]
  exact flat_allowed g I J (Or.inl rfl)

end TinyMesh
