import Verif.Proof.CtxI
import Verif.Props.Repair
/-
C88: signatures of the vertices that the repair has made.
-/
set_option maxRecDepth 100000
namespace TinyMesh

section
variable {m : Mesh XR}

/-- C88: old signatures are kept. Every new vertex gets the mean of the signatures of those neighbours that have one when its turn comes:
the old ones and the new ones before it. If each has such a neighbour, no signature lies outside of the range of the old ones. -/
theorem c88_update (g : m.Good) {hks : Nat → Option (List XR)} {d : Nat → List ℝ} {dims : Nat}
    (H : ∀ v, m.vAlive v = true → hks v = none ∨ hks v = some ((d v).map XR.fin) ∧ (d v).length = dims)
    (C : ∀ (i v : Nat), m.vs[i]? = some v → hks v = none → ∃ u, m.Joined v u ∧ (hks u ≠ none ∨ ∃ j : Nat, j < i ∧ m.vs[j]? = some u)) :
    ∃ t d', hksUpdate dims hks m = .ok t m ∧ HasRows t d' dims m.vs ∧ (∀ v, hks v ≠ none → t v = hks v) ∧
      (∀ (i v : Nat), m.vs[i]? = some v → hks v = none → ∃ L : List Nat, L.Nodup ∧
        (∀ u, u ∈ L ↔ m.Joined v u ∧ (hks u ≠ none ∨ ∃ j : Nat, j < i ∧ m.vs[j]? = some u)) ∧ ∀ k : Nat, k < dims → (d' v).getD k 0 = rowMean d' L k) ∧
      ∀ k lo hi, k < dims → (∀ v, m.vAlive v = true → hks v ≠ none → lo ≤ (d v).getD k 0 ∧ (d v).getD k 0 ≤ hi) →
        ∀ v, m.vAlive v = true → lo ≤ (d' v).getD k 0 ∧ (d' v).getD k 0 ≤ hi := by
  have w := g.wf
  obtain ⟨t, run, t1, t2, -, t3⟩ := hksUpdate_spec g (dims := dims) (hks := hks) fun v a =>
    (H v a).imp id fun h => ⟨_, h.1, by rw [List.length_map]; exact h.2⟩
  have idx : ∀ v, m.vAlive v = true → ∃ i : Nat, m.vs[i]? = some v := fun v a => List.getElem?_of_mem ((w.vDense.mem v).2 a)
  have al : ∀ {i v : Nat}, m.vs[i]? = some v → m.vAlive v = true := fun h => (w.vDense.mem _).1 (List.mem_of_getElem? h)
  have fin : ∀ (i v : Nat), m.vs[i]? = some v → ∃ r : List ℝ, t v = some (r.map XR.fin) ∧ r.length = dims := by
    intro i
    induction i using Nat.strong_induction_on with
    | _ i ih =>
      intro v hv
      have old : ∀ u, m.vAlive u = true → hks u ≠ none → ∃ r : List ℝ, t u = some (r.map XR.fin) ∧ r.length = dims := fun u a n =>
        ⟨d u, by rw [t1 u n]; exact ((H u a).resolve_left n).1, ((H u a).resolve_left n).2⟩
      by_cases n : hks v = none
      · obtain ⟨L, nd, mem, e⟩ := t3 i v hv n
        have ex : ∀ u, ∃ r : List ℝ, u ∈ L → t u = some (r.map XR.fin) ∧ r.length = dims := fun u => by
          by_cases hu : u ∈ L
          · obtain ⟨r, hr⟩ : ∃ r : List ℝ, t u = some (r.map XR.fin) ∧ r.length = dims := by
              rcases ((mem u).1 hu).2 with h | ⟨j, c, h⟩
              · exact old u (w.joined_alive ((mem u).1 hu).1).2 h
              · exact ih j c u h
            exact ⟨r, fun _ => hr⟩
          · exact ⟨[], fun h => absurd h hu⟩
        choose r hr using ex
        have ne : (L.length : ℝ) ≠ 0 := by
          obtain ⟨u, hu⟩ := C i v hv n
          have := List.length_pos_of_mem ((mem u).2 hu)
          positivity
        refine ⟨(List.range dims).map fun k => (0 + (L.map fun u => (r u).getD k 0).sum) / L.length, ?_, by simp⟩
        rw [e]
        have z : List.replicate dims (Scalar.lit 0 1 : XR) = (List.replicate dims (0 : ℝ)).map XR.fin := by
          rw [List.map_replicate, X_lit, R_lit]; norm_num
        rw [z, sumRows_fin (n := dims) L _ (by simp) hr, List.map_map, List.map_map]
        congr 1
        apply List.map_congr_left
        intro k hk
        have hk := List.mem_range.1 hk
        simp only [Function.comp]
        rw [X_lit, R_lit]
        have : ((L.length : Int) : ℝ) / (1 : Nat) = L.length := by norm_num
        rw [this, X_div _ ne]
        congr 3
        rw [List.getD_eq_getElem _ _ (by simpa using hk), List.getElem_replicate]
      · exact old v (al hv) n
  have ex : ∀ v, ∃ r : List ℝ, m.vAlive v = true → t v = some (r.map XR.fin) ∧ r.length = dims := fun v => by
    by_cases a : m.vAlive v = true
    · obtain ⟨i, hi⟩ := idx v a
      obtain ⟨r, hr⟩ := fin i v hi
      exact ⟨r, fun _ => hr⟩
    · exact ⟨[], fun h => absurd h a⟩
  choose d' hd using ex
  have old : ∀ v, m.vAlive v = true → hks v ≠ none → d' v = d v := fun v a n => by
    have := (hd v a).1
    rw [t1 v n, ((H v a).resolve_left n).1] at this
    have := Option.some.inj this
    exact (List.map_injective_iff.2 (fun x y h => by cases h; rfl) this).symm
  have mean : ∀ (i v : Nat), m.vs[i]? = some v → hks v = none → ∃ L : List Nat, L.Nodup ∧
      (∀ u, u ∈ L ↔ m.Joined v u ∧ (hks u ≠ none ∨ ∃ j : Nat, j < i ∧ m.vs[j]? = some u)) ∧ ∀ k : Nat, k < dims → (d' v).getD k 0 = rowMean d' L k := by
    intro i v hv n
    obtain ⟨L, nd, mem, e⟩ := t3 i v hv n
    refine ⟨L, nd, mem, fun k hk => ?_⟩
    have ne : (L.length : ℝ) ≠ 0 := by
      obtain ⟨u, hu⟩ := C i v hv n
      have := List.length_pos_of_mem ((mem u).2 hu)
      positivity
    have z : List.replicate dims (Scalar.lit 0 1 : XR) = (List.replicate dims (0 : ℝ)).map XR.fin := by
      rw [List.map_replicate, X_lit, R_lit]; norm_num
    rw [z, sumRows_fin (d := d') (n := dims) L _ (by simp) (fun u hu => hd u (w.joined_alive ((mem u).1 hu).1).2), List.map_map, (hd v (al hv)).1] at e
    have e := congrArg (fun l : List XR => l[k]?) (Option.some.inj e)
    simp only [List.getElem?_map, List.getElem?_range hk, Option.map_some, Function.comp] at e
    rw [X_lit, R_lit] at e
    have : ((L.length : Int) : ℝ) / (1 : Nat) = L.length := by norm_num
    rw [this, X_div _ ne, List.getElem?_eq_getElem (by rw [(hd v (al hv)).2]; exact hk), Option.map_some] at e
    have e := XR.fin.inj (Option.some.inj e)
    rw [List.getD_eq_getElem _ _ (by rw [(hd v (al hv)).2]; exact hk), e]
    unfold rowMean
    rw [List.getD_eq_getElem _ _ (by simpa using hk), List.getElem_replicate, zero_add]
  refine ⟨t, d', run, fun v hv => hd v ((w.vDense.mem v).1 hv), t1, mean, fun k lo hi hk B => ?_⟩
  have key : ∀ (i v : Nat), m.vs[i]? = some v → lo ≤ (d' v).getD k 0 ∧ (d' v).getD k 0 ≤ hi := by
    intro i
    induction i using Nat.strong_induction_on with
    | _ i ih =>
      intro v hv
      by_cases n : hks v = none
      · obtain ⟨L, -, mem, e⟩ := mean i v hv n
        have pos : (0 : ℝ) < L.length := by
          obtain ⟨u, hu⟩ := C i v hv n
          have := List.length_pos_of_mem ((mem u).2 hu)
          positivity
        have b : ∀ u ∈ L, lo ≤ (d' u).getD k 0 ∧ (d' u).getD k 0 ≤ hi := fun u hu => by
          rcases ((mem u).1 hu).2 with h | ⟨j, c, h⟩
          · have a := (w.joined_alive ((mem u).1 hu).1).2
            rw [old u a h]
            exact B u a h
          · exact ih j c u h
        rw [e k hk]
        unfold rowMean
        rw [le_div_iff₀ pos, div_le_iff₀ pos]
        constructor
        · have := List.card_nsmul_le_sum (L.map fun u => (d' u).getD k 0) lo (by
            intro x hx
            obtain ⟨u, hu, rfl⟩ := List.mem_map.1 hx
            exact (b u hu).1)
          rw [List.length_map, nsmul_eq_mul] at this
          linarith
        · have := List.sum_le_card_nsmul (L.map fun u => (d' u).getD k 0) hi (by
            intro x hx
            obtain ⟨u, hu, rfl⟩ := List.mem_map.1 hx
            exact (b u hu).2)
          rw [List.length_map, nsmul_eq_mul] at this
          linarith
      · rw [old v (al hv) n]; exact B v (al hv) n
  intro v a
  obtain ⟨i, hi⟩ := idx v a
  exact key i v hi

/-- C88: a new vertex without such a neighbour gets a signature that consists of NaNs (0 / 0). -/
theorem c88_nan (g : m.Good) {hks : Nat → Option (List XR)} {dims : Nat}
    (H : ∀ v, m.vAlive v = true → hks v = none ∨ ∃ f, hks v = some f ∧ f.length = dims) :
    ∃ t, hksUpdate dims hks m = .ok t m ∧ ∀ (i v : Nat), m.vs[i]? = some v → hks v = none →
      (∀ u, m.Joined v u → hks u = none ∧ ∀ j : Nat, m.vs[j]? = some u → i ≤ j) → t v = some (List.replicate dims XR.nan) := by
  obtain ⟨t, run, -, -, -, t3⟩ := hksUpdate_spec g H
  refine ⟨t, run, fun i v hv n no => ?_⟩
  obtain ⟨L, -, mem, e⟩ := t3 i v hv n
  have : L = [] := by
    rw [List.eq_nil_iff_forall_not_mem]
    intro u hu
    obtain ⟨h1, h2⟩ := (mem u).1 hu
    obtain ⟨h3, h4⟩ := no u h1
    rcases h2 with h | ⟨j, c, h⟩
    · exact h h3
    · have := h4 j h; omega
  rw [e, this]
  simp only [sumRows, List.foldl_nil, List.map_replicate, List.length_nil]
  congr 2
  rw [X_lit, X_lit, R_lit, R_lit]
  norm_num
  rw [X_div0]
  simp [XR.infOf]

end

/-- the vertex with four neighbours is new -/
example : ∃ (m : Mesh XR) (hks : Nat → Option (List XR)) (d : Nat → List ℝ), m.Good ∧
    (∀ v, m.vAlive v = true → hks v = none ∨ hks v = some ((d v).map XR.fin) ∧ (d v).length = 1) ∧
    (∀ (i v : Nat), m.vs[i]? = some v → hks v = none → ∃ u, m.Joined v u ∧ (hks u ≠ none ∨ ∃ j : Nat, j < i ∧ m.vs[j]? = some u)) ∧
    m.vs[12]? = some 13 ∧ hks 13 = none := by
  obtain ⟨m, G, I⟩ := ring_tables
  refine ⟨ringMesh m 1, fun v => if v = 13 then none else some [XR.fin v], fun v => [(v : ℝ)], (ring_shut G I).good, fun v _ => ?_, fun i v hv n => ?_, I.idx, rfl⟩
  · by_cases h : v = 13
    · exact Or.inl (if_pos h)
    · exact Or.inr ⟨if_neg h, rfl⟩
  · have v13 : v = 13 := by
      by_contra h
      have n' : (if v = 13 then none else some [XR.fin (v : ℝ)] : Option (List XR)) = none := n
      rw [if_neg h] at n'; cases n'
    obtain ⟨hes, ⟨o13, -⟩, d13, -⟩ := I
    rw [o13] at d13
    simp only [List.map_cons, List.map_nil, List.cons.injEq, and_true] at d13
    obtain ⟨a1, s1⟩ := (ring_mem (v := 13) G (y := 1)).2 (by rw [o13]; simp)
    exact ⟨2, ⟨1, a1, by rw [v13]; exact s1, d13.1⟩, Or.inl (by simp)⟩

end TinyMesh
