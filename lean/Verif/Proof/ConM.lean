import Verif.Proof.ConL
/-
`construct(vertices, indices)`: outcome.
-/
set_option linter.unusedSimpArgs false
namespace TinyMesh
variable {F : Type} {m m' m0 : Mesh F}

theorem toTris_ofTris : ∀ ts, toTris (ofTris ts) = some ts := by
  intro ts
  induction ts with
  | nil => rfl
  | cons t ts ih => simp [ofTris, toTris, ih]

theorem toTris_some : ∀ (l : List Nat) (ts : List Tri), toTris l = some ts → l = ofTris ts
  | [], ts, h => by simp [toTris] at h; subst h; rfl
  | [_], ts, h => by simp [toTris] at h
  | [_, _], ts, h => by simp [toTris] at h
  | a :: b :: c :: l, ts, h => by
    simp only [toTris, Option.map_eq_some_iff] at h
    obtain ⟨rs, h1, h2⟩ := h
    subst h2
    simp only [ofTris]
    rw [toTris_some l rs h1]

theorem ofTris_length (ts : List Tri) : (ofTris ts).length = 3 * ts.length := by
  induction ts with
  | nil => rfl
  | cons t ts ih => simp only [ofTris, List.length_cons, ih]; omega

theorem toTris_none : ∀ l : List Nat, toTris l = none ↔ l.length % 3 ≠ 0
  | [] => by simp [toTris]
  | [_] => by simp [toTris]
  | [_, _] => by simp [toTris]
  | a :: b :: c :: l => by
    simp only [toTris, Option.map_eq_none_iff, List.length_cons]
    rw [toTris_none l]; omega

theorem eq_nil_or_snoc {α : Type} (l : List α) : l = [] ∨ ∃ r z, l = r ++ [z] := by
  rcases List.eq_nil_or_concat l with h | ⟨r, z, h⟩
  · exact Or.inl h
  · exact Or.inr ⟨r, z, by rw [h, List.concat_eq_append]⟩

theorem dropDegen_cons_false {t : Tri} {r : List Tri} (h : t.degen = false) : dropDegen (t :: r) = t :: dropDegen r := by
  rw [dropDegen]; simp [h]

theorem dropDegen_cons_last {t : Tri} (h : t.degen = true) : dropDegen [t] = [] := by
  rw [dropDegen]; simp [h]

theorem dropDegen_cons_true {t z : Tri} {r : List Tri} (h : t.degen = true) :
    dropDegen (t :: (r ++ [z])) = z :: dropDegen r := by
  rw [dropDegen]; simp [h]

/-- the triangles that are not degenerate all stay -/
theorem dropDegen_perm : ∀ n (ts : List Tri), ts.length = n →
    ((dropDegen ts).filter (fun t => !t.degen)).Perm (ts.filter (fun t => !t.degen)) := by
  intro n
  induction n using Nat.strong_induction_on with
  | _ n ih =>
    intro ts hn
    cases ts with
    | nil => simp [dropDegen]
    | cons t r =>
      cases ht : t.degen with
      | false =>
        rw [dropDegen_cons_false ht]
        simp only [List.filter_cons, ht, Bool.not_false, if_true]
        exact (ih r.length (by simp at hn; omega) r rfl).cons t
      | true =>
        rcases eq_nil_or_snoc r with rfl | ⟨r', z, rfl⟩
        · rw [dropDegen_cons_last ht]; simp [ht]
        · rw [dropDegen_cons_true ht]
          have h1 := ih r'.length (by simp at hn; omega) r' rfl
          simp only [List.filter_cons, ht, Bool.not_true, Bool.false_eq_true, if_false, List.filter_append, List.filter_nil]
          cases hz : z.degen with
          | false =>
            simp only [Bool.not_false, if_true]
            exact (h1.cons z).trans (List.perm_append_singleton z _).symm
          | true => simpa [hz] using h1

theorem dropDegen_mem {ts : List Tri} {t : Tri} : t.degen = false → (t ∈ dropDegen ts ↔ t ∈ ts) := by
  intro ht
  have := (dropDegen_perm _ ts rfl).mem_iff (a := t)
  simpa [ht] using this

/-- enough good triangles at the end make sure that every degenerate one is dropped -/
theorem dropDegen_good : ∀ n (A G : List Tri), A.length + G.length = n → (∀ t ∈ G, t.degen = false) →
    A.countP Tri.degen ≤ G.length → ∀ t ∈ dropDegen (A ++ G), t.degen = false := by
  intro n
  induction n using Nat.strong_induction_on with
  | _ n ih =>
    intro A G hn hG hA
    cases A with
    | nil =>
      intro t ht
      have key : ∀ (l : List Tri), (∀ t ∈ l, t.degen = false) → dropDegen l = l := by
        intro l
        induction l with
        | nil => intro _; simp [dropDegen]
        | cons s l ihl =>
          intro h
          rw [dropDegen_cons_false (h s (by simp)), ihl (fun x hx => h x (by simp [hx]))]
      rw [List.nil_append, key G hG] at ht
      exact hG t ht
    | cons s A =>
      cases hs : s.degen with
      | false =>
        rw [List.cons_append, dropDegen_cons_false hs]
        intro t ht
        rcases List.mem_cons.1 ht with rfl | ht
        · exact hs
        · refine ih (A.length + G.length) (by simp at hn; omega) A G rfl hG ?_ t ht
          rw [List.countP_cons_of_neg (by simp [hs])] at hA; exact hA
      | true =>
        rw [List.countP_cons_of_pos hs] at hA
        rcases eq_nil_or_snoc G with rfl | ⟨G', z, rfl⟩
        · simp at hA
        · rw [List.cons_append, ← List.append_assoc, dropDegen_cons_true hs]
          intro t ht
          rcases List.mem_cons.1 ht with rfl | ht
          · exact hG t (by simp)
          · refine ih (A.length + G'.length) (by simp at hn; omega) A G' rfl (fun x hx => hG x (by simp [hx])) ?_ t ht
            simp at hA; exact hA

/-- a single degenerate triangle is always dropped -/
theorem dropDegen_one : ∀ n (ts : List Tri), ts.length = n → ts.countP Tri.degen ≤ 1 → ∀ t ∈ dropDegen ts, t.degen = false := by
  intro n
  induction n using Nat.strong_induction_on with
  | _ n ih =>
    intro ts hn hc
    cases ts with
    | nil => intro t ht; simp [dropDegen] at ht
    | cons s r =>
      cases hs : s.degen with
      | false =>
        rw [dropDegen_cons_false hs]
        rw [List.countP_cons_of_neg (by simp [hs])] at hc
        intro t ht
        rcases List.mem_cons.1 ht with rfl | ht
        · exact hs
        · exact ih r.length (by simp at hn; omega) r rfl hc t ht
      | true =>
        rw [List.countP_cons_of_pos hs] at hc
        have h0 : r.countP Tri.degen = 0 := by omega
        rw [List.countP_eq_zero] at h0
        rcases eq_nil_or_snoc r with rfl | ⟨r', z, rfl⟩
        · rw [dropDegen_cons_last hs]; intro t ht; simp at ht
        · rw [dropDegen_cons_true hs]
          intro t ht
          rcases List.mem_cons.1 ht with rfl | ht
          · have := h0 t (by simp); simpa using this
          · refine ih r'.length (by simp at hn; omega) r' rfl ?_ t ht
            have : r'.countP Tri.degen = 0 := by
              rw [List.countP_eq_zero]; intro x hx; exact h0 x (by simp [hx])
            omega

theorem construct0_none (h : m.indices.length % 3 ≠ 0) : construct0 m = .err .ub := by
  have := (toTris_none m.indices).2 h
  unfold construct0
  simp only [bind_apply, read_apply, this, fail_apply]

theorem construct0_degen (R : Ready m) {ts0 : List Tri} (ht : toTris m.indices = some ts0)
    (h : ∃ t ∈ dropDegen ts0, t.degen = true) : construct0 m = .err .abort := by
  obtain ⟨ts, hts⟩ : ∃ ts, dropDegen ts0 = ts := ⟨_, rfl⟩
  rw [hts] at h
  obtain ⟨W, eW, _⟩ := setVertexIndices_ok m.vs 0 { m with indices := ofTris ts } R.nodup
    (fun v hv => (R.mem v).1 hv)
  have hall : (ts.all fun t => !t.degen) = false := by
    obtain ⟨t, h1, h2⟩ := h
    rw [← Bool.not_eq_true, List.all_eq_true]
    intro hc
    have := hc t h1
    rw [h2] at this; cases this
  unfold construct0
  simp only [bind_apply, read_apply, ht, hts, setIndices, eW]
  rw [assert_false hall]

section
variable [Scalar F]

/-- `construct(vertices, indices)` is `construct()` on a mesh with merged vertices -/
theorem construct_reduce (O : Owned m) {V : List (Vec3 F)} {I : List Nat} (hI : ∀ i ∈ I, i < V.length) :
    ∃ mD J, construct V I m = construct0 mD ∧ Ready mD ∧ mD.hCap = m.hCap ∧ mD.grow = m.grow ∧
      mD.indices = m.indices ++ J ∧ J.length = I.length ∧ (∀ j ∈ J, j < mD.vs.length) ∧
      (ValidInput V I → Merged V I (mD.vs.map mD.vPos) J) := by
  obtain ⟨mD, J, e, R, D, hJ, hl, hb, _⟩ := dedup_ready V I [] m.cleared O.ready hI (by simp)
  have hJ : mD.indices = m.indices ++ J := hJ
  refine ⟨mD, J, ?_, R, D.hCap, D.grow, hJ, hl, hb, ?_⟩
  · unfold construct
    simp only [bind_apply, clearArrays_eq, e]
  · intro hv
    have M0 : Merged V [] (m.cleared.vs.map m.cleared.vPos) [] := by
      refine ⟨rfl, by simp, by simp [Mesh.cleared], by simp [Mesh.cleared]⟩
    obtain ⟨m2, J2, e2, hJ2, M2⟩ := dedup_merged V I m.cleared [] [] O.ready hv M0
    have hz : (m.cleared.vs.map m.cleared.vPos).zipIdx = [] := by simp [Mesh.cleared]
    rw [hz, e] at e2
    cases e2
    have hJ2 : mD.indices = m.indices ++ J2 := hJ2
    rw [hJ] at hJ2
    have := List.append_cancel_left hJ2
    subst this
    simpa using M2

theorem construct_range {V : List (Vec3 F)} {I : List Nat} (h : ∃ i ∈ I, V.length ≤ i) :
    construct V I m = .err .ub := by
  unfold construct
  simp only [bind_apply, clearArrays_eq, dedup_range V I [] m.cleared h]

theorem Vec3.eq_law (L : EqLaw F) {a b c : Vec3 F} (h1 : a.eq c = true) (h2 : b.eq c = true) : a.eq b = true := by
  simp only [Vec3.eq, Bool.and_eq_true] at *
  exact ⟨⟨L _ _ _ h1.1.1 h2.1.1, L _ _ _ h1.1.2 h2.1.2⟩, L _ _ _ h1.2 h2.2⟩

/-- merging is determined by the input -/
theorem Merged.unique (L : EqLaw F) {V : List (Vec3 F)} {I : List Nat} {P P' : List (Vec3 F)} {J J' : List Nat}
    (hI : ValidInput V I) (D : Merged V I P J) (D' : Merged V I P' J') : P = P' ∧ J = J' := by
  -- index `j` of corner `k` is either old or the next free one
  have next : ∀ {P : List (Vec3 F)} {J : List Nat}, Merged V I P J → ∀ k j : Nat, J[k]? = some j →
      (∀ i, i ≤ j → ∃ k', k' ≤ k ∧ J[k']? = some i) := by
    intro P J D k j hj i hi
    have hk : k < I.length := by rw [← D.len]; exact (List.getElem?_eq_some_iff.1 hj).1
    obtain ⟨_, q, _, hq, _⟩ := D.pos k _ j (List.getElem?_eq_getElem hk) hj
    have hjP := (List.getElem?_eq_some_iff.1 hq).1
    obtain ⟨k1, c, _, _, h3, h4⟩ := D.first i P[i] (List.getElem?_eq_getElem (by omega))
    refine ⟨k1, ?_, h3⟩
    by_contra hc
    have := h4 k j (by omega) hj
    omega
  have inv : ∀ k, k ≤ I.length → (∀ k' j, k' < k → (J[k']? = some j ↔ J'[k']? = some j)) ∧
      (∀ k' j, k' < k → J[k']? = some j → P[j]? = P'[j]?) := by
    intro k
    induction k with
    | zero => intro _; exact ⟨fun _ _ h => by omega, fun _ _ h => by omega⟩
    | succ k ih =>
      intro hk
      obtain ⟨ih1, ih2⟩ := ih (by omega)
      have hkI : k < I.length := by omega
      obtain ⟨j, hj⟩ : ∃ j, J[k]? = some j := ⟨_, List.getElem?_eq_getElem (by rw [D.len]; exact hkI)⟩
      obtain ⟨j', hj'⟩ : ∃ j, J'[k]? = some j := ⟨_, List.getElem?_eq_getElem (by rw [D'.len]; exact hkI)⟩
      obtain ⟨p, q, hp, hq, he⟩ := D.pos k _ j (List.getElem?_eq_getElem hkI) hj
      obtain ⟨p', q', hp', hq', he'⟩ := D'.pos k _ j' (List.getElem?_eq_getElem hkI) hj'
      rw [hp] at hp'; cases hp'
      -- facts about both sides, stated once
      have main : ∀ {P P' : List (Vec3 F)} {J J' : List Nat} {j j' : Nat} {q q' : Vec3 F}, Merged V I P J → Merged V I P' J' →
          (∀ k' j, k' < k → (J[k']? = some j ↔ J'[k']? = some j)) → (∀ k' j, k' < k → J[k']? = some j → P[j]? = P'[j]?) →
          J[k]? = some j → J'[k]? = some j' → P[j]? = some q → P'[j']? = some q' → q.eq p = true → q'.eq p = true →
          (∃ k', k' < k ∧ J[k']? = some j) → j = j' := by
        intro P P' J J' j j' q q' D D' h1 h2 hj hj' hq hq' he he' ⟨k', hk', hold⟩
        have hPj : P'[j]? = some q := by rw [← h2 k' j hk' hold]; exact hq
        rcases Nat.lt_trichotomy j j' with c | c | c
        · have := D'.diff j j' q q' c hPj hq'
          rw [Vec3.eq_law L he he'] at this; cases this
        · exact c
        · have := D'.diff j' j q' q c hq' hPj
          rw [Vec3.eq_law L he' he] at this; cases this
      -- first use on the one side only is impossible, on both sides it is the same number
      have fresh : ∀ {P : List (Vec3 F)} {J : List Nat} {j : Nat}, Merged V I P J → J[k]? = some j →
          ¬ (∃ k', k' < k ∧ J[k']? = some j) → (∀ i, i < j ↔ ∃ k', k' < k ∧ J[k']? = some i) ∧ P[j]? = some p := by
        intro P J j D hj hno
        obtain ⟨p0, q, hp0, hq, _⟩ := D.pos k _ j (List.getElem?_eq_getElem hkI) hj
        have hjP := (List.getElem?_eq_some_iff.1 hq).1
        obtain ⟨k1, c, f1, f2, f3, f4⟩ := D.first j q hq
        have hk1 : k1 = k := by
          rcases Nat.lt_trichotomy k1 k with c | c | c
          · exact absurd ⟨k1, c, f3⟩ hno
          · exact c
          · have := f4 k j c hj; omega
        subst hk1
        refine ⟨?_, ?_⟩
        · intro i
          constructor
          · intro hi
            obtain ⟨k', h1, h2⟩ := next D k1 j hj i (by omega)
            refine ⟨k', ?_, h2⟩
            rcases Nat.lt_or_ge k' k1 with c | c
            · exact c
            · have : k' = k1 := by omega
              subst this
              rw [hj] at h2; cases h2; omega
          · rintro ⟨k', h1, h2⟩
            exact f4 k' i h1 h2
        · rw [List.getElem?_eq_getElem hkI] at f1
          cases f1
          rw [hp] at f2; cases f2
          exact hq
      have ih1' : ∀ k' j, k' < k → (J'[k']? = some j ↔ J[k']? = some j) := fun a b c => (ih1 a b c).symm
      have ih2' : ∀ k' j, k' < k → J'[k']? = some j → P'[j]? = P[j]? := fun a b c d => (ih2 a b c ((ih1 a b c).2 d)).symm
      have hjj : j = j' := by
        by_cases c : ∃ k', k' < k ∧ J[k']? = some j
        · exact main D D' ih1 ih2 hj hj' hq hq' he he' c
        · by_cases c' : ∃ k', k' < k ∧ J'[k']? = some j'
          · exact (main D' D ih1' ih2' hj' hj hq' hq he' he c').symm
          · have f1 := (fresh D hj c).1
            have f2 := (fresh D' hj' c').1
            rcases Nat.lt_trichotomy j j' with h | h | h
            · obtain ⟨k', a, b⟩ := (f2 j).1 h
              have := (f1 j).2 ⟨k', a, (ih1 _ _ a).2 b⟩; omega
            · exact h
            · obtain ⟨k', a, b⟩ := (f1 j').1 h
              have := (f2 j').2 ⟨k', a, (ih1 _ _ a).1 b⟩; omega
      subst hjj
      have hPP : P[j]? = P'[j]? := by
        by_cases c : ∃ k', k' < k ∧ J[k']? = some j
        · obtain ⟨k', a, b⟩ := c
          exact ih2 k' j a b
        · have c' : ¬ ∃ k', k' < k ∧ J'[k']? = some j := by
            rintro ⟨k', a, b⟩
            exact c ⟨k', a, (ih1 _ _ a).2 b⟩
          rw [(fresh D hj c).2, (fresh D' hj' c').2]
      refine ⟨?_, ?_⟩
      · intro k' i hk'
        rcases Nat.lt_or_ge k' k with c | c
        · exact ih1 k' i c
        · have : k' = k := by omega
          subst this
          rw [hj, hj']
      · intro k' i hk' hi
        rcases Nat.lt_or_ge k' k with c | c
        · exact ih2 k' i c hi
        · have : k' = k := by omega
          subst this
          rw [hj] at hi; cases hi
          exact hPP
  obtain ⟨i1, i2⟩ := inv I.length (Nat.le_refl _)
  have hJ : J = J' := by
    apply List.ext_getElem?
    intro k
    rcases Nat.lt_or_ge k I.length with c | c
    · have h1 := List.getElem?_eq_getElem (show k < J.length by rw [D.len]; exact c)
      rw [h1]
      exact ((i1 k _ c).1 h1).symm
    · rw [List.getElem?_eq_none (by rw [D.len]; exact c), List.getElem?_eq_none (by rw [D'.len]; exact c)]
  subst hJ
  refine ⟨?_, rfl⟩
  apply List.ext_getElem?
  intro i
  have half : ∀ {P P' : List (Vec3 F)}, Merged V I P J → (∀ k' j, k' < I.length → J[k']? = some j → P[j]? = P'[j]?) →
      ∀ x, P[i]? = some x → P'[i]? = some x := by
    intro P P' D h x hx
    obtain ⟨k, c, h1, _, h3, _⟩ := D.first i x hx
    rw [← h k i (List.getElem?_eq_some_iff.1 h1).1 h3]; exact hx
  cases h1 : P[i]? with
  | some x => rw [half D i2 x h1]
  | none =>
    cases h2 : P'[i]? with
    | none => rfl
    | some x =>
      have := half D' (fun a b c d => (i2 a b c d).symm) x h2
      rw [h1] at this; cases this

end
end TinyMesh
