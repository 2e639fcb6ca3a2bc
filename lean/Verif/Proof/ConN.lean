import Verif.Proof.ConM
/-
`construct(vertices, indices)`: outcome in terms of the input triangles.
-/
set_option linter.unusedSimpArgs false
namespace TinyMesh
variable {F : Type} {m m' m0 : Mesh F}

theorem Tri.proper_iff (t : Tri) : t.proper ↔ t.degen = false := by
  simp [Tri.proper, Tri.degen]
  constructor
  · rintro ⟨h1, h2, h3⟩; exact ⟨⟨h1, h2⟩, h3⟩
  · rintro ⟨⟨h1, h2⟩, h3⟩; exact ⟨h1, h2, h3⟩

theorem dropDegen_id : ∀ l : List Tri, (∀ t ∈ l, t.degen = false) → dropDegen l = l := by
  intro l
  induction l with
  | nil => intro _; simp [dropDegen]
  | cons s l ihl =>
    intro h
    rw [dropDegen_cons_false (h s (by simp)), ihl (fun x hx => h x (by simp [hx]))]

theorem keepTris_id : ∀ (ts acc : List Tri), ((acc ++ ts).flatMap Tri.edges).Nodup → keepTris acc ts = acc ++ ts := by
  intro ts
  induction ts with
  | nil => intro acc _; simp [keepTris]
  | cons t ts ih =>
    intro acc h
    have hno : (t.edges.any (fun e => acc.any (fun s => s.edges.contains e))) = false := by
      rw [← Bool.not_eq_true]
      intro hc
      simp only [List.any_eq_true, List.contains_iff_mem] at hc
      obtain ⟨e, he, s, hs, hes⟩ := hc
      rw [List.flatMap_append, List.nodup_append] at h
      exact h.2.2 e (List.mem_flatMap.2 ⟨s, hs, hes⟩) e (List.mem_flatMap.2 ⟨t, by simp, he⟩) rfl
    simp only [keepTris, hno]
    rw [if_neg (by simp), ih (acc ++ [t]) (by simpa using h)]
    simp

theorem keepTris_mem : ∀ (ts acc : List Tri) (t : Tri), t ∈ keepTris acc ts → t ∈ acc ∨ t ∈ ts := by
  intro ts
  induction ts with
  | nil => intro acc t h; exact Or.inl h
  | cons s ts ih =>
    intro acc t h
    simp only [keepTris] at h
    split at h
    · rcases ih _ _ h with h | h
      · exact Or.inl h
      · exact Or.inr (by simp [h])
    · rcases ih _ _ h with h | h
      · rcases List.mem_append.1 h with h | h
        · exact Or.inl h
        · right; simp at h; simp [h]
      · exact Or.inr (by simp [h])

theorem mem_ofTris {x : Nat} : ∀ ts : List Tri, x ∈ ofTris ts ↔ ∃ t ∈ ts, t.has x := by
  intro ts
  induction ts with
  | nil => simp [ofTris]
  | cons t ts ih =>
    simp only [ofTris, List.mem_cons, ih, exists_eq_or_imp, Tri.has, or_assoc]

theorem SingleFan.congr {ts ts' : List Tri} (h : ∀ t, t ∈ ts ↔ t ∈ ts') (a : Nat) : SingleFan ts a ↔ SingleFan ts' a := by
  have e : FanStep ts a = FanStep ts' a := by
    funext t s
    simp only [FanStep, h]
  unfold SingleFan
  rw [e]
  simp only [h]

theorem boundaryCount_perm {ts ts' : List Tri} (h : ts.Perm ts') : boundaryCount ts = boundaryCount ts' := by
  unfold boundaryCount
  have e : ∀ x : Nat × Nat, (ts.any fun s => s.edges.contains x) = (ts'.any fun s => s.edges.contains x) := fun x => h.any_eq
  simp only [e]
  exact (h.flatMap_right _).countP_eq _

theorem boundaryCount_closed {ts : List Tri}
    (h : ∀ t ∈ ts, ∀ e ∈ t.edges, ∃ s ∈ ts, (e.2, e.1) ∈ s.edges) : boundaryCount ts = 0 := by
  unfold boundaryCount
  rw [List.countP_eq_zero]
  intro e he
  obtain ⟨t, ht, hte⟩ := List.mem_flatMap.1 he
  obtain ⟨s, hs, hse⟩ := h t ht e hte
  have : (ts.any fun s => s.edges.contains (e.2, e.1)) = true := by
    simp only [List.any_eq_true, List.contains_iff_mem]
    exact ⟨s, hs, hse⟩
  simp only [this, Bool.not_true, Bool.false_eq_true, not_false_eq_true]

theorem fits_closed {ts : List Tri} (h : ∀ t ∈ ts, ∀ e ∈ t.edges, ∃ s ∈ ts, (e.2, e.1) ∈ s.edges)
    (grow : Nat → Nat) (cap : Nat) : Fits grow cap ts := by
  unfold Fits
  rw [boundaryCount_closed h]
  have := le_capAfter grow (3 * ts.length) 0 cap (Nat.zero_le _)
  omega

theorem Mesh.WF.owned (w : m.WF) (hh : 0 < m.hFresh) (hv : 0 < m.vFresh) (hf : 0 < m.fFresh) : Owned m :=
  ⟨fun p => (w.hDense.mem p).2, fun p => (w.vDense.mem p).2, fun p => (w.fDense.mem p).2, hh, hv, hf⟩

section
variable [Scalar F]

/-- what a normal return of `construct(vertices, indices)` implies -/
theorem construct_ok (O : Owned m) {V : List (Vec3 F)} {I : List Nat} (h : construct V I m = .ok () m') :
    ∃ mD J ts0, Ready mD ∧ mD.hCap = m.hCap ∧ mD.grow = m.grow ∧ mD.indices = m.indices ++ J ∧
      J.length = I.length ∧ m.indices ++ J = ofTris ts0 ∧ (∀ t ∈ dropDegen ts0, t.degen = false) ∧
      Built mD (dropDegen ts0) (keepTris [] (dropDegen ts0)) m' ∧
      (ValidInput V I → Merged V I (m'.vs.map m'.vPos) J) := by
  have hI : ∀ i ∈ I, i < V.length := by
    by_contra hc
    have : ∃ i ∈ I, V.length ≤ i := by
      by_contra hn
      exact hc (fun i hi => by
        by_contra hlt
        exact hn ⟨i, hi, by omega⟩)
    rw [construct_range this] at h
    cases h
  obtain ⟨mD, J, e, R, hcap, hgr, hJ, hl, hb, hM⟩ := construct_reduce O hI
  rw [e] at h
  cases ht : toTris mD.indices with
  | none =>
    rw [construct0_none ((toTris_none _).1 ht)] at h; cases h
  | some ts0 =>
    have hnd : ∀ t ∈ dropDegen ts0, t.degen = false := by
      intro t htm
      cases hd : t.degen with
      | false => rfl
      | true => rw [construct0_degen R ht ⟨t, htm, hd⟩] at h; cases h
    rcases construct0_spec R ht hnd with ⟨m2, e2, B⟩ | ⟨e2, _⟩ | ⟨e2, _⟩
    · rw [e2] at h; cases h
      refine ⟨mD, J, ts0, R, hcap, hgr, hJ, hl, ?_, hnd, B, ?_⟩
      · rw [← hJ]; exact toTris_some _ _ ht
      · intro hv
        rw [B.vs, B.vPos]
        exact hM hv
    · rw [e2] at h; cases h
    · rw [e2] at h; cases h

/-- outcome of building from valid input on an object with empty `indices_` -/
theorem construct_cases (L : EqLaw F) (O : Owned m) (hi : m.indices = []) {V : List (Vec3 F)} {I : List Nat}
    (hv : ValidInput V I) {P : List (Vec3 F)} {ts0 : List Tri} (D : Merged V I P (ofTris ts0))
    (hnd : ∀ t ∈ dropDegen ts0, t.degen = false) :
    (∃ mD m', construct V I m = .ok () m' ∧ m'.vs.map m'.vPos = P ∧ mD.vs.length = P.length ∧ mD.grow = m.grow ∧ mD.hCap = m.hCap ∧
      Built mD (dropDegen ts0) (keepTris [] (dropDegen ts0)) m') ∨
    (construct V I m = .err .ub ∧ ((∃ a, a < P.length ∧ ∀ t ∈ keepTris [] (dropDegen ts0), ¬ t.has a) ∨
      ¬ Fits m.grow m.hCap (keepTris [] (dropDegen ts0)))) ∨
    (construct V I m = .err .abort ∧ (∃ a, a < P.length ∧ ¬ SingleFan (keepTris [] (dropDegen ts0)) a) ∧
      (∀ a, a < P.length → ∃ t ∈ keepTris [] (dropDegen ts0), t.has a) ∧
      Fits m.grow m.hCap (keepTris [] (dropDegen ts0))) := by
  have hI : ∀ i ∈ I, i < V.length := by
    intro i hii
    obtain ⟨p, hp, _⟩ := hv i hii
    exact (List.getElem?_eq_some_iff.1 hp).1
  obtain ⟨mD, J, e, R, hcap, hgr, hJ, hl, hb, hM⟩ := construct_reduce O hI
  obtain ⟨hP, hJJ⟩ := Merged.unique L hv (hM hv) D
  subst hJJ
  rw [hi, List.nil_append] at hJ
  have ht : toTris mD.indices = some ts0 := by rw [hJ]; exact toTris_ofTris ts0
  have hlen : mD.vs.length = P.length := by rw [← hP, List.length_map]
  rw [e]
  have rng : ∀ t ∈ keepTris [] (dropDegen ts0), t.inRange mD.vs.length := by
    intro t htk
    have hd := (keepTris_mem _ _ _ htk).resolve_left (by simp)
    have ht0 := (dropDegen_mem (hnd t hd)).1 hd
    have key : ∀ x, t.has x → x < mD.vs.length := fun x hx => hb x ((mem_ofTris ts0).2 ⟨t, ht0, hx⟩)
    exact ⟨key _ (Or.inl rfl), key _ (Or.inr (Or.inl rfl)), key _ (Or.inr (Or.inr rfl))⟩
  rcases construct0_spec R ht hnd with ⟨m2, e2, B⟩ | ⟨e2, h2⟩ | ⟨e2, ⟨a, ha, hf⟩, _, h2, h3⟩
  · left
    exact ⟨mD, m2, e2, by rw [B.vs, B.vPos]; exact hP, hlen, hgr, hcap, B⟩
  · right; left
    refine ⟨e2, ?_⟩
    rcases h2 with ⟨t, h1, h2⟩ | ⟨a, h1, h2⟩ | h2
    · exact absurd (rng t h1) h2
    · exact Or.inl ⟨a, by omega, h2⟩
    · right
      unfold Fits
      rw [← hgr, ← hcap]; omega
  · right; right
    refine ⟨e2, ⟨a, by omega, hf⟩, fun b hb' => h2 b (by omega), ?_⟩
    unfold Fits
    rw [← hgr, ← hcap]; exact h3

end
end TinyMesh
