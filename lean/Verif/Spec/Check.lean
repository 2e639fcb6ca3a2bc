import Verif.Spec.Build
import Mathlib.Data.List.Chain
import Mathlib.Data.List.GetD
/-
Ways to check the conditions of `Spec/Build.lean` on concrete lists; used for samples only.
-/
namespace TinyMesh

theorem eqvGen_of_chain {α : Type} {R : α → α → Prop} : ∀ (l : List α), List.IsChain (fun x y => R x y ∨ R y x) l →
    ∀ x ∈ l, ∀ y ∈ l, Relation.EqvGen R x y := by
  intro l
  induction l with
  | nil => simp
  | cons z l ih =>
    intro hc x hx y hy
    cases l with
    | nil =>
      simp at hx hy; subst hx; subst hy; exact .refl _
    | cons w l =>
      rw [List.isChain_cons_cons] at hc
      have hzw : Relation.EqvGen R z w := by
        rcases hc.1 with h | h
        · exact .rel _ _ h
        · exact .symm _ _ (.rel _ _ h)
      have key : ∀ u ∈ z :: w :: l, Relation.EqvGen R u w := by
        intro u hu
        rcases List.mem_cons.1 hu with rfl | hu
        · exact hzw
        · exact ih hc.2 u hu w (by simp)
      exact .trans _ _ _ (key x hx) (.symm _ _ (key y hy))

/-- the relation between consecutive triangles of a chain, decidable -/
def adj (ts : List Tri) (v : Nat) (t s : Tri) : Bool :=
  ts.contains t && ts.contains s && t.edges.any (fun e => e.1 == v && s.edges.contains (e.2, v))

theorem adj_iff {ts : List Tri} {v : Nat} {t s : Tri} (h : adj ts v t s = true) : FanStep ts v t s := by
  simp only [adj, Bool.and_eq_true, List.contains_iff_mem, List.any_eq_true, beq_iff_eq] at h
  obtain ⟨⟨h1, h2⟩, ⟨e1, e2⟩, he, rfl, h3⟩ := h
  exact ⟨h1, h2, e2, he, h3⟩

def chainB (r : Tri → Tri → Bool) : List Tri → Bool
  | [] => true
  | [_] => true
  | a :: b :: l => (r a b || r b a) && chainB r (b :: l)

theorem chainB_iff {r : Tri → Tri → Bool} : ∀ l, chainB r l = true → List.IsChain (fun x y => r x y = true ∨ r y x = true) l
  | [], _ => .nil
  | [_], _ => .singleton _
  | a :: b :: l, h => by
    simp only [chainB, Bool.and_eq_true, Bool.or_eq_true] at h
    exact List.isChain_cons_cons.2 ⟨h.1, chainB_iff _ h.2⟩

/-- `fans` names for each vertex its triangles in the order of the fan -/
def fansB (ts : List Tri) (fans : List (List Tri)) : Bool :=
  ts.all (fun t => [t.a, t.b, t.c].all (fun v => decide (v < fans.length) && (fans.getD v []).contains t)) &&
  (List.range fans.length).all (fun v => chainB (adj ts v) (fans.getD v []))

theorem fansB_iff {ts : List Tri} {fans : List (List Tri)} (h : fansB ts fans = true) (a : Nat) : SingleFan ts a := by
  simp only [fansB, Bool.and_eq_true, List.all_eq_true, List.mem_range, List.contains_iff_mem, decide_eq_true_eq] at h
  obtain ⟨h1, h2⟩ := h
  intro t s ht hs hta hsa
  have k : ∀ u ∈ ts, u.has a → a < fans.length ∧ u ∈ fans.getD a [] := by
    intro u hu hua
    exact h1 u hu a (by simpa [Tri.has] using hua)
  obtain ⟨hl, ht'⟩ := k t ht hta
  obtain ⟨_, hs'⟩ := k s hs hsa
  refine eqvGen_of_chain _ ((chainB_iff _ (h2 a hl)).imp ?_) t ht' s hs'
  rintro x y (h | h)
  · exact Or.inl (adj_iff h)
  · exact Or.inr (adj_iff h)

/-- checks `Manifold` given the fans -/
def manifoldB (ts : List Tri) (fans : List (List Tri)) : Bool :=
  ts.all (fun t => decide t.proper) && decide (ts.flatMap Tri.edges).Nodup && fansB ts fans

theorem manifoldB_iff {ts : List Tri} {fans : List (List Tri)} (h : manifoldB ts fans = true) : Manifold ts := by
  simp only [manifoldB, Bool.and_eq_true, List.all_eq_true, decide_eq_true_eq] at h
  exact ⟨h.1.1, h.1.2, fansB_iff h.2⟩

section
variable {F : Type} [Scalar F] [DecidableEq F]

def mergedB (V : List (Vec3 F)) (I : List Nat) (P : List (Vec3 F)) (J : List Nat) : Bool :=
  decide (J.length = I.length) &&
  (List.range I.length).all (fun k => match V[I.getD k 0]?, P[J.getD k 0]? with
    | some p, some q => q.eq p
    | _, _ => false) &&
  (List.range P.length).all (fun i => (List.range P.length).all (fun j =>
    !decide (i < j) || match P[i]?, P[j]? with
      | some p, some q => !p.eq q
      | _, _ => true)) &&
  (List.range P.length).all (fun i => (List.range I.length).any (fun k =>
    (match V[I.getD k 0]?, P[i]? with
      | some p, some q => decide (p.x = q.x) && decide (p.y = q.y) && decide (p.z = q.z)
      | _, _ => false) &&
    decide (J.getD k 0 = i) && (List.range k).all (fun k' => decide (J.getD k' 0 < i))))

theorem getD_of {α : Type} {l : List α} {k : Nat} {x d : α} (h : l[k]? = some x) : l.getD k d = x := by
  simp [List.getD, h]

theorem mergedB_iff {V P : List (Vec3 F)} {I J : List Nat} (h : mergedB V I P J = true) : Merged V I P J := by
  simp only [mergedB, Bool.and_eq_true, decide_eq_true_eq, List.all_eq_true, List.mem_range, List.any_eq_true] at h
  obtain ⟨⟨⟨h1, h2⟩, h3⟩, h4⟩ := h
  refine ⟨h1, ?_, ?_, ?_⟩
  · intro k i j hi hj
    have hk := (List.getElem?_eq_some_iff.1 hi).1
    have := h2 k hk
    rw [getD_of hi, getD_of hj] at this
    split at this
    · next p q hp hq => exact ⟨p, q, hp, hq, this⟩
    · cases this
  · intro i j p q hij hp hq
    have := h3 i (List.getElem?_eq_some_iff.1 hp).1 j (List.getElem?_eq_some_iff.1 hq).1
    rw [hp, hq] at this
    simpa [hij] using this
  · intro i p hp
    obtain ⟨k, hk, ⟨hm, hJ⟩, hall⟩ := h4 i (List.getElem?_eq_some_iff.1 hp).1
    rw [hp] at hm
    have hI : I[k]? = some (I.getD k 0) := by
      rw [List.getElem?_eq_getElem hk, List.getD_eq_getElem _ _ hk]
    have hJk : J[k]? = some i := by
      rw [← hJ, List.getElem?_eq_getElem (by omega), List.getD_eq_getElem _ _ (by omega)]
    refine ⟨k, _, hI, ?_, hJk, ?_⟩
    · split at hm
      · next p' q' hp' hq' =>
        cases hq'
        rw [hp']
        simp only [Bool.and_eq_true, decide_eq_true_eq] at hm
        obtain ⟨⟨a, b⟩, c⟩ := hm
        cases p'; cases p
        simp_all
      · cases hm
    · intro k' j hk' hj
      have := hall k' hk'
      rwa [getD_of hj] at this

end

/-- decidable form of `ValidInput` -/
def validB {F : Type} [Scalar F] (V : List (Vec3 F)) (I : List Nat) : Bool :=
  I.all (fun i => match V[i]? with
    | some p => p.eq p
    | none => false)

theorem validB_iff {F : Type} [Scalar F] {V : List (Vec3 F)} {I : List Nat} (h : validB V I = true) : ValidInput V I := by
  simp only [validB, List.all_eq_true] at h
  intro i hi
  have := h i hi
  split at this
  · next p hp => exact ⟨p, hp, this⟩
  · cases this

instance (g : Nat → Nat) (c : Nat) (ts : List Tri) : Decidable (Fits g c ts) := by unfold Fits; infer_instance
instance (t : Tri) (a : Nat) : Decidable (t.has a) := by unfold Tri.has; infer_instance

end TinyMesh

namespace TinyMesh

theorem adj_of {ts : List Tri} {v : Nat} {t s : Tri} (h : FanStep ts v t s) : adj ts v t s = true := by
  obtain ⟨h1, h2, u, h3, h4⟩ := h
  simp only [adj, Bool.and_eq_true, List.contains_iff_mem, List.any_eq_true, beq_iff_eq]
  exact ⟨⟨h1, h2⟩, (v, u), h3, rfl, h4⟩

/-- `p` separates the triangles at `v` into two groups without a common edge -/
def splitB (ts : List Tri) (v : Nat) (p : Tri → Bool) (t s : Tri) : Bool :=
  ts.all (fun x => ts.all (fun y => !adj ts v x y || (p x == p y))) && ts.contains t && ts.contains s &&
  decide (t.has v) && decide (s.has v) && (p t != p s)

theorem splitB_iff {ts : List Tri} {v : Nat} {p : Tri → Bool} {t s : Tri} (h : splitB ts v p t s = true) :
    ¬ SingleFan ts v := by
  simp only [splitB, Bool.and_eq_true, List.all_eq_true, List.contains_iff_mem, decide_eq_true_eq, bne_iff_ne] at h
  obtain ⟨⟨⟨⟨⟨h1, h2⟩, h3⟩, h4⟩, h5⟩, h6⟩ := h
  intro hs
  have key : ∀ x y, Relation.EqvGen (FanStep ts v) x y → p x = p y := by
    intro x y h
    induction h with
    | rel x y h =>
      have := h1 x h.1 y h.2.1
      rw [adj_of h] at this
      simpa using this
    | refl => rfl
    | symm _ _ _ ih => exact ih.symm
    | trans _ _ _ _ _ ih1 ih2 => exact ih1.trans ih2
  exact h6 (key t s (hs t s h2 h3 h4 h5))

end TinyMesh
