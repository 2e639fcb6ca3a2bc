import Verif.Proof.CtxG
import Verif.Model.Context
import Verif.Spec.Coherent
/-
The signatures of new vertices.
-/
namespace TinyMesh
open Orbit

section
variable {F : Type} {m : Mesh F}

theorem foldAll_list {α β : Type} {body : α → β → M F β} {P : Nat → β → Prop} (l : List α) {b : β} (h0 : P 0 b)
    (step : ∀ i a b, l[i]? = some a → P i b → ∃ b', body a b m = .ok b' m ∧ P (i + 1) b') :
    ∃ b', foldAll body l b m = .ok b' m ∧ P l.length b' := by
  induction l generalizing P b with
  | nil => exact ⟨b, rfl, h0⟩
  | cons a l ih =>
    obtain ⟨b1, e1, p1⟩ := step 0 a b rfl h0
    obtain ⟨b2, e2, p2⟩ := ih (P := fun i => P (i + 1)) (b := b1) p1 (fun i x b hx hp => step (i + 1) x b hx hp)
    refine ⟨b2, ?_, p2⟩
    rw [foldAll, bind_apply, e1]
    exact e2

variable [ScalarX F]

/-- the sum of the rows of the vertices of the list -/
def sumRows (t : Nat → Option (List F)) (L : List Nat) (a : List F) : List F := L.foldl (fun a u => List.zipWith (· + ·) a ((t u).getD [])) a

theorem sumRows_length {t : Nat → Option (List F)} {n : Nat} : ∀ (L : List Nat) (a : List F), a.length = n → (∀ u ∈ L, ((t u).getD []).length = n) →
    (sumRows t L a).length = n
  | [], _, h, _ => h
  | u :: L, a, h, H => by
    refine sumRows_length L _ ?_ fun x hx => H x (by simp [hx])
    rw [List.length_zipWith, h, H u (by simp), min_self]

theorem sumRows_congr {t t' : Nat → Option (List F)} : ∀ (L : List Nat) (a : List F), (∀ u ∈ L, t u = t' u) → sumRows t L a = sumRows t' L a
  | [], _, _ => rfl
  | u :: L, a, h => by
    unfold sumRows
    rw [List.foldl_cons, List.foldl_cons, h u (by simp)]
    exact sumRows_congr L _ fun x hx => h x (by simp [hx])

theorem hksNear_ok {t : Nat → Option (List F)} {n : Nat} : ∀ (us : List Nat) (a : List F) (c : Nat), a.length = n →
    (∀ u ∈ us, t u = none ∨ ∃ f, t u = some f ∧ f.length = n) →
    hksNear t us (a, c) m = .ok (sumRows t (us.filter fun u => (t u).isSome) a, c + (us.filter fun u => (t u).isSome).length) m
  | [], _, _, _, _ => rfl
  | u :: us, a, c, ha, H => by
    unfold hksNear
    rcases H u (by simp) with e | ⟨f, e, l⟩
    · have : (u :: us).filter (fun u => (t u).isSome) = us.filter fun u => (t u).isSome := by
        rw [List.filter_cons_of_neg]; simp [e]
      rw [this]
      simp only [e]
      exact hksNear_ok us a c ha fun x hx => H x (by simp [hx])
    · have : (u :: us).filter (fun u => (t u).isSome) = u :: us.filter fun u => (t u).isSome := by
        rw [List.filter_cons_of_pos]; simp [e]
      rw [this]
      simp only [e, bind_apply, addRow]
      rw [if_pos (ha.trans l.symm)]
      change hksNear t us (List.zipWith (· + ·) a f, c + 1) m = _
      rw [hksNear_ok us _ (c + 1) (by rw [List.length_zipWith, ha, l, min_self]) fun x hx => H x (by simp [hx])]
      simp only [sumRows, List.foldl_cons, e, Option.getD_some, List.length_cons]
      rw [show c + 1 + (us.filter fun u => (t u).isSome).length = c + ((us.filter fun u => (t u).isSome).length + 1) by omega]

/-- the row of `v`, the `i`-th vertex, in the table `t` is the mean of those of its neighbours that had one before -/
def MeanRow (m : Mesh F) (hks t : Nat → Option (List F)) (dims i v : Nat) : Prop :=
  ∃ L : List Nat, L.Nodup ∧ (∀ u, u ∈ L ↔ m.Joined v u ∧ (hks u ≠ none ∨ ∃ j, j < i ∧ m.vs[j]? = some u)) ∧
    t v = some ((sumRows t L (List.replicate dims (Scalar.lit 0 1))).map fun x => x / Scalar.lit L.length 1)

theorem Mesh.Good.nbList (g : m.Good) {v : Nat} (a : m.vAlive v = true) :
    ((orbit m.sig (m.vHe v)).map fun x => m.hSrc (m.hNext x)).Nodup ∧ ∀ u, u ∈ (orbit m.sig (m.vHe v)).map (fun x => m.hSrc (m.hNext x)) ↔ m.Joined v u := by
  have w := g.wf
  constructor
  · refine ((w.ring_perm a).nodup_iff.2 (w.hDense.nodup.filter _)).map_on ?_
    intro x hx y hy e
    obtain ⟨ax, sx⟩ := (w.mem_ring a).1 hx
    obtain ⟨ay, sy⟩ := (w.mem_ring a).1 hy
    exact g.simple.no_dup x y ax ay (sx.trans sy.symm) e
  · intro u
    rw [List.mem_map]
    constructor
    · rintro ⟨x, hx, rfl⟩
      obtain ⟨ax, sx⟩ := (w.mem_ring a).1 hx
      exact ⟨x, ax, sx, rfl⟩
    · rintro ⟨x, ax, sx, rfl⟩
      exact ⟨x, (w.mem_ring a).2 ⟨ax, sx⟩, rfl⟩

theorem hksUpdate_spec (g : m.Good) {hks : Nat → Option (List F)} {dims : Nat}
    (H : ∀ v, m.vAlive v = true → hks v = none ∨ ∃ f, hks v = some f ∧ f.length = dims) :
    ∃ t, hksUpdate dims hks m = .ok t m ∧ (∀ v, hks v ≠ none → t v = hks v) ∧ (∀ v, m.vAlive v = true → ∃ f, t v = some f ∧ f.length = dims) ∧
      (∀ v, m.vAlive v = false → t v = hks v) ∧ ∀ i v, m.vs[i]? = some v → hks v = none → MeanRow m hks t dims i v := by
  have w := g.wf
  have inj : ∀ i j v, m.vs[i]? = some v → m.vs[j]? = some v → i = j := fun i j v hi hj => by
    obtain ⟨c, rfl⟩ := List.getElem?_eq_some_iff.1 hi
    obtain ⟨c', e⟩ := List.getElem?_eq_some_iff.1 hj
    exact (w.vDense.nodup.getElem_inj_iff.1 e).symm
  obtain ⟨t, e, p1, p2, p3, p4⟩ := foldAll_list (m := m) (body := hksNew dims) (b := hks) m.vs
    (P := fun i t => (∀ u, hks u ≠ none → t u = hks u) ∧ (∀ u, t u ≠ none ↔ hks u ≠ none ∨ ∃ j, j < i ∧ m.vs[j]? = some u) ∧
      (∀ u, m.vAlive u = true → t u = none ∨ ∃ f, t u = some f ∧ f.length = dims) ∧
      ∀ j v, j < i → m.vs[j]? = some v → hks v = none → MeanRow m hks t dims j v)
    ⟨fun _ _ => rfl, fun u => ⟨Or.inl, fun h => h.elim id fun ⟨j, c, _⟩ => absurd c (Nat.not_lt_zero j)⟩, H, fun j _ c => absurd c (Nat.not_lt_zero j)⟩
    (fun i v t hv ⟨q1, q2, q3, q4⟩ => by
      have av : m.vAlive v = true := (w.vDense.mem v).1 (List.mem_of_getElem? hv)
      unfold hksNew
      have grow : ∀ u, (∃ j, j < i + 1 ∧ m.vs[j]? = some u) ↔ (∃ j, j < i ∧ m.vs[j]? = some u) ∨ u = v := by
        intro u
        constructor
        · rintro ⟨j, c, e⟩
          by_cases h : j = i
          · rw [h, hv] at e; cases e; exact Or.inr rfl
          · exact Or.inl ⟨j, by omega, e⟩
        · rintro (⟨j, c, e⟩ | rfl)
          · exact ⟨j, by omega, e⟩
          · exact ⟨i, by omega, hv⟩
      cases tv : t v with
      | some f =>
        refine ⟨t, rfl, q1, fun u => ?_, q3, fun j x c hx n => ?_⟩
        · rw [grow, ← or_assoc, ← q2]
          constructor
          · exact Or.inl
          · rintro (h | rfl)
            · exact h
            · rw [tv]; exact Option.some_ne_none f
        · by_cases h : j = i
          · exfalso
            rw [h, hv] at hx
            cases hx
            rcases (q2 v).1 (by rw [tv]; exact Option.some_ne_none f) with h' | ⟨j', c', e'⟩
            · exact h' n
            · have := inj _ _ _ hv e'; omega
          · exact q4 j x (by omega) hx n
      | none =>
        have hn : hks v = none := by
          by_contra h
          exact (q2 v).2 (Or.inl h) tv
        obtain ⟨nd, mem⟩ := g.nbList av
        have near := hksNear_ok (m := m) (t := t) (n := dims) ((orbit m.sig (m.vHe v)).map fun x => m.hSrc (m.hNext x))
          (List.replicate dims (Scalar.lit 0 1)) 0 (by simp) (fun u hu => q3 u (w.joined_alive ((mem u).1 hu)).2)
        generalize hL : ((orbit m.sig (m.vHe v)).map fun x => m.hSrc (m.hNext x)).filter (fun u => (t u).isSome) = L at near
        have memL : ∀ u, u ∈ L ↔ m.Joined v u ∧ t u ≠ none := fun u => by
          rw [← hL, List.mem_filter, mem, Option.isSome_iff_ne_none]
        have ndL : L.Nodup := by rw [← hL]; exact nd.filter _
        have vL : v ∉ L := fun h => ((memL v).1 h).2 tv
        refine ⟨putAt t v (some ((sumRows t L (List.replicate dims (Scalar.lit 0 1))).map fun x => x / Scalar.lit L.length 1)), ?_, ?_, ?_, ?_, ?_⟩
        · simp only [bind_apply, w.ringVerts_ok av, near, Nat.zero_add]
          rfl
        · intro u hu
          unfold putAt
          rw [if_neg (by rintro rfl; exact hu hn)]
          exact q1 u hu
        · intro u
          rw [grow, ← or_assoc, ← q2]
          unfold putAt
          by_cases h : u = v
          · rw [if_pos h]
            exact ⟨fun _ => Or.inr h, fun _ => Option.some_ne_none _⟩
          · rw [if_neg h]
            exact ⟨Or.inl, fun h' => h'.resolve_right h⟩
        · intro u au
          unfold putAt
          by_cases h : u = v
          · rw [if_pos h]
            refine Or.inr ⟨_, rfl, ?_⟩
            rw [List.length_map]
            refine sumRows_length L _ (by simp) fun x hx => ?_
            obtain ⟨h1, h2⟩ := (memL x).1 hx
            rcases q3 x (w.joined_alive h1).2 with e | ⟨f, e, l⟩
            · exact absurd e h2
            · rw [e]; exact l
          · rw [if_neg h]; exact q3 u au
        · intro j x c hx n
          by_cases h : j = i
          · rw [h, hv] at hx
            cases hx
            rw [h]
            refine ⟨L, ndL, fun u => by rw [memL, q2], ?_⟩
            rw [sumRows_congr (t := putAt t v _) L _ (t' := t) fun u hu => by
              unfold putAt
              rw [if_neg (by rintro rfl; exact vL hu)]]
            unfold putAt
            rw [if_pos rfl]
          · obtain ⟨L', d1, d2, d3⟩ := q4 j x (by omega) hx n
            have ne : x ≠ v := by rintro rfl; exact h (inj _ _ _ hx hv)
            refine ⟨L', d1, d2, ?_⟩
            rw [sumRows_congr (t := putAt t v _) L' _ (t' := t) fun u hu => by
              unfold putAt
              rw [if_neg]
              rintro rfl
              rcases ((d2 u).1 hu).2 with h' | ⟨j', c', e'⟩
              · exact h' hn
              · have := inj _ _ _ hv e'; omega]
            unfold putAt
            rw [if_neg ne]
            exact d3)
  have all : ∀ v, m.vAlive v = true → ∃ j, j < m.vs.length ∧ m.vs[j]? = some v := fun v a => by
    obtain ⟨j, hj⟩ := List.getElem?_of_mem ((w.vDense.mem v).2 a)
    exact ⟨j, (List.getElem?_eq_some_iff.1 hj).1, hj⟩
  refine ⟨t, ?_, p1, fun v a => ?_, fun v a => ?_, fun i v hv n => p4 i v (List.getElem?_eq_some_iff.1 hv).1 hv n⟩
  · unfold hksUpdate
    simp only [bind_apply, read_apply]
    exact e
  · exact (p3 v a).resolve_left ((p2 v).2 (Or.inr (all v a)))
  · by_cases h : hks v = none
    · rw [h]
      by_contra h'
      rcases (p2 v).1 h' with h2 | ⟨j, -, e⟩
      · exact h2 h
      · have := (w.vDense.mem v).1 (List.mem_of_getElem? e)
        rw [a] at this; cases this
    · exact p1 v h

end

/-- sums of finite rows -/
theorem sumRows_fin {t : Nat → Option (List XR)} {d : Nat → List ℝ} {n : Nat} : ∀ (L : List Nat) (a : List ℝ), a.length = n →
    (∀ u ∈ L, t u = some ((d u).map XR.fin) ∧ (d u).length = n) →
    sumRows t L (a.map XR.fin) = ((List.range n).map fun k => XR.fin (a.getD k 0 + (L.map fun u => (d u).getD k 0).sum))
  | [], a, ha, _ => by
    simp only [sumRows, List.foldl_nil, List.map_nil, List.sum_nil, add_zero]
    rw [← ha]
    apply List.ext_getElem
    · simp
    · intro i h1 h2
      simp only [List.length_map] at h1
      simp [List.getElem?_eq_getElem h1]
  | u :: L, a, ha, H => by
    obtain ⟨e, l⟩ := H u (by simp)
    have step : sumRows t (u :: L) (a.map XR.fin) = sumRows t L ((List.zipWith (· + ·) a (d u)).map XR.fin) := by
      simp only [sumRows, List.foldl_cons, e, Option.getD_some]
      rw [List.zipWith_map_left, List.zipWith_map_right, List.map_zipWith]
      rfl
    rw [step, sumRows_fin L _ (by rw [List.length_zipWith, ha, l, min_self]) fun x hx => H x (by simp [hx])]
    apply List.map_congr_left
    intro k hk
    have hk := List.mem_range.1 hk
    rw [List.map_cons, List.sum_cons, ← add_assoc]
    congr 2
    rw [List.getD_eq_getElem _ _ (by rw [List.length_zipWith, ha, l, min_self]; exact hk), List.getD_eq_getElem _ _ (by rw [ha]; exact hk),
      List.getD_eq_getElem _ _ (by rw [l]; exact hk), List.getElem_zipWith]

end TinyMesh
