import Verif.Spec.Curv
import Verif.Proof.SimA
import Verif.Proof.OperA
import Verif.Proof.DenA
/-
Sums over the ring of a vertex.
-/
namespace TinyMesh
open Orbit

theorem Orbit.Perm.map_orbit {f : Nat → Nat} {S : Nat → Prop} {N : Nat} (p : Perm f S N) {x : Nat} (hx : S x) :
    ((orbit f x).map f).Perm (orbit f x) := by
  have hs := p.period_spec hx
  unfold orbit
  obtain ⟨k, hk⟩ : ∃ k, period f x = k + 1 := ⟨period f x - 1, by omega⟩
  rw [hk] at hs ⊢
  rw [List.map_map]
  have e1 : (List.range (k + 1)).map (f ∘ fun i => f^[i] x) = (List.range k).map (fun i => f^[i + 1] x) ++ [x] := by
    rw [List.range_succ, List.map_append]
    congr 1
    · exact List.map_congr_left fun i _ => (Function.iterate_succ_apply' f i x).symm
    · simp only [List.map_cons, List.map_nil, Function.comp, ← Function.iterate_succ_apply' f, Nat.succ_eq_add_one, hs.2.1]
  have e2 : (List.range (k + 1)).map (fun i => f^[i] x) = x :: (List.range k).map (fun i => f^[i + 1] x) := by
    rw [List.range_succ_eq_map, List.map_cons, List.map_map]; rfl
  rw [e1, e2]
  exact List.perm_append_singleton _ _

theorem sum_range_list {A : Type} [AddCommMonoid A] (T : Nat → A) (n : Nat) : ((List.range n).map T).sum = ∑ i ∈ Finset.range n, T i := by
  induction n with
  | zero => simp
  | succ n ih => rw [List.range_succ, List.map_append, List.sum_append, ih, Finset.sum_range_succ]; simp

theorem foldl_fin' (g : Nat → XR) (G : Nat → ℝ) : ∀ (l : List Nat) (a : ℝ), (∀ i ∈ l, g i = .fin (G i)) →
    l.foldl (fun s i => s + g i) (XR.fin a) = .fin (a + (l.map G).sum)
  | [], a, _ => by simp
  | i :: l, a, h => by
    rw [List.foldl_cons, h i (by simp), X_add, foldl_fin' g G l _ fun j hj => h j (by simp [hj])]
    simp [add_assoc]

theorem foldl_is (g : Nat → Vec3 XR) (G : Nat → E3) : ∀ (l : List Nat) (a : Vec3 XR) (b : E3), a.Is b → (∀ i ∈ l, (g i).Is (G i)) →
    (l.foldl (fun s i => s.add (g i)) a).Is (b + (l.map G).sum)
  | [], a, b, ha, _ => by simpa using ha
  | i :: l, a, b, ha, h => by
    rw [List.foldl_cons, List.map_cons, List.sum_cons, ← add_assoc]
    exact foldl_is g G l _ _ (ha.add (h i (by simp))) fun j hj => h j (by simp [hj])

section
variable {f : Nat → Nat} {S : Nat → Prop} {N : Nat}

theorem Orbit.Perm.getD_orbit (p : Perm f S N) {x : Nat} (hx : S x) {α : Type} (q : Nat → α) (d : α) (i : Nat) :
    ((orbit f x).map q).getD (i % period f x) d = q (f^[i] x) := by
  have hs := p.period_spec hx
  have hi : i % period f x < period f x := Nat.mod_lt _ hs.1
  rw [List.getD_eq_getElem _ _ (by rw [List.length_map, length_orbit]; exact hi)]
  simp only [orbit, List.getElem_map, List.getElem_range]
  rw [← p.iter_mod hx]

/-- a sum over the orbit, with the elements before and after each -/
theorem Orbit.Perm.sum_orbit (p : Perm f S N) {x : Nat} (hx : S x) {A : Type} [AddCommMonoid A] (G : Nat → Nat → Nat → A) :
    ∑ i ∈ Finset.range (period f x), G (f^[i] x) (f^[i + 1] x) (f^[i + period f x - 1] x) =
      ((orbit f x).map fun y => G (f y) (f (f y)) y).sum := by
  have hs := p.period_spec hx
  have e : ((orbit f x).map fun y => G (f y) (f (f y)) y).sum =
      ∑ i ∈ Finset.range (period f x), G (f^[i + 1] x) (f^[i + 2] x) (f^[i] x) := by
    unfold orbit
    rw [List.map_map, sum_range_list]
    refine Finset.sum_congr rfl fun i _ => ?_
    simp only [Function.comp, ← Function.iterate_succ_apply' f]
  rw [e]
  obtain ⟨k, hk⟩ : ∃ k, period f x = k + 1 := ⟨period f x - 1, by omega⟩
  rw [hk] at hs ⊢
  rw [Finset.sum_range_succ', Finset.sum_range_succ]
  congr 1
  · refine Finset.sum_congr rfl fun i _ => ?_
    have : f^[i + 1 + (k + 1) - 1] x = f^[i] x := by
      rw [show i + 1 + (k + 1) - 1 = i + (k + 1) by omega, Function.iterate_add_apply, hs.2.1]
    rw [this]
  · rw [hs.2.1, show k + 2 = 1 + (k + 1) by omega, Function.iterate_add_apply f 1, hs.2.1]
    simp

/-- a sum over a closed list of positions, read backwards: each element of the orbit with its predecessor and its successor -/
theorem Orbit.Perm.sum_reverse (p : Perm f S N) {x : Nat} (hx : S x) {α A : Type} [AddCommMonoid A] (q : Nat → α) (d : α)
    (G : α → α → α → A) :
    let ps := ((orbit f x).map q).reverse
    ∑ i ∈ Finset.range ps.length, G (ps.getD i d) (ps.getD ((i + 1) % ps.length) d) (ps.getD ((i + ps.length - 1) % ps.length) d) =
      ((orbit f x).map fun y => G (q (f y)) (q y) (q (f (f y)))).sum := by
  have hs := p.period_spec hx
  have hl : ((orbit f x).map q).reverse.length = period f x := by simp [length_orbit]
  dsimp only
  rw [hl]
  have hr : ∀ i, i < period f x → ((orbit f x).map q).reverse.getD i d = q (f^[period f x - 1 - i] x) := by
    intro i hi
    have := p.getD_orbit hx q d (period f x - 1 - i)
    rw [Nat.mod_eq_of_lt (by omega)] at this
    rw [← this, List.getD_eq_getElem?_getD, List.getD_eq_getElem?_getD, List.getElem?_reverse (by simpa [length_orbit] using hi)]
    simp [length_orbit]
  rw [← p.sum_orbit hx fun y z w => G (q y) (q w) (q z), ← Finset.sum_range_reflect]
  refine Finset.sum_congr rfl fun i hi => ?_
  rw [Finset.mem_range] at hi
  have m1 : period f x - 1 - i < period f x := by omega
  have hm : ∀ j, j % period f x < period f x := fun j => Nat.mod_lt _ hs.1
  rw [hr _ m1, hr _ (hm _), hr _ (hm _)]
  have e0 : period f x - 1 - (period f x - 1 - i) = i := by omega
  have e1 : f^[period f x - 1 - (period f x - 1 - i + 1) % period f x] x = f^[i + period f x - 1] x := by
    rcases Nat.eq_zero_or_pos i with h0 | h0
    · subst h0
      rw [show period f x - 1 - 0 + 1 = period f x by omega, Nat.mod_self]; simp
    · rw [Nat.mod_eq_of_lt (by omega), show i + period f x - 1 = (i - 1) + period f x by omega, Function.iterate_add_apply, hs.2.1]
      congr 1; omega
  have e2 : f^[period f x - 1 - (period f x - 1 - i + period f x - 1) % period f x] x = f^[i + 1] x := by
    rcases Nat.lt_or_ge (i + 1) (period f x) with h0 | h0
    · rw [show period f x - 1 - i + period f x - 1 = (period f x - 2 - i) + period f x by omega, Nat.add_mod_right,
        Nat.mod_eq_of_lt (by omega)]
      congr 1; omega
    · rw [show period f x - 1 - i + period f x - 1 = period f x - 1 by omega, Nat.mod_eq_of_lt (by omega), Nat.sub_self,
        show i + 1 = period f x by omega, hs.2.1]; rfl
  rw [e0, e1, e2]

/-- a sum over a closed list of positions, read forwards: each element of the orbit with its successor -/
theorem Orbit.Perm.sum_forward (p : Perm f S N) {x : Nat} (hx : S x) {α A : Type} [AddCommMonoid A] (q : Nat → α) (d : α)
    (G : α → α → A) :
    let ps := (orbit f x).map q
    ∑ i ∈ Finset.range ps.length, G (ps.getD i d) (ps.getD ((i + 1) % ps.length) d) =
      ((orbit f x).map fun y => G (q y) (q (f y))).sum := by
  have hs := p.period_spec hx
  have hl : ((orbit f x).map q).length = period f x := by simp [length_orbit]
  dsimp only
  rw [hl]
  conv_rhs => rw [orbit, List.map_map, sum_range_list]
  refine Finset.sum_congr rfl fun i hi => ?_
  rw [Finset.mem_range] at hi
  have := p.getD_orbit hx q d i
  rw [Nat.mod_eq_of_lt hi] at this
  rw [this, p.getD_orbit hx]
  simp only [Function.comp, ← Function.iterate_succ_apply' f]

end

end TinyMesh
