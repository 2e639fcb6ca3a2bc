import Mathlib.Logic.Function.Iterate
import Mathlib.Logic.Relation
import Mathlib.Data.Finset.Card
import Mathlib.Data.Fintype.Pigeonhole
import Mathlib.Data.List.Nodup
/-
Orbits of a map that is injective on a finite invariant set of addresses.
-/
namespace TinyMesh.Orbit

/-- `f` maps the set `S` into itself, injectively, and `S` is bounded by `N`. -/
structure Perm (f : Nat → Nat) (S : Nat → Prop) (N : Nat) : Prop where
  maps : ∀ x, S x → S (f x)
  inj : ∀ x y, S x → S y → f x = f y → x = y
  bound : ∀ x, S x → x < N

variable {f : Nat → Nat} {S : Nat → Prop} {N : Nat}

theorem Perm.iter (p : Perm f S N) {x : Nat} (hx : S x) (n : Nat) : S (f^[n] x) := by
  induction n with
  | zero => exact hx
  | succ n ih => rw [Function.iterate_succ_apply']; exact p.maps _ ih

theorem Perm.iter_inj (p : Perm f S N) {x y : Nat} (hx : S x) (hy : S y) (n : Nat)
    (h : f^[n] x = f^[n] y) : x = y := by
  induction n with
  | zero => exact h
  | succ n ih =>
    rw [Function.iterate_succ_apply', Function.iterate_succ_apply'] at h
    exact ih (p.inj _ _ (p.iter hx n) (p.iter hy n) h)

theorem Perm.returns (p : Perm f S N) {x : Nat} (hx : S x) :
    ∃ n, 0 < n ∧ n ≤ N ∧ f^[n] x = x := by
  classical
  have hmap : ∀ i ∈ Finset.range (N + 1), f^[i] x ∈ Finset.range N := by
    intro i _
    exact Finset.mem_range.2 (p.bound _ (p.iter hx i))
  have hc : (Finset.range N).card < (Finset.range (N + 1)).card := by simp
  obtain ⟨i, hi, j, hj, hne, he⟩ := Finset.exists_ne_map_eq_of_card_lt_of_maps_to hc hmap
  rw [Finset.mem_range] at hi hj
  rcases Nat.lt_or_gt_of_ne hne with h | h
  · refine ⟨j - i, by omega, by omega, ?_⟩
    have : f^[i] (f^[j - i] x) = f^[i] x := by
      rw [← Function.iterate_add_apply]
      rw [show i + (j - i) = j by omega]; exact he.symm
    exact p.iter_inj (p.iter hx _) hx i this
  · refine ⟨i - j, by omega, by omega, ?_⟩
    have : f^[j] (f^[i - j] x) = f^[j] x := by
      rw [← Function.iterate_add_apply]
      rw [show j + (i - j) = i by omega]; exact he
    exact p.iter_inj (p.iter hx _) hx j this

/-- Two elements joined by a chain of forward and backward steps inside `S`. -/
def Conn (f : Nat → Nat) (S : Nat → Prop) (x y : Nat) : Prop :=
  Relation.EqvGen (fun a b => S a ∧ f a = b) x y

theorem Conn.refl (x : Nat) : Conn f S x x := Relation.EqvGen.refl _
theorem Conn.symm {x y : Nat} (h : Conn f S x y) : Conn f S y x := Relation.EqvGen.symm _ _ h
theorem Conn.trans {x y z : Nat} (h : Conn f S x y) (h' : Conn f S y z) : Conn f S x z :=
  Relation.EqvGen.trans _ _ _ h h'
theorem Conn.step {x : Nat} (hx : S x) : Conn f S x (f x) := Relation.EqvGen.rel _ _ ⟨hx, rfl⟩
theorem Conn.step' {x y : Nat} (hx : S x) (h : f x = y) : Conn f S x y := h ▸ Conn.step hx
theorem Conn.of_eq {x y : Nat} (h : x = y) : Conn f S x y := h ▸ Conn.refl _

theorem Conn.iter (p : Perm f S N) {x : Nat} (hx : S x) (n : Nat) : Conn f S x (f^[n] x) := by
  induction n with
  | zero => exact Conn.refl _
  | succ n ih =>
    rw [Function.iterate_succ_apply']
    exact ih.trans (Conn.step (p.iter hx n))

/-- Iteration can be undone on a finite permutation. -/
theorem Perm.back (p : Perm f S N) {x : Nat} (hx : S x) (n : Nat) : ∃ k, f^[k] (f^[n] x) = x := by
  obtain ⟨q, hq, _, hr⟩ := p.returns hx
  have hmul : ∀ t, f^[t * q] x = x := by
    intro t
    induction t with
    | zero => simp
    | succ t ih =>
      rw [Nat.add_mul, Nat.one_mul, Function.iterate_add_apply, hr, ih]
  refine ⟨n * q - n, ?_⟩
  rw [← Function.iterate_add_apply]
  have : n * q - n + n = n * q := by
    have : n ≤ n * q := Nat.le_mul_of_pos_right n hq
    omega
  rw [this, hmul]

theorem Conn.mem (p : Perm f S N) {x y : Nat} (h : Conn f S x y) (hs : S x ∨ S y) :
    (S x ∧ S y) ∧ ∃ n, f^[n] x = y := by
  induction h with
  | rel x y h =>
    obtain ⟨h1, h2⟩ := h
    exact ⟨⟨h1, h2 ▸ p.maps _ h1⟩, 1, h2⟩
  | refl x =>
    have : S x := by cases hs <;> assumption
    exact ⟨⟨this, this⟩, 0, rfl⟩
  | symm x y _ ih =>
    obtain ⟨⟨h1, h2⟩, n, hn⟩ := ih hs.symm
    obtain ⟨k, hk⟩ := p.back h1 n
    exact ⟨⟨h2, h1⟩, k, by rw [← hn]; exact hk⟩
  | trans x y z _ _ ih1 ih2 =>
    rcases hs with hs | hs
    · obtain ⟨⟨h1, h2⟩, n, hn⟩ := ih1 (Or.inl hs)
      obtain ⟨⟨_, h4⟩, k, hk⟩ := ih2 (Or.inl h2)
      exact ⟨⟨h1, h4⟩, k + n, by rw [Function.iterate_add_apply, hn, hk]⟩
    · obtain ⟨⟨h3, h4⟩, k, hk⟩ := ih2 (Or.inr hs)
      obtain ⟨⟨h1, _⟩, n, hn⟩ := ih1 (Or.inr h3)
      exact ⟨⟨h1, h4⟩, k + n, by rw [Function.iterate_add_apply, hn, hk]⟩

/-- On a finite permutation, connected elements are reached by iterating forward. -/
theorem Conn.exists_iter (p : Perm f S N) {x y : Nat} (h : Conn f S x y) (hx : S x) :
    ∃ n, f^[n] x = y := (h.mem p (Or.inl hx)).2

/-- Transport of connectedness along a map `φ` of elements. -/
theorem Conn.map {f' : Nat → Nat} {S' : Nat → Prop} (φ : Nat → Nat)
    (h : ∀ x, S x → Conn f' S' (φ x) (φ (f x))) {x y : Nat} (hc : Conn f S x y) :
    Conn f' S' (φ x) (φ y) := by
  induction hc with
  | rel x y h' => obtain ⟨h1, h2⟩ := h'; subst h2; exact h x h1
  | refl x => exact Conn.refl _
  | symm x y _ ih => exact ih.symm
  | trans x y z _ _ ih1 ih2 => exact ih1.trans ih2

/-- The least number of steps after which `x` returns to itself. -/
noncomputable def period (f : Nat → Nat) (x : Nat) : Nat :=
  open Classical in if h : ∃ n, 0 < n ∧ f^[n] x = x then Nat.find h else 0

theorem Perm.period_spec (p : Perm f S N) {x : Nat} (hx : S x) :
    0 < period f x ∧ f^[period f x] x = x ∧ ∀ i, 0 < i → i < period f x → f^[i] x ≠ x := by
  classical
  have h : ∃ n, 0 < n ∧ f^[n] x = x := by
    obtain ⟨n, h1, _, h3⟩ := p.returns hx
    exact ⟨n, h1, h3⟩
  have hp : period f x = Nat.find h := by
    unfold period; simp only [h, dite_true]
  rw [hp]
  refine ⟨(Nat.find_spec h).1, (Nat.find_spec h).2, ?_⟩
  intro i hi hlt he
  exact Nat.find_min h hlt ⟨hi, he⟩

theorem Perm.period_le (p : Perm f S N) {x : Nat} (hx : S x) : period f x ≤ N := by
  classical
  obtain ⟨n, h1, h2, h3⟩ := p.returns hx
  have hs := p.period_spec hx
  rcases Nat.lt_or_ge n (period f x) with h | h
  · exact absurd h3 (hs.2.2 n h1 h)
  · omega

/-- The orbit of `x` in order. -/
noncomputable def orbit (f : Nat → Nat) (x : Nat) : List Nat :=
  (List.range (period f x)).map (fun i => f^[i] x)

theorem length_orbit (x : Nat) : (orbit f x).length = period f x := by simp [orbit]

theorem Perm.iter_mod (p : Perm f S N) {x : Nat} (hx : S x) (n : Nat) :
    f^[n] x = f^[n % period f x] x := by
  have hs := p.period_spec hx
  have hmul : ∀ t, f^[period f x * t] x = x := by
    intro t
    induction t with
    | zero => simp
    | succ t ih => rw [Nat.mul_add, Nat.mul_one, Function.iterate_add_apply, hs.2.1, ih]
  conv_lhs => rw [← Nat.mod_add_div n (period f x)]
  rw [Function.iterate_add_apply, hmul]

theorem Perm.mem_orbit (p : Perm f S N) {x y : Nat} (hx : S x) :
    y ∈ orbit f x ↔ ∃ n, f^[n] x = y := by
  have hs := p.period_spec hx
  simp only [orbit, List.mem_map, List.mem_range]
  constructor
  · rintro ⟨i, _, h⟩; exact ⟨i, h⟩
  · rintro ⟨n, h⟩
    exact ⟨n % period f x, Nat.mod_lt _ hs.1, by rw [← p.iter_mod hx]; exact h⟩

theorem Perm.nodup_orbit (p : Perm f S N) {x : Nat} (hx : S x) : (orbit f x).Nodup := by
  have hs := p.period_spec hx
  refine (List.nodup_map_iff_inj_on (List.nodup_range)).2 ?_
  intro i hi j hj he
  rw [List.mem_range] at hi hj
  by_contra hne
  rcases Nat.lt_or_gt_of_ne hne with h | h
  · have : f^[i] (f^[j - i] x) = f^[i] x := by
      rw [← Function.iterate_add_apply, show i + (j - i) = j by omega]; exact he.symm
    exact hs.2.2 (j - i) (by omega) (by omega) (p.iter_inj (p.iter hx _) hx i this)
  · have : f^[j] (f^[i - j] x) = f^[j] x := by
      rw [← Function.iterate_add_apply, show j + (i - j) = i by omega]; exact he
    exact hs.2.2 (i - j) (by omega) (by omega) (p.iter_inj (p.iter hx _) hx j this)

theorem Perm.orbit_S (p : Perm f S N) {x y : Nat} (hx : S x) (h : y ∈ orbit f x) : S y := by
  obtain ⟨n, rfl⟩ := (p.mem_orbit hx).1 h
  exact p.iter hx n

theorem Perm.orbit_head (p : Perm f S N) {x : Nat} (hx : S x) : (orbit f x).head? = some x := by
  have hs := p.period_spec hx
  unfold orbit
  obtain ⟨k, hk⟩ : ∃ k, period f x = k + 1 := ⟨period f x - 1, by omega⟩
  rw [hk, List.range_succ_eq_map]
  simp

/-- a surjection onto itself: every element of the orbit has a predecessor -/
theorem Perm.surj (p : Perm f S N) {x : Nat} (hx : S x) : ∃ y, S y ∧ f y = x := by
  obtain ⟨n, h1, _, h3⟩ := p.returns hx
  refine ⟨f^[n - 1] x, p.iter hx _, ?_⟩
  rw [← Function.iterate_succ_apply' f, show (n - 1).succ = n by omega]; exact h3

/-- Iterating a partial injection (defined on `D`) either leaves `D` or returns to the start. -/
theorem chain_ends {D : Nat → Prop} (maps : ∀ x, S x → D x → S (f x))
    (inj : ∀ x y, S x → S y → D x → D y → f x = f y → x = y) (bound : ∀ x, S x → x < N) {x : Nat} (hx : S x) :
    ∃ n, n ≤ N ∧ (∀ i, i < n → D (f^[i] x)) ∧ (∀ i, 0 < i → i < n → f^[i] x ≠ x) ∧ (∀ i, i ≤ n → S (f^[i] x)) ∧
      (¬ D (f^[n] x) ∨ (0 < n ∧ f^[n] x = x)) := by
  classical
  have hS : ∀ n, (∀ i, i < n → D (f^[i] x)) → ∀ i, i ≤ n → S (f^[i] x) := by
    intro n hn i
    induction i with
    | zero => intro _; exact hx
    | succ i ih =>
      intro hi
      rw [Function.iterate_succ_apply']
      exact maps _ (ih (by omega)) (hn i (by omega))
  have hE : ∃ n, n ≤ N ∧ (¬ D (f^[n] x) ∨ (0 < n ∧ f^[n] x = x)) := by
    by_contra hc
    have hD : ∀ i, i ≤ N → D (f^[i] x) := by
      intro i hi
      by_contra h
      exact hc ⟨i, hi, Or.inl h⟩
    have hS' : ∀ i, i ≤ N + 1 → S (f^[i] x) := hS (N + 1) (fun i hi => hD i (by omega))
    have hmap : ∀ i ∈ Finset.range (N + 1), f^[i] x ∈ Finset.range N := by
      intro i hi
      rw [Finset.mem_range] at hi
      exact Finset.mem_range.2 (bound _ (hS' i (by omega)))
    have hcard : (Finset.range N).card < (Finset.range (N + 1)).card := by simp
    obtain ⟨i, hi, j, hj, hne, he⟩ := Finset.exists_ne_map_eq_of_card_lt_of_maps_to hcard hmap
    rw [Finset.mem_range] at hi hj
    have peel : ∀ a d, a + d ≤ N → f^[a] x = f^[a + d] x → f^[d] x = x := by
      intro a
      induction a with
      | zero => intro d _ h; simpa using h.symm
      | succ a ih =>
        intro d hd h
        rw [show a + 1 + d = (a + d) + 1 by omega, Function.iterate_succ_apply', Function.iterate_succ_apply'] at h
        exact ih d (by omega) (inj _ _ (hS' a (by omega)) (hS' _ (by omega)) (hD a (by omega)) (hD _ (by omega)) h)
    rcases Nat.lt_or_gt_of_ne hne with h | h
    · exact hc ⟨j - i, by omega, Or.inr ⟨by omega, peel i (j - i) (by omega) (by rw [show i + (j - i) = j by omega]; exact he)⟩⟩
    · exact hc ⟨i - j, by omega, Or.inr ⟨by omega, peel j (i - j) (by omega) (by rw [show j + (i - j) = i by omega]; exact he.symm)⟩⟩
  have hm := Nat.find_spec hE
  have hmin : ∀ i, i < Nat.find hE → ¬ (i ≤ N ∧ (¬ D (f^[i] x) ∨ (0 < i ∧ f^[i] x = x))) := fun i hi => Nat.find_min hE hi
  refine ⟨Nat.find hE, hm.1, ?_, ?_, ?_, hm.2⟩
  · intro i hi
    by_contra h
    exact hmin i hi ⟨by omega, Or.inl h⟩
  · intro i h0 hi e
    exact hmin i hi ⟨by omega, Or.inr ⟨h0, e⟩⟩
  · refine hS _ ?_
    intro i hi
    by_contra h
    exact hmin i hi ⟨by omega, Or.inl h⟩

end TinyMesh.Orbit
