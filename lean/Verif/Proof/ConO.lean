import Verif.Proof.ConN
import Mathlib.Data.List.Perm.Lattice
/-
Building again from the reported triangles: renumbering of vertices does not change whether a triangle list is
manifold.
-/
set_option linter.unusedSimpArgs false
namespace TinyMesh
variable {F : Type}

theorem Tri.has_iff (t : Tri) (v : Nat) : t.has v ↔ ∃ u, (v, u) ∈ t.edges := by
  simp only [Tri.has, Tri.edges, List.mem_cons, Prod.mk.injEq, List.not_mem_nil, or_false]
  constructor
  · rintro (h | h | h)
    · exact ⟨t.b, Or.inl ⟨h, rfl⟩⟩
    · exact ⟨t.c, Or.inr (Or.inl ⟨h, rfl⟩)⟩
    · exact ⟨t.a, Or.inr (Or.inr ⟨h, rfl⟩)⟩
  · rintro ⟨u, h | h | h⟩
    · exact Or.inl h.1
    · exact Or.inr (Or.inl h.1)
    · exact Or.inr (Or.inr h.1)

theorem Tri.has_iff' (t : Tri) (v : Nat) : t.has v ↔ ∃ u, (u, v) ∈ t.edges := by
  simp only [Tri.has, Tri.edges, List.mem_cons, Prod.mk.injEq, List.not_mem_nil, or_false]
  constructor
  · rintro (h | h | h)
    · exact ⟨t.c, Or.inr (Or.inr ⟨rfl, h⟩)⟩
    · exact ⟨t.a, Or.inl ⟨rfl, h⟩⟩
    · exact ⟨t.b, Or.inr (Or.inl ⟨rfl, h⟩)⟩
  · rintro ⟨u, h | h | h⟩
    · exact Or.inr (Or.inl h.2)
    · exact Or.inr (Or.inr h.2)
    · exact Or.inl h.2

/-- `g` renames the corners of the triangles of `K` by the injective map `φ`, possibly rotating the corners -/
structure Rename (K : List Tri) (φ : Nat → Nat) (g : Tri → Tri) : Prop where
  inj : ∀ t ∈ K, ∀ s ∈ K, ∀ x y, t.has x → s.has y → φ x = φ y → x = y
  edges : ∀ t ∈ K, (g t).edges.Perm (t.edges.map (fun e => (φ e.1, φ e.2)))

namespace Rename
variable {K : List Tri} {φ : Nat → Nat} {g : Tri → Tri}

theorem mem (R : Rename K φ g) {t : Tri} (ht : t ∈ K) {x y : Nat} : (x, y) ∈ (g t).edges ↔ ∃ a b, (a, b) ∈ t.edges ∧ φ a = x ∧ φ b = y := by
  rw [(R.edges t ht).mem_iff, List.mem_map]
  constructor
  · rintro ⟨⟨a, b⟩, h, e⟩
    cases e
    exact ⟨a, b, h, rfl, rfl⟩
  · rintro ⟨a, b, h, rfl, rfl⟩
    exact ⟨(a, b), h, rfl⟩

theorem has (R : Rename K φ g) {t : Tri} (ht : t ∈ K) {x : Nat} : (g t).has x ↔ ∃ a, t.has a ∧ φ a = x := by
  rw [Tri.has_iff]
  constructor
  · rintro ⟨u, h⟩
    obtain ⟨a, b, h1, h2, h3⟩ := (R.mem ht).1 h
    exact ⟨a, (t.has_iff a).2 ⟨b, h1⟩, h2⟩
  · rintro ⟨a, h, rfl⟩
    obtain ⟨b, hb⟩ := (t.has_iff a).1 h
    exact ⟨φ b, (R.mem ht).2 ⟨a, b, hb, rfl, rfl⟩⟩

/-- an edge of a renamed triangle comes from the same edge -/
theorem mem_iff (R : Rename K φ g) {t s : Tri} (ht : t ∈ K) (hs : s ∈ K) {a b : Nat} (ha : t.has a) (hb : t.has b) :
    (φ a, φ b) ∈ (g s).edges ↔ (a, b) ∈ s.edges := by
  rw [R.mem hs]
  constructor
  · rintro ⟨x, y, h, h1, h2⟩
    have := R.inj s hs t ht x a ((s.has_iff x).2 ⟨y, h⟩) ha h1
    have := R.inj s hs t ht y b ((s.has_iff' y).2 ⟨x, h⟩) hb h2
    subst x; subst y; exact h
  · intro h; exact ⟨a, b, h, rfl, rfl⟩

theorem flatMap_perm (R : Rename K φ g) :
    ((K.map g).flatMap Tri.edges).Perm ((K.flatMap Tri.edges).map (fun e => (φ e.1, φ e.2))) := by
  have : ∀ l : List Tri, (∀ t ∈ l, t ∈ K) →
      ((l.map g).flatMap Tri.edges).Perm ((l.flatMap Tri.edges).map (fun e => (φ e.1, φ e.2))) := by
    intro l
    induction l with
    | nil => intro _; exact .nil
    | cons t l ih =>
      intro h
      simp only [List.map_cons, List.flatMap_cons, List.map_append]
      exact (R.edges t (h t (by simp))).append (ih (fun x hx => h x (by simp [hx])))
  exact this K (fun _ h => h)

theorem opp_iff (R : Rename K φ g) {t : Tri} (ht : t ∈ K) {e : Nat × Nat} (he : e ∈ t.edges) :
    ((K.map g).any fun s => s.edges.contains (φ e.2, φ e.1)) = (K.any fun s => s.edges.contains (e.2, e.1)) := by
  rw [Bool.eq_iff_iff]
  simp only [List.any_eq_true, List.contains_iff_mem, List.mem_map, exists_exists_and_eq_and]
  have h1 : t.has e.1 := (t.has_iff e.1).2 ⟨e.2, he⟩
  have h2 : t.has e.2 := (t.has_iff' e.2).2 ⟨e.1, he⟩
  constructor
  · rintro ⟨s, hs, h⟩
    exact ⟨s, hs, (R.mem_iff ht hs h2 h1).1 h⟩
  · rintro ⟨s, hs, h⟩
    exact ⟨s, hs, (R.mem_iff ht hs h2 h1).2 h⟩

theorem boundaryCount (R : Rename K φ g) : boundaryCount (K.map g) = TinyMesh.boundaryCount K := by
  unfold TinyMesh.boundaryCount
  rw [(R.flatMap_perm).countP_eq, List.countP_map]
  apply List.countP_congr
  intro e he
  obtain ⟨t, ht, hte⟩ := List.mem_flatMap.1 he
  simp only [Function.comp]
  rw [R.opp_iff ht hte]

theorem isolated (R : Rename K φ g) {t : Tri} (ht : t ∈ K) : (g t).isolated (K.map g) = t.isolated K := by
  unfold Tri.isolated
  rw [(R.edges t ht).all_eq, List.all_map]
  rw [Bool.eq_iff_iff]
  simp only [List.all_eq_true, Function.comp]
  constructor
  · intro h e he
    have := h e he
    rwa [R.opp_iff ht he] at this
  · intro h e he
    rw [R.opp_iff ht he]
    exact h e he

theorem fan (R : Rename K φ g) (hf : ∀ a, SingleFan K a) (x : Nat) : SingleFan (K.map g) x := by
  intro t' s' ht' hs' hx hy
  obtain ⟨t, ht, rfl⟩ := List.mem_map.1 ht'
  obtain ⟨s, hs, rfl⟩ := List.mem_map.1 hs'
  obtain ⟨a, ha, rfl⟩ := (R.has ht).1 hx
  obtain ⟨b, hb, e⟩ := (R.has hs).1 hy
  have := R.inj s hs t ht b a hb ha e
  subst this
  have key : ∀ u w, Relation.EqvGen (FanStep K b) u w → Relation.EqvGen (FanStep (K.map g) (φ b)) (g u) (g w) := by
    intro u w h
    induction h with
    | rel u w h =>
      obtain ⟨hu, hw, c, h1, h2⟩ := h
      exact .rel _ _ ⟨List.mem_map_of_mem hu, List.mem_map_of_mem hw, φ c, (R.mem hu).2 ⟨_, _, h1, rfl, rfl⟩,
        (R.mem hw).2 ⟨_, _, h2, rfl, rfl⟩⟩
    | refl => exact .refl _
    | symm _ _ _ ih => exact .symm _ _ ih
    | trans _ _ _ _ _ ih1 ih2 => exact .trans _ _ _ ih1 ih2
  exact key _ _ (hf b t s ht hs ha hb)

theorem proper_iff_edges (t : Tri) : t.proper ↔ ∀ e ∈ t.edges, e.1 ≠ e.2 := by
  simp [Tri.proper, Tri.edges]

theorem manifold (R : Rename K φ g) (M : Manifold K) : Manifold (K.map g) := by
  refine ⟨?_, ?_, R.fan M.fan⟩
  · intro t' ht'
    obtain ⟨t, ht, rfl⟩ := List.mem_map.1 ht'
    rw [proper_iff_edges]
    rintro ⟨x, y⟩ he hxy
    obtain ⟨a, b, h, h1, h2⟩ := (R.mem ht).1 he
    have hab : a ≠ b := (proper_iff_edges t).1 (M.proper t ht) (a, b) h
    exact hab (R.inj t ht t ht a b ((t.has_iff a).2 ⟨b, h⟩) ((t.has_iff' b).2 ⟨a, h⟩) (by rw [h1, h2]; exact hxy))
  · rw [R.flatMap_perm.nodup_iff]
    refine M.edges.map_on ?_
    rintro ⟨a, b⟩ h ⟨c, d⟩ h' e
    obtain ⟨t, ht, hte⟩ := List.mem_flatMap.1 h
    obtain ⟨s, hs, hse⟩ := List.mem_flatMap.1 h'
    simp only [Prod.mk.injEq] at e ⊢
    exact ⟨R.inj t ht s hs a c ((t.has_iff a).2 ⟨b, hte⟩) ((s.has_iff c).2 ⟨d, hse⟩) e.1,
      R.inj t ht s hs b d ((t.has_iff' b).2 ⟨a, hte⟩) ((s.has_iff' d).2 ⟨c, hse⟩) e.2⟩

end Rename

/-- the same triangle, starting from its last corner -/
def Tri.rot (t : Tri) : Tri := ⟨t.c, t.a, t.b⟩

def Tri.ren (φ : Nat → Nat) (t : Tri) : Tri := ⟨φ t.a, φ t.b, φ t.c⟩

theorem ofTris_map (φ : Nat → Nat) : ∀ K : List Tri, (ofTris K).map φ = ofTris (K.map (Tri.ren φ))
  | [] => rfl
  | t :: K => by simp [ofTris, Tri.ren, ofTris_map φ K]

theorem Rename.of_ren {K : List Tri} {φ : Nat → Nat}
    (inj : ∀ t ∈ K, ∀ s ∈ K, ∀ x y, t.has x → s.has y → φ x = φ y → x = y) : Rename K φ (Tri.ren φ) :=
  ⟨inj, fun t _ => by simp [Tri.ren, Tri.edges]⟩

theorem Rename.of_rot (K : List Tri) : Rename K id Tri.rot :=
  ⟨fun _ _ _ _ _ _ _ _ h => h, fun t _ => by
    simp only [Tri.rot, Tri.edges, id, List.map_cons, List.map_nil]
    exact (List.perm_append_comm (l₁ := [(t.c, t.a)]) (l₂ := [(t.a, t.b), (t.b, t.c)]))⟩

section
variable [Scalar F]

/-- positions that are pairwise different and not NaN -/
structure Distinct (P : List (Vec3 F)) : Prop where
  self : ∀ p ∈ P, p.eq p = true
  diff : ∀ (i j : Nat) p q, i < j → P[i]? = some p → P[j]? = some q → p.eq q = false

theorem Distinct.eq_iff (L : EqLaw F) {P : List (Vec3 F)} (D : Distinct P) {i j : Nat} {p q : Vec3 F} (hi : P[i]? = some p)
    (hj : P[j]? = some q) (h : p.eq q = true) : i = j := by
  rcases lt_trichotomy i j with h' | h' | h'
  · rw [D.diff i j p q h' hi hj] at h; cases h
  · exact h'
  · have hq := D.self q (List.mem_of_getElem? hj)
    have : q.eq p = true := Vec3.eq_law L (c := p) (by
      have := Vec3.eq_law L (a := q) (b := p) (c := q) hq h
      exact this) (D.self p (List.mem_of_getElem? hi))
    rw [D.diff j i q p h' hj hi] at this; cases this

/-- Merging positions that are already different renumbers the corners. -/
theorem Merged.renumber (L : EqLaw F) {P P2 : List (Vec3 F)} {I J : List Nat} (D : Distinct P) (M : Merged P I P2 J) :
    ∃ φ : Nat → Nat, J = I.map φ ∧ (∀ i ∈ I, P2[φ i]? = P[i]? ∧ i < P.length) ∧
      (∀ i ∈ I, ∀ i' ∈ I, φ i = φ i' → i = i') := by
  have hpos : ∀ k i j : Nat, I[k]? = some i → J[k]? = some j → ∃ p, P[i]? = some p ∧ P2[j]? = some p := by
    intro k i j hi hj
    obtain ⟨p, q, hp, hq, e⟩ := M.pos k i j hi hj
    obtain ⟨k', c, hc, hcp, _⟩ := M.first j q hq
    have := D.eq_iff L hcp hp e
    subst this
    rw [hcp] at hp; cases hp
    exact ⟨_, hcp, hq⟩
  have hJ : ∀ k i : Nat, I[k]? = some i → ∃ j, J[k]? = some j := by
    intro k i hi
    have := (List.getElem?_eq_some_iff.1 hi).1
    exact ⟨_, List.getElem?_eq_getElem (by rw [M.len]; exact this)⟩
  have huniq : ∀ k k' i j j' : Nat, I[k]? = some i → I[k']? = some i → J[k]? = some j → J[k']? = some j' → j = j' := by
    intro k k' i j j' h1 h2 h3 h4
    obtain ⟨p, a1, a2⟩ := hpos k i j h1 h3
    obtain ⟨q, b1, b2⟩ := hpos k' i j' h2 h4
    rw [a1] at b1; cases b1
    have hs := D.self p (List.mem_of_getElem? a1)
    rcases lt_trichotomy j j' with h | h | h
    · have := M.diff j j' p p h a2 b2; rw [hs] at this; cases this
    · exact h
    · have := M.diff j' j p p h b2 a2; rw [hs] at this; cases this
  refine ⟨fun i => J.getD (I.idxOf i) 0, ?_, ?_, ?_⟩
  · apply List.ext_getElem?
    intro k
    rw [List.getElem?_map]
    cases hi : I[k]? with
    | none =>
      rw [List.getElem?_eq_none_iff] at hi
      simp [M.len, hi]
    | some i =>
      obtain ⟨j, hj⟩ := hJ k i hi
      rw [hj]
      have hm := List.mem_of_getElem? hi
      have hk : I[I.idxOf i]? = some i := by
        rw [List.getElem?_eq_getElem (List.idxOf_lt_length_of_mem hm), List.getElem_idxOf]
      obtain ⟨j', hj'⟩ := hJ _ _ hk
      simp only [Option.map_some, List.getD, hj', Option.getD_some]
      rw [huniq _ _ _ _ _ hi hk hj hj']
  · intro i hi
    have hk : I[I.idxOf i]? = some i := by
      rw [List.getElem?_eq_getElem (List.idxOf_lt_length_of_mem hi), List.getElem_idxOf]
    obtain ⟨j, hj⟩ := hJ _ _ hk
    obtain ⟨p, h1, h2⟩ := hpos _ _ _ hk hj
    simp only [List.getD, hj, Option.getD_some]
    exact ⟨by rw [h1, h2], (List.getElem?_eq_some_iff.1 h1).1⟩
  · intro i hi i' hi' e
    have hk : I[I.idxOf i]? = some i := by
      rw [List.getElem?_eq_getElem (List.idxOf_lt_length_of_mem hi), List.getElem_idxOf]
    have hk' : I[I.idxOf i']? = some i' := by
      rw [List.getElem?_eq_getElem (List.idxOf_lt_length_of_mem hi'), List.getElem_idxOf]
    obtain ⟨j, hj⟩ := hJ _ _ hk
    obtain ⟨j', hj'⟩ := hJ _ _ hk'
    simp only [List.getD, hj, hj', Option.getD_some] at e
    subst e
    obtain ⟨p, h1, h2⟩ := hpos _ _ _ hk hj
    obtain ⟨q, h3, h4⟩ := hpos _ _ _ hk' hj'
    rw [h2] at h4; cases h4
    exact D.eq_iff L h1 h3 (D.self p (List.mem_of_getElem? h1))

theorem Distinct.nodup {P : List (Vec3 F)} (D : Distinct P) : P.Nodup := by
  rw [List.nodup_iff_pairwise_ne, List.pairwise_iff_getElem]
  intro i j hi hj hij h
  have := D.diff i j _ _ hij (List.getElem?_eq_getElem hi) (List.getElem?_eq_getElem hj)
  rw [← h, D.self _ (List.getElem_mem hi)] at this
  cases this

theorem Merged.distinct {V P : List (Vec3 F)} {I J : List Nat} (M : Merged V I P J) (hv : ValidInput V I) : Distinct P := by
  refine ⟨?_, M.diff⟩
  intro p hp
  obtain ⟨i, hi, rfl⟩ := List.getElem_of_mem hp
  obtain ⟨k, c, h1, h2, _⟩ := M.first i _ (List.getElem?_eq_getElem hi)
  obtain ⟨q, h3, h4⟩ := hv c (List.mem_of_getElem? h1)
  rw [h2] at h3; cases h3; exact h4

/-- Merging positions that are already different, all of which are used, reorders them. -/
theorem Merged.perm (L : EqLaw F) {P P2 : List (Vec3 F)} {I J : List Nat} (D : Distinct P) (M : Merged P I P2 J)
    (hu : ∀ i, i < P.length → i ∈ I) (hr : ∀ i ∈ I, i < P.length) : P2.Perm P := by
  have D2 : Distinct P2 := M.distinct (fun i hi => by
    have := List.getElem?_eq_getElem (hr i hi)
    exact ⟨_, this, D.self _ (List.mem_of_getElem? this)⟩)
  rw [List.perm_ext_iff_of_nodup D2.nodup D.nodup]
  intro p
  constructor
  · intro hp
    obtain ⟨i, hi, rfl⟩ := List.getElem_of_mem hp
    obtain ⟨k, c, h1, h2, _⟩ := M.first i _ (List.getElem?_eq_getElem hi)
    exact List.mem_of_getElem? h2
  · intro hp
    obtain ⟨i, hi, rfl⟩ := List.getElem_of_mem hp
    obtain ⟨φ, _, h, _⟩ := M.renumber L D
    have := (h i (hu i hi)).1
    rw [List.getElem?_eq_getElem hi] at this
    exact List.mem_of_getElem? this

end
end TinyMesh
