import Verif.Proof.BvhA
/-
Construction of the bounding volume hierarchy: every split has two non-empty halves; the tree.
-/
namespace TinyMesh

theorem sum_range_countP (g : Prim XR → Nat) (l : List (Prim XR)) : ∀ n,
    ((List.range n).map (fun j => l.countP (fun p => decide (g p = j)))).sum = l.countP (fun p => decide (g p < n)) := by
  intro n
  induction n with
  | zero => simp
  | succ n ih =>
    rw [List.range_succ, List.map_append, List.sum_append, ih]
    simp only [List.map_cons, List.map_nil, List.sum_cons, List.sum_nil, Nat.add_zero]
    clear ih
    induction l with
    | nil => simp
    | cons p l ih =>
      simp only [List.countP_cons]
      have : (if decide (g p < n) = true then 1 else 0) + (if decide (g p = n) = true then 1 else 0) =
          (if decide (g p < n + 1) = true then 1 else 0) := by
        simp only [decide_eq_true_eq]
        split_ifs <;> omega
      omega

theorem fold_centroid (l : List (Prim XR)) (hl : ∀ p ∈ l, p.Fin) :
    ∃ B : Bounds ℝ, l.foldl (fun b p => b.mergeP p.centroid) Bounds.empty = B.fin ∧
      ∀ p ∈ l, ∀ c : Vec3 ℝ, p.centroid = c.fin → ∀ axis, B.lo.get axis ≤ c.get axis ∧ c.get axis ≤ B.hi.get axis := by
  obtain ⟨B, hB, hc⟩ := Bounds.foldl_merge (fun p : Prim XR => (⟨p.centroid, p.centroid⟩ : Bounds XR)) l (by
    intro p hp
    obtain ⟨⟨c, hc⟩, -⟩ := hl p hp
    exact ⟨⟨c, c⟩, by rw [hc]; rfl⟩) Bounds.empty
  refine ⟨B, hB, ?_⟩
  intro p hp c hpc axis
  have := ((hc B).1 (Bounds.Le.refl B)).2 p hp ⟨c, c⟩ (by rw [hpc]; rfl)
  obtain ⟨⟨a1, a2⟩, ⟨a3, a4⟩, a5, a6⟩ := this
  match axis with
  | 0 => exact ⟨a1, a2⟩
  | 1 => exact ⟨a3, a4⟩
  | 2 => exact ⟨a5, a6⟩

/-- the two halves of a list of 16 buckets -/
theorem half_count {g : Prim XR → Nat} {l : List (Prim XR)} {bs : List (Bucket XR)} (hlen : bs.length = 16)
    (hk : ∀ j k, bs[j]? = some k → k.count = l.countP (fun p => decide (g p = j))) (hg : ∀ p ∈ l, g p < 16) {i : Nat} (hi : i ≤ 14) :
    ((bs.take (i + 1)).map Bucket.count).sum = l.countP (fun p => decide (g p < i + 1)) ∧
    ((bs.take (i + 1)).map Bucket.count).sum + ((bs.drop (i + 1)).map Bucket.count).sum = l.length := by
  have e : ∀ n, n ≤ 16 → (bs.take n).map Bucket.count = (List.range n).map (fun j => l.countP (fun p => decide (g p = j))) := by
    intro n hn
    apply List.ext_getElem?
    intro j
    rw [List.getElem?_map, List.getElem?_map, List.getElem?_take]
    by_cases h : j < n
    · rw [if_pos h, List.getElem?_range h]
      have hj : j < bs.length := by omega
      obtain ⟨k, hk'⟩ : ∃ k, bs[j]? = some k := ⟨bs[j], List.getElem?_eq_getElem hj⟩
      rw [hk']
      simp [hk j k hk']
    · rw [if_neg h, List.getElem?_eq_none (by simpa using h)]; simp
  refine ⟨by rw [e _ (by omega), sum_range_countP], ?_⟩
  rw [← List.sum_append, ← List.map_append, List.take_append_drop]
  have := e 16 le_rfl
  rw [List.take_of_length_le (by omega)] at this
  rw [this, sum_range_countP, List.countP_eq_length]
  intro p hp
  simpa using hg p hp

/-- boxes of a list of buckets -/
theorem half_box {g : Prim XR → Nat} {l : List (Prim XR)} {bs : List (Bucket XR)}
    (hk : ∀ j k, bs[j]? = some k → ∃ B : Bounds ℝ, k.bounds = B.fin ∧
      ∀ c, B.Le c ↔ Bounds.empty.Le c ∧ ∀ p ∈ l, g p = j → ∀ b : Bounds ℝ, p.bounds = b.fin → b.Le c)
    (ks : List (Bucket XR)) (J : Nat → Prop) (hmem : ∀ k ∈ ks, ∃ j, J j ∧ bs[j]? = some k)
    (hall : ∀ j, J j → (∃ p ∈ l, g p = j) → ∃ k ∈ ks, bs[j]? = some k) :
    ∃ B : Bounds ℝ, ks.foldl (fun b k => b.merge k.bounds) Bounds.empty = B.fin ∧
      ∀ c, B.Le c ↔ Bounds.empty.Le c ∧ ∀ p ∈ l, J (g p) → ∀ b : Bounds ℝ, p.bounds = b.fin → b.Le c := by
  obtain ⟨B, hB, hc⟩ := Bounds.foldl_merge (fun k : Bucket XR => k.bounds) ks (by
    intro k hk'
    obtain ⟨j, -, hj⟩ := hmem k hk'
    obtain ⟨B, h, -⟩ := hk j k hj
    exact ⟨B, h⟩) Bounds.empty
  refine ⟨B, hB, fun c => ?_⟩
  rw [hc]
  constructor
  · rintro ⟨h1, h2⟩
    refine ⟨h1, fun p hp hJ b hb => ?_⟩
    obtain ⟨k, hk1, hk2⟩ := hall (g p) hJ ⟨p, hp, rfl⟩
    obtain ⟨B', h3, h4⟩ := hk _ _ hk2
    exact ((h4 c).1 (h2 k hk1 B' h3)).2 p hp rfl b hb
  · rintro ⟨h1, h2⟩
    refine ⟨h1, fun k hk' b hb => ?_⟩
    obtain ⟨j, hJ, hj⟩ := hmem k hk'
    obtain ⟨B', h3, h4⟩ := hk _ _ hj
    rw [h3] at hb
    rw [← Bounds.fin_inj.1 hb, h4]
    exact ⟨h1, fun p hp e b' hb' => h2 p hp (by rw [e]; exact hJ) b' hb'⟩

theorem splitCost_eq (A : ℝ) (bs : List (Bucket XR)) (i : Nat) {B0 B1 : Bounds ℝ}
    (h0 : (bs.take (i + 1)).foldl (fun b k => b.merge k.bounds) Bounds.empty = B0.fin)
    (h1 : (bs.drop (i + 1)).foldl (fun b k => b.merge k.bounds) Bounds.empty = B1.fin) :
    splitCost (XR.fin A) bs i = XR.fin 0 + (XR.fin (1 / 8) + XR.fin
      (((((bs.take (i + 1)).map Bucket.count).sum : ℕ) : ℝ) * B0.area + ((((bs.drop (i + 1)).map Bucket.count).sum : ℕ) : ℝ) * B1.area) / XR.fin A) := by
  unfold splitCost
  simp only [h0, h1, foldl_count, Bounds.area_fin, X_lit, X_mul, X_add, R_lit, Nat.zero_add, Int.cast_natCast, Int.cast_zero,
    Int.cast_one, Nat.cast_one, div_one, Nat.cast_ofNat]

theorem splitRange_ok {lib : Lib XR} (std : lib.Std) {B : Bounds ℝ} {l : List (Prim XR)} (hl : ∀ p ∈ l, p.Fin) (hn : 2 ≤ l.length)
    (hB : ∀ c, B.Le c ↔ Bounds.empty.Le c ∧ ∀ p ∈ l, ∀ b : Bounds ℝ, p.bounds = b.fin → b.Le c) :
    ∃ l' mid axis, splitRange lib B.fin l = .ok (l', mid, axis) ∧ l'.Perm l ∧ 0 < mid ∧ mid < l.length := by
  obtain ⟨cb, hcb, hcent⟩ := fold_centroid l hl
  obtain ⟨axis, hax⟩ := cb.maxExtent_ok
  unfold splitRange
  simp only [hcb, hax]
  show ∃ l' mid axis', (if l.length ≤ 8 then _ else _) = _ ∧ _
  by_cases h8 : l.length ≤ 8
  · rw [if_pos h8]
    exact ⟨_, _, _, rfl, std.1 _ _ _, by omega, by omega⟩
  rw [if_neg h8]
  -- bucket numbers
  have hbk : ∀ p ∈ l, ∃ n : Nat, n < 16 ∧ bucketOf cb.fin axis p = some (n : Int) := by
    intro p hp
    obtain ⟨⟨c, hc⟩, -⟩ := hl p hp
    exact bucket_ok hc axis (hcent p hp c hc axis).1 (hcent p hp c hc axis).2
  classical
  let g : Prim XR → Nat := fun p => match bucketOf cb.fin axis p with
    | some n => n.toNat
    | none => 0
  have hg : ∀ p ∈ l, p.Fin ∧ g p < 16 ∧ bucketOf cb.fin axis p = some (g p : Int) := by
    intro p hp
    obtain ⟨n, h1, h2⟩ := hbk p hp
    have : g p = n := by simp only [g, h2]; simp
    exact ⟨hl p hp, by omega, by rw [this]; exact h2⟩
  have h16 : ∀ (j : Nat) (k : Bucket XR), (List.replicate 16 (⟨0, Bounds.empty⟩ : Bucket XR))[j]? = some k →
      k = ⟨0, Bounds.empty⟩ := by
    intro j k hk
    rw [List.getElem?_replicate] at hk
    split at hk
    · exact (Option.some.inj hk).symm
    · cases hk
  obtain ⟨bs, hbs, hlen, hat⟩ := fillBuckets_ok g l (List.replicate 16 ⟨0, Bounds.empty⟩) (fun _ => Bounds.empty) hg (by simp)
    (by intro j k hk; rw [h16 j k hk]; rfl)
  have hat' : ∀ j k, bs[j]? = some k → BucketAt g l Bounds.empty j ⟨0, Bounds.empty⟩ k := by
    intro j k hk
    have hj : j < 16 := by rw [← hlen]; exact (List.getElem?_eq_some_iff.1 hk).1
    exact hat j _ k (by rw [List.getElem?_replicate, if_pos hj]) hk
  rw [hbs]
  show ∃ l' mid axis', (if Scalar.lt (bestSplit (splitCost B.fin.area bs)).1 (Scalar.lit (l.length : Int) 1) = true then _
    else _) = _ ∧ _
  obtain ⟨i, hi, hbest⟩ := bestSplit_mem (splitCost (B.fin.area) bs)
  rw [hbest]
  by_cases hlt : Scalar.lt (splitCost B.fin.area bs i) (Scalar.lit (l.length : Int) 1) = true
  swap
  · rw [if_neg hlt]
    exact ⟨_, _, _, rfl, List.Perm.refl _, by omega, by omega⟩
  rw [if_pos hlt]
  refine ⟨_, _, _, rfl, std.2 _ _, ?_⟩
  have hcnt : l.countP (inLeft cb.fin axis i) = l.countP (fun p => decide (g p < i + 1)) := by
    apply List.countP_congr
    intro p hp
    obtain ⟨-, h1, h2⟩ := hg p hp
    unfold inLeft
    rw [h2]
    have : ¬ ((g p : Int) ≥ 16) := by omega
    simp only [if_neg this, decide_eq_true_eq]
    omega
  obtain ⟨hc1, hc2⟩ := half_count (g := g) (l := l) hlen (fun j k hk => by
    have := (hat' j k hk).count; simpa using this) (fun p hp => (hg p hp).2.1) hi
  have hboxes := fun j k hk => (hat' j k hk).box
  obtain ⟨B0, hB0, hB0c⟩ := half_box hboxes (bs.take (i + 1)) (fun j => j < i + 1) (by
      intro k hk
      obtain ⟨j, hj⟩ := List.mem_iff_getElem?.1 hk
      rw [List.getElem?_take] at hj
      split at hj
      · exact ⟨j, by assumption, hj⟩
      · cases hj) (by
      rintro j hj ⟨p, hp, rfl⟩
      have hlt : g p < bs.length := by rw [hlen]; exact (hg p hp).2.1
      refine ⟨bs[g p], ?_, List.getElem?_eq_getElem hlt⟩
      apply List.mem_iff_getElem?.2
      exact ⟨g p, by rw [List.getElem?_take, if_pos hj, List.getElem?_eq_getElem hlt]⟩)
  obtain ⟨B1, hB1, hB1c⟩ := half_box hboxes (bs.drop (i + 1)) (fun j => ¬ j < i + 1) (by
      intro k hk
      obtain ⟨j, hj⟩ := List.mem_iff_getElem?.1 hk
      rw [List.getElem?_drop] at hj
      exact ⟨i + 1 + j, by omega, hj⟩) (by
      rintro j hj ⟨p, hp, rfl⟩
      have hlt : g p < bs.length := by rw [hlen]; exact (hg p hp).2.1
      refine ⟨bs[g p], ?_, List.getElem?_eq_getElem hlt⟩
      apply List.mem_iff_getElem?.2
      refine ⟨g p - (i + 1), ?_⟩
      rw [List.getElem?_drop, List.getElem?_eq_some_iff]
      have e : i + 1 + (g p - (i + 1)) = g p := by omega
      exact ⟨by omega, by congr 1⟩)
  rw [Bounds.area_fin, splitCost_eq _ _ _ hB0 hB1, hc1] at hlt
  rw [hc1] at hc2
  rw [hcnt]
  generalize hn0 : l.countP (fun p => decide (g p < i + 1)) = n0 at *
  generalize ((bs.drop (i + 1)).map Bucket.count).sum = n1 at *
  -- the numerator is not negative
  have hnum : 0 ≤ (n0 : ℝ) * B0.area + (n1 : ℝ) * B1.area := by
    have := B0.area_nonneg
    have := B1.area_nonneg
    positivity
  by_cases hA : B.area = 0
  · exfalso
    rw [hA, X_div0] at hlt
    unfold XR.infOf at hlt
    by_cases hp : 0 < (n0 : ℝ) * B0.area + (n1 : ℝ) * B1.area
    · rw [if_pos hp] at hlt
      simp [HAdd.hAdd, Add.add, XR.add, Scalar.lt, XR.lt, Scalar.lit] at hlt
    · rw [if_neg hp, if_neg (not_lt.2 hnum)] at hlt
      simp [HAdd.hAdd, Add.add, XR.add, Scalar.lt, XR.lt] at hlt
  rw [X_div _ hA, X_add, X_add, X_lit, X_lt, R_lt, R_lit] at hlt
  simp only [Int.cast_natCast, Nat.cast_one, div_one, zero_add] at hlt
  constructor
  · by_contra hz
    have hz : n0 = 0 := by omega
    subst hz
    have hnone : ∀ p ∈ l, ¬ g p < i + 1 := by
      have := List.countP_eq_zero.1 hn0
      intro p hp; simpa using this p hp
    have : B1 = B := by
      apply Bounds.eq_of_le_iff
      intro c
      rw [hB1c, hB]
      constructor
      · rintro ⟨h1, h2⟩; exact ⟨h1, fun p hp => h2 p hp (hnone p hp)⟩
      · rintro ⟨h1, h2⟩; exact ⟨h1, fun p hp _ => h2 p hp⟩
    have hn1 : n1 = l.length := by omega
    rw [this, hn1] at hlt
    simp only [Nat.cast_zero, zero_mul, zero_add] at hlt
    rw [mul_div_assoc, div_self hA] at hlt
    linarith
  · by_contra hz
    have hz : n1 = 0 := by omega
    subst hz
    have hn0' : n0 = l.length := by omega
    have hevery : ∀ p ∈ l, g p < i + 1 := by
      rw [hn0', List.countP_eq_length] at hn0
      intro p hp; simpa using hn0 p hp
    have : B0 = B := by
      apply Bounds.eq_of_le_iff
      intro c
      rw [hB0c, hB]
      constructor
      · rintro ⟨h1, h2⟩; exact ⟨h1, fun p hp => h2 p hp (hevery p hp)⟩
      · rintro ⟨h1, h2⟩; exact ⟨h1, fun p hp _ => h2 p hp⟩
    rw [this, hn0'] at hlt
    simp only [Nat.cast_zero, zero_mul, add_zero] at hlt
    rw [mul_div_assoc, div_self hA] at hlt
    linarith

end TinyMesh
