import Verif.Proof.Box
import Mathlib.Data.List.Basic
import Mathlib.Tactic.IntervalCases
/-
Construction of the bounding volume hierarchy in exact arithmetic.
-/
namespace TinyMesh

namespace Bounds

theorem Le.antisymm {a b : Bounds ℝ} (h : a.Le b) (h' : b.Le a) : a = b := by
  refine ext' (Vec3.ext' ?_ ?_ ?_) (Vec3.ext' ?_ ?_ ?_)
  · exact le_antisymm h'.1.1 h.1.1
  · exact le_antisymm h'.2.1.1 h.2.1.1
  · exact le_antisymm h'.2.2.1 h.2.2.1
  · exact le_antisymm h.1.2 h'.1.2
  · exact le_antisymm h.2.1.2 h'.2.1.2
  · exact le_antisymm h.2.2.2 h'.2.2.2

theorem eq_of_le_iff {a b : Bounds ℝ} (h : ∀ c, a.Le c ↔ b.Le c) : a = b :=
  ((h b).2 (Le.refl b)).antisymm ((h a).1 (Le.refl a))

theorem merge_le_iff {a b c : Bounds ℝ} : (a.merge b).Le c ↔ a.Le c ∧ b.Le c :=
  ⟨fun h => ⟨(le_merge_left a b).trans h, (le_merge_right a b).trans h⟩, fun h => merge_le h.1 h.2⟩

theorem fin_inj {a b : Bounds ℝ} : a.fin = b.fin ↔ a = b := by
  constructor
  · intro h
    exact ext' (Vec3.fin_inj.1 (congrArg Bounds.lo h)) (Vec3.fin_inj.1 (congrArg Bounds.hi h))
  · rintro rfl; rfl

theorem foldl_merge {α : Type} (f : α → Bounds XR) : ∀ (l : List α), (∀ p ∈ l, ∃ b : Bounds ℝ, f p = b.fin) → ∀ b0 : Bounds ℝ,
    ∃ B : Bounds ℝ, l.foldl (fun b p => b.merge (f p)) b0.fin = B.fin ∧
      ∀ c, B.Le c ↔ b0.Le c ∧ ∀ p ∈ l, ∀ b : Bounds ℝ, f p = b.fin → b.Le c := by
  intro l
  induction l with
  | nil => intro _ b0; exact ⟨b0, rfl, fun c => by simp⟩
  | cons p l ih =>
    intro hf b0
    obtain ⟨b, hb⟩ := hf p (by simp)
    obtain ⟨B, hB, hc⟩ := ih (fun q hq => hf q (by simp [hq])) (b0.merge b)
    refine ⟨B, ?_, ?_⟩
    · rw [List.foldl_cons, hb, merge_fin, hB]
    · intro c
      rw [hc, merge_le_iff]
      constructor
      · rintro ⟨⟨h1, h2⟩, h3⟩
        refine ⟨h1, ?_⟩
        intro q hq b' hb'
        rcases List.mem_cons.1 hq with rfl | hq
        · rw [hb] at hb'; rw [← fin_inj.1 hb']; exact h2
        · exact h3 q hq b' hb'
      · rintro ⟨h1, h2⟩
        exact ⟨⟨h1, h2 p (by simp) b hb⟩, fun q hq => h2 q (by simp [hq])⟩

theorem area_def (b : Bounds ℝ) : b.area = 2 * (|b.hi.x - b.lo.x| * |b.hi.y - b.lo.y| + |b.hi.y - b.lo.y| * |b.hi.z - b.lo.z|
    + |b.hi.z - b.lo.z| * |b.hi.x - b.lo.x|) := by
  simp [area, R_lit, Vec3.vabs_def, Vec3.sub_def]

theorem area_nonneg (b : Bounds ℝ) : 0 ≤ b.area := by
  rw [area_def]; positivity

theorem area_fin (b : Bounds ℝ) : b.fin.area = XR.fin b.area := rfl

theorem maxExtent_ok (b : Bounds ℝ) : ∃ d, b.fin.maxExtent = .ok d := by
  have h : ∃ d, (if Scalar.lt (Scalar.lit (-1) 1 : XR) (b.fin.hi.sub b.fin.lo).vabs.x = true then
      ((b.fin.hi.sub b.fin.lo).vabs.x, some (0 : Fin 3)) else ((Scalar.lit (-1) 1 : XR), none)).2 = some d := by
    refine ⟨0, ?_⟩
    rw [if_pos]
    show Scalar.lt (Scalar.lit (-1) 1 : ℝ) ((b.hi.sub b.lo).vabs.x) = true
    rw [R_lt, R_lit, Vec3.vabs_def]
    have := abs_nonneg (b.hi.sub b.lo).x
    norm_num
    linarith
  unfold maxExtent
  simp only
  generalize (if Scalar.lt (Scalar.lit (-1) 1 : XR) (b.fin.hi.sub b.fin.lo).vabs.x = true then
      ((b.fin.hi.sub b.fin.lo).vabs.x, some (0 : Fin 3)) else ((Scalar.lit (-1) 1 : XR), none)) = s at h ⊢
  obtain ⟨d, hd⟩ := h
  split_ifs <;> simp [hd]

end Bounds

/-- centroid and box are finite -/
def Prim.Fin (p : Prim XR) : Prop := (∃ c : Vec3 ℝ, p.centroid = c.fin) ∧ ∃ b : Bounds ℝ, p.bounds = b.fin

theorem toInt_small {r : ℝ} (h0 : 0 ≤ r) (h1 : r < 16) : ∃ n : Nat, n < 16 ∧ ScalarX.toInt r = some (n : Int) := by
  have e : truncR r = ⌊r⌋ := by unfold truncR; rw [if_pos h0]
  have f0 : 0 ≤ ⌊r⌋ := Int.floor_nonneg.2 h0
  have f1 : ⌊r⌋ < 16 := by rw [Int.floor_lt]; exact_mod_cast h1
  refine ⟨⌊r⌋.toNat, by omega, ?_⟩
  show (if -2147483648 ≤ truncR r ∧ truncR r ≤ 2147483647 then some (truncR r) else none) = _
  rw [e, if_pos (by omega)]
  congr 1
  omega

theorem bucket_ok {cb : Bounds ℝ} {p : Prim XR} {c : Vec3 ℝ} (hp : p.centroid = c.fin) (axis : Fin 3)
    (hlo : cb.lo.get axis ≤ c.get axis) (hhi : c.get axis ≤ cb.hi.get axis) :
    ∃ n : Nat, n < 16 ∧ bucketOf cb.fin axis p = some (n : Int) := by
  unfold bucketOf Bounds.fin
  simp only [hp, Vec3.X_vget, X_sub, X_abs, X_lit, X_add, X_mul]
  generalize cb.lo.get axis = lo at *
  generalize cb.hi.get axis = hi at *
  generalize c.get axis = x at *
  have hw : (0 : ℝ) < |hi - lo| + Scalar.lit 1 (10 ^ 12) := by
    have := abs_nonneg (hi - lo)
    rw [R_lit]; norm_num; linarith
  rw [X_div _ hw.ne', X_mul, X_toInt]
  have e16 : (Scalar.lit 16 1 : ℝ) = 16 := by simp [R_lit]
  have habs : |x - lo| ≤ |hi - lo| := by
    rw [abs_of_nonneg (by linarith), abs_of_nonneg (by linarith)]; linarith
  have hlt : |x - lo| < |hi - lo| + Scalar.lit 1 (10 ^ 12) := by
    rw [R_lit] at hw ⊢; norm_num; linarith
  apply toInt_small
  · rw [e16, R_lit1]
    have := abs_nonneg (x - lo)
    positivity
  · rw [e16, R_lit1, mul_one_div, div_lt_iff₀ hw]
    nlinarith

/-- the content of one bucket after the primitives `l` went into it -/
structure BucketAt (g : Prim XR → Nat) (l : List (Prim XR)) (b0 : Bounds ℝ) (j : Nat) (k0 k : Bucket XR) : Prop where
  count : k.count = k0.count + l.countP (fun p => decide (g p = j))
  box : ∃ B : Bounds ℝ, k.bounds = B.fin ∧ ∀ c, B.Le c ↔ b0.Le c ∧ ∀ p ∈ l, g p = j → ∀ b : Bounds ℝ, p.bounds = b.fin → b.Le c

theorem fillBuckets_ok {cb : Bounds XR} {axis : Fin 3} (g : Prim XR → Nat) : ∀ (l : List (Prim XR)) (bs : List (Bucket XR))
    (B0 : Nat → Bounds ℝ),
    (∀ p ∈ l, p.Fin ∧ g p < 16 ∧ bucketOf cb axis p = some (g p : Int)) → bs.length = 16 →
    (∀ j k, bs[j]? = some k → k.bounds = (B0 j).fin) →
    ∃ bs', fillBuckets cb axis l bs = .ok bs' ∧ bs'.length = 16 ∧
      ∀ j k0 k, bs[j]? = some k0 → bs'[j]? = some k → BucketAt g l (B0 j) j k0 k := by
  intro l
  induction l with
  | nil =>
    intro bs B0 _ hlen hb
    refine ⟨bs, rfl, hlen, ?_⟩
    intro j k0 k h0 h1
    rw [h0] at h1
    obtain rfl := Option.some.inj h1
    exact ⟨by simp, B0 j, hb j k0 h0, fun c => by simp⟩
  | cons p l ih =>
    intro bs B0 hp hlen hb
    obtain ⟨pf, pg, pb⟩ := hp p (by simp)
    obtain ⟨-, b, hpb⟩ := pf
    have hlt : g p < bs.length := by omega
    obtain ⟨k, hk⟩ : ∃ k, bs[g p]? = some k := ⟨bs[g p], List.getElem?_eq_getElem hlt⟩
    have step : fillBuckets cb axis (p :: l) bs =
        fillBuckets cb axis l (bs.set (g p) ⟨k.count + 1, k.bounds.merge p.bounds⟩) := by
      rw [fillBuckets]
      simp only [pb]
      have n16 : ((g p : Int) = 16) = False := by simp; omega
      have nneg : ((g p : Int) < 0) = False := by simp
      simp only [n16, if_false, nneg, Int.toNat_natCast, hk]
    rw [step]
    obtain ⟨bs', h1, h2, h3⟩ := ih (bs.set (g p) ⟨k.count + 1, k.bounds.merge p.bounds⟩)
      (fun j => if j = g p then (B0 j).merge b else B0 j) (fun q hq => hp q (by simp [hq])) (by simpa using hlen) (by
        intro j k' hj
        rw [List.getElem?_set] at hj
        by_cases e : g p = j
        · subst e
          rw [if_pos rfl, if_pos hlt] at hj
          obtain rfl := Option.some.inj hj
          simp only [if_true]
          rw [hb _ _ hk, hpb, Bounds.merge_fin]
        · rw [if_neg e] at hj
          rw [if_neg (Ne.symm e)]
          exact hb _ _ hj)
    refine ⟨bs', h1, h2, ?_⟩
    intro j k0 k' hj0 hj'
    by_cases e : g p = j
    · subst e
      rw [hk] at hj0
      obtain rfl := Option.some.inj hj0
      have := h3 (g p) ⟨k.count + 1, k.bounds.merge p.bounds⟩ k' (by rw [List.getElem?_set, if_pos rfl, if_pos hlt]) hj'
      refine ⟨?_, ?_⟩
      · rw [this.count, List.countP_cons]; simp; omega
      · obtain ⟨B, hB, hc⟩ := this.box
        refine ⟨B, hB, fun c => ?_⟩
        rw [hc, if_pos rfl, Bounds.merge_le_iff]
        constructor
        · rintro ⟨⟨a1, a2⟩, a3⟩
          refine ⟨a1, fun q hq gq b' hb' => ?_⟩
          rcases List.mem_cons.1 hq with rfl | hq
          · rw [hpb] at hb'; rw [← Bounds.fin_inj.1 hb']; exact a2
          · exact a3 q hq gq b' hb'
        · rintro ⟨a1, a2⟩
          exact ⟨⟨a1, a2 p (by simp) rfl b hpb⟩, fun q hq => a2 q (by simp [hq])⟩
    · have := h3 j k0 k' (by rw [List.getElem?_set, if_neg e]; exact hj0) hj'
      refine ⟨?_, ?_⟩
      · rw [this.count, List.countP_cons]; simp [e]
      · obtain ⟨B, hB, hc⟩ := this.box
        refine ⟨B, hB, fun c => ?_⟩
        rw [hc, if_neg (Ne.symm e)]
        constructor
        · rintro ⟨a1, a2⟩
          refine ⟨a1, fun q hq gq => ?_⟩
          rcases List.mem_cons.1 hq with rfl | hq
          · exact absurd gq e
          · exact a2 q hq gq
        · rintro ⟨a1, a2⟩
          exact ⟨a1, fun q hq => a2 q (by simp [hq])⟩

theorem bestSplit_mem {F : Type} [Scalar F] (cost : Nat → F) : ∃ i, i ≤ 14 ∧ bestSplit cost = (cost i, i) := by
  unfold bestSplit
  have key : ∀ (l : List Nat), (∀ i ∈ l, i ≤ 14) → ∀ s : F × Nat, (∃ i, i ≤ 14 ∧ s = (cost i, i)) →
      ∃ i, i ≤ 14 ∧ l.foldl (fun s i => if Scalar.lt (cost i) s.1 = true then (cost i, i) else s) s = (cost i, i) := by
    intro l
    induction l with
    | nil => intro _ s hs; exact hs
    | cons i l ih =>
      intro hl s hs
      rw [List.foldl_cons]
      apply ih (fun j hj => hl j (by simp [hj]))
      split
      · exact ⟨i, hl i (by simp), rfl⟩
      · exact hs
  apply key
  · intro i hi
    obtain ⟨j, hj, rfl⟩ := List.mem_map.1 hi
    have := List.mem_range.1 hj
    omega
  · exact ⟨0, by omega, rfl⟩

theorem foldl_count {F : Type} (l : List (Bucket F)) : ∀ n, l.foldl (fun n k => n + k.count) n = n + (l.map Bucket.count).sum := by
  induction l with
  | nil => intro n; simp
  | cons a l ih => intro n; rw [List.foldl_cons, ih]; simp; omega

end TinyMesh
