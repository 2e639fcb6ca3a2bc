import Verif.Proof.Tri
/-
`Bounds3` in exact arithmetic.
-/
namespace TinyMesh

namespace Bounds

/-- lower corner below upper corner -/
def Proper (b : Bounds ℝ) : Prop := b.lo.x ≤ b.hi.x ∧ b.lo.y ≤ b.hi.y ∧ b.lo.z ≤ b.hi.z

/-- coordinates below the 1e20 of the default box -/
def Small (b : Bounds ℝ) : Prop :=
  (b.lo.x ≤ 10 ^ 20 ∧ b.lo.y ≤ 10 ^ 20 ∧ b.lo.z ≤ 10 ^ 20) ∧
  (-10 ^ 20 ≤ b.hi.x ∧ -10 ^ 20 ≤ b.hi.y ∧ -10 ^ 20 ≤ b.hi.z)

theorem empty_def : (empty : Bounds ℝ) = ⟨⟨10 ^ 20, 10 ^ 20, 10 ^ 20⟩, ⟨-10 ^ 20, -10 ^ 20, -10 ^ 20⟩⟩ := by
  simp [empty, R_lit]; norm_num

theorem merge_def (a b : Bounds ℝ) : a.merge b =
    ⟨⟨min a.lo.x b.lo.x, min a.lo.y b.lo.y, min a.lo.z b.lo.z⟩,
     ⟨max a.hi.x b.hi.x, max a.hi.y b.hi.y, max a.hi.z b.hi.z⟩⟩ := by
  simp [merge, Vec3.vmin_def, Vec3.vmax_def]

theorem mergeP_eq (a : Bounds ℝ) (p : Vec3 ℝ) : a.mergeP p = a.merge ⟨p, p⟩ := rfl

theorem ext' {F : Type} {a b : Bounds F} (h1 : a.lo = b.lo) (h2 : a.hi = b.hi) : a = b := by
  cases a; cases b; simp_all

theorem merge_comm (a b : Bounds ℝ) : a.merge b = b.merge a := by
  simp only [merge_def, min_comm, max_comm]

theorem merge_assoc (a b c : Bounds ℝ) : (a.merge b).merge c = a.merge (b.merge c) := by
  simp only [merge_def, min_assoc, max_assoc]

theorem merge_idem (a : Bounds ℝ) : a.merge a = a := by
  simp only [merge_def, min_self, max_self]

theorem empty_merge {b : Bounds ℝ} (h : b.Small) : empty.merge b = b := by
  obtain ⟨⟨h1, h2, h3⟩, h4, h5, h6⟩ := h
  rw [empty_def, merge_def]
  simp only [min_eq_right h1, min_eq_right h2, min_eq_right h3, max_eq_right h4, max_eq_right h5, max_eq_right h6]

theorem mem_box (b : Bounds ℝ) (p : Vec3 ℝ) : p.E ∈ b.box ↔
    (b.lo.x ≤ p.x ∧ p.x ≤ b.hi.x) ∧ (b.lo.y ≤ p.y ∧ p.y ≤ b.hi.y) ∧ (b.lo.z ≤ p.z ∧ p.z ≤ b.hi.z) := by
  simp [box, Fin.forall_fin_succ]

theorem inside_iff (b : Bounds ℝ) (p : Vec3 ℝ) : b.inside p = true ↔ p.E ∈ b.box := by
  rw [mem_box]
  simp only [inside, outAxis, Bool.and_eq_true, Bool.not_eq_true', Bool.or_eq_false_iff, R_lt', Vec3.get]
  tauto

theorem inside_fin (b : Bounds ℝ) (p : Vec3 ℝ) : b.fin.inside p.fin = b.inside p := by
  simp only [inside, outAxis, fin, Vec3.X_vget, X_lt]

theorem merge_fin (a b : Bounds ℝ) : a.fin.merge b.fin = (a.merge b).fin := by
  simp [merge, fin]

theorem mergeP_fin (a : Bounds ℝ) (p : Vec3 ℝ) : a.fin.mergeP p.fin = (a.mergeP p).fin := by
  simp [mergeP, fin]

theorem empty_fin : (empty : Bounds XR) = (empty : Bounds ℝ).fin := rfl

/-- inclusion of the intervals of all axes -/
def Le (a b : Bounds ℝ) : Prop :=
  (b.lo.x ≤ a.lo.x ∧ a.hi.x ≤ b.hi.x) ∧ (b.lo.y ≤ a.lo.y ∧ a.hi.y ≤ b.hi.y) ∧ (b.lo.z ≤ a.lo.z ∧ a.hi.z ≤ b.hi.z)

theorem Le.refl (a : Bounds ℝ) : a.Le a := ⟨⟨le_rfl, le_rfl⟩, ⟨le_rfl, le_rfl⟩, le_rfl, le_rfl⟩

theorem Le.trans {a b c : Bounds ℝ} (h : a.Le b) (h' : b.Le c) : a.Le c :=
  ⟨⟨h'.1.1.trans h.1.1, h.1.2.trans h'.1.2⟩, ⟨h'.2.1.1.trans h.2.1.1, h.2.1.2.trans h'.2.1.2⟩,
    h'.2.2.1.trans h.2.2.1, h.2.2.2.trans h'.2.2.2⟩

theorem Le.box {a b : Bounds ℝ} (h : a.Le b) : a.box ⊆ b.box := by
  intro p hp
  obtain ⟨v, rfl⟩ := Vec3.E_surj p
  rw [mem_box] at hp ⊢
  obtain ⟨⟨a1, a2⟩, ⟨a3, a4⟩, a5, a6⟩ := h
  obtain ⟨⟨b1, b2⟩, ⟨b3, b4⟩, b5, b6⟩ := hp
  exact ⟨⟨a1.trans b1, b2.trans a2⟩, ⟨a3.trans b3, b4.trans a4⟩, a5.trans b5, b6.trans a6⟩

theorem Proper.le_of_box {a b : Bounds ℝ} (p : a.Proper) (h : a.box ⊆ b.box) : a.Le b := by
  have h1 := h ((a.mem_box a.lo).2 ⟨⟨le_rfl, p.1⟩, ⟨le_rfl, p.2.1⟩, le_rfl, p.2.2⟩)
  have h2 := h ((a.mem_box a.hi).2 ⟨⟨p.1, le_rfl⟩, ⟨p.2.1, le_rfl⟩, p.2.2, le_rfl⟩)
  rw [mem_box] at h1 h2
  exact ⟨⟨h1.1.1, h2.1.2⟩, ⟨h1.2.1.1, h2.2.1.2⟩, h1.2.2.1, h2.2.2.2⟩

theorem le_merge_left (a b : Bounds ℝ) : a.Le (a.merge b) := by
  simp [Le, merge_def]

theorem le_merge_right (a b : Bounds ℝ) : b.Le (a.merge b) := by
  simp [Le, merge_def]

theorem merge_le {a b c : Bounds ℝ} (h : a.Le c) (h' : b.Le c) : (a.merge b).Le c := by
  simp only [Le, merge_def, le_min_iff, max_le_iff] at *
  tauto

theorem Proper.merge {a b : Bounds ℝ} (p : a.Proper) (p' : b.Proper) : (a.merge b).Proper := by
  simp only [Proper, merge_def] at *
  exact ⟨(min_le_left _ _).trans (p.1.trans (le_max_left _ _)), (min_le_left _ _).trans (p.2.1.trans (le_max_left _ _)),
    (min_le_left _ _).trans (p.2.2.trans (le_max_left _ _))⟩

theorem convex_box (b : Bounds ℝ) : Convex ℝ b.box := by
  intro p hp q hq s t hs ht hst i
  have h1 := hp i
  have h2 := hq i
  simp only [PiLp.add_apply, PiLp.smul_apply, smul_eq_mul]
  have : s = 1 - t := by linarith
  subst this
  constructor <;> nlinarith

/-! distance -/

/-- contribution of one axis to the squared distance -/
noncomputable def gap2 (lo hi p : ℝ) : ℝ := if p < lo ∨ hi < p then min |lo - p| |hi - p| * min |lo - p| |hi - p| else 0

theorem gap2_nonneg (lo hi p : ℝ) : 0 ≤ gap2 lo hi p := by
  unfold gap2; split
  · exact mul_self_nonneg _
  · exact le_rfl

/-- nearest point of an interval -/
noncomputable def clamp (lo hi p : ℝ) : ℝ := if p < lo then lo else if hi < p then hi else p

theorem gap2_eq {lo hi : ℝ} (h : lo ≤ hi) (p : ℝ) : gap2 lo hi p = (p - clamp lo hi p) * (p - clamp lo hi p) := by
  unfold gap2 clamp
  by_cases h1 : p < lo
  · rw [if_pos (Or.inl h1), if_pos h1, abs_of_pos (by linarith), abs_of_pos (by linarith), min_eq_left (by linarith)]; ring
  · by_cases h2 : hi < p
    · rw [if_pos (Or.inr h2), if_neg h1, if_pos h2, abs_of_nonpos (by linarith), abs_of_neg (by linarith),
        min_eq_right (by linarith)]; ring
    · rw [if_neg (by tauto), if_neg h1, if_neg h2]; ring

theorem gap2_le {lo hi x : ℝ} (h1 : lo ≤ x) (h2 : x ≤ hi) (p : ℝ) : gap2 lo hi p ≤ (p - x) * (p - x) := by
  rw [gap2_eq (h1.trans h2)]
  unfold clamp
  split
  · nlinarith
  · split
    · nlinarith
    · rw [sub_self, zero_mul]; exact mul_self_nonneg _

theorem gap2_eq_zero {lo hi : ℝ} (h : lo ≤ hi) (p : ℝ) : gap2 lo hi p = 0 ↔ lo ≤ p ∧ p ≤ hi := by
  rw [gap2_eq h, mul_self_eq_zero]
  unfold clamp
  constructor
  · intro h'
    split at h' <;> [skip; split at h'] <;> constructor <;> linarith
  · rintro ⟨h1, h2⟩
    rw [if_neg (not_lt.2 h1), if_neg (not_lt.2 h2), sub_self]

theorem distance_def (b : Bounds ℝ) (p : Vec3 ℝ) : b.distance p =
    Real.sqrt (gap2 b.lo.x b.hi.x p.x + gap2 b.lo.y b.hi.y p.y + gap2 b.lo.z b.hi.z p.z) := by
  have ax : ∀ (s lo hi q : ℝ), (if (Scalar.lt q lo || Scalar.lt hi q) = true then
      s + fmin |lo - q| |hi - q| * fmin |lo - q| |hi - q| else s) = s + gap2 lo hi q := by
    intro s lo hi q
    unfold gap2
    simp only [Bool.or_eq_true, R_lt, R_fmin]
    split <;> simp
  have e0 : ∀ s : ℝ, b.distAxis p s 0 = s + gap2 b.lo.x b.hi.x p.x := by
    intro s; rw [← ax]; simp only [distAxis, outAxis, Vec3.get, Vec3.sub_def, Vec3.vabs_def]
  have e1 : ∀ s : ℝ, b.distAxis p s 1 = s + gap2 b.lo.y b.hi.y p.y := by
    intro s; rw [← ax]; simp only [distAxis, outAxis, Vec3.get, Vec3.sub_def, Vec3.vabs_def]
  have e2 : ∀ s : ℝ, b.distAxis p s 2 = s + gap2 b.lo.z b.hi.z p.z := by
    intro s; rw [← ax]; simp only [distAxis, outAxis, Vec3.get, Vec3.sub_def, Vec3.vabs_def]
  unfold distance
  rw [e0, e1, e2, R_lit0, zero_add]
  rfl

theorem distance_fin (b : Bounds ℝ) (p : Vec3 ℝ) : b.fin.distance p.fin = XR.fin (b.distance p) := by
  have ax : ∀ (s : ℝ) (d : Fin 3), b.fin.distAxis p.fin (XR.fin s) d = XR.fin (b.distAxis p s d) := by
    intro s d
    unfold distAxis outAxis
    simp only [fin, Vec3.X_vget, X_lt, Vec3.X_vsub, Vec3.X_vabs, X_fmin, X_mul, X_add]
    split <;> rfl
  have nn : ∀ (s : ℝ) (d : Fin 3), 0 ≤ s → 0 ≤ b.distAxis p s d := by
    intro s d hs
    unfold distAxis
    split
    · exact add_nonneg hs (mul_self_nonneg _)
    · exact hs
  unfold distance
  rw [X_lit, ax, ax, ax, X_sqrt]
  · rfl
  · exact nn _ _ (nn _ _ (nn _ _ (by rw [R_lit0])))

theorem distance_le (b : Bounds ℝ) (p : Vec3 ℝ) {x : E3} (hx : x ∈ b.box) : b.distance p ≤ dist p.E x := by
  obtain ⟨v, rfl⟩ := Vec3.E_surj x
  rw [mem_box] at hx
  rw [Vec3.E_dist, distance_def, Vec3.length_def]
  apply Real.sqrt_le_sqrt
  rw [Vec3.sub_def, Vec3.dot_def]
  exact add_le_add (add_le_add (gap2_le hx.1.1 hx.1.2 _) (gap2_le hx.2.1.1 hx.2.1.2 _)) (gap2_le hx.2.2.1 hx.2.2.2 _)

theorem distance_eq_zero {b : Bounds ℝ} (pr : b.Proper) (p : Vec3 ℝ) : b.distance p = 0 ↔ p.E ∈ b.box := by
  rw [distance_def, mem_box, Real.sqrt_eq_zero (by
    have := gap2_nonneg b.lo.x b.hi.x p.x
    have := gap2_nonneg b.lo.y b.hi.y p.y
    have := gap2_nonneg b.lo.z b.hi.z p.z
    positivity)]
  rw [← gap2_eq_zero pr.1, ← gap2_eq_zero pr.2.1, ← gap2_eq_zero pr.2.2]
  have h1 := gap2_nonneg b.lo.x b.hi.x p.x
  have h2 := gap2_nonneg b.lo.y b.hi.y p.y
  have h3 := gap2_nonneg b.lo.z b.hi.z p.z
  constructor
  · intro h; refine ⟨?_, ?_, ?_⟩ <;> linarith
  · rintro ⟨a, b, c⟩; rw [a, b, c]; ring

theorem clamp_mem {lo hi : ℝ} (h : lo ≤ hi) (p : ℝ) : lo ≤ clamp lo hi p ∧ clamp lo hi p ≤ hi := by
  unfold clamp
  split
  · exact ⟨le_rfl, h⟩
  · split
    · exact ⟨h, le_rfl⟩
    · constructor <;> linarith

theorem distance_attained {b : Bounds ℝ} (pr : b.Proper) (p : Vec3 ℝ) : ∃ x ∈ b.box, dist p.E x = b.distance p := by
  refine ⟨(⟨clamp b.lo.x b.hi.x p.x, clamp b.lo.y b.hi.y p.y, clamp b.lo.z b.hi.z p.z⟩ : Vec3 ℝ).E, ?_, ?_⟩
  · rw [mem_box]; exact ⟨clamp_mem pr.1 _, clamp_mem pr.2.1 _, clamp_mem pr.2.2 _⟩
  · rw [Vec3.E_dist, distance_def, gap2_eq pr.1, gap2_eq pr.2.1, gap2_eq pr.2.2, Vec3.length_def, Vec3.sub_def, Vec3.dot_def]

end Bounds
end TinyMesh
