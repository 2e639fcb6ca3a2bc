import Verif.Model.Real
import Mathlib.Tactic.Ring
import Mathlib.Tactic.Linarith
import Mathlib.Tactic.FieldSimp
import Mathlib.Tactic.NormNum
/-
Exact arithmetic: the operations on `ℝ` in Mathlib's notation, and the operations on finite `XR` values in terms of those on
`ℝ`.
-/
namespace TinyMesh

/-! ### `ℝ` -/
section
variable (a b : ℝ)

theorem R_lit (n : Int) (d : Nat) : (Scalar.lit n d : ℝ) = (n : ℝ) / (d : ℝ) := rfl
theorem R_sqrt : (Scalar.sqrt a : ℝ) = Real.sqrt a := rfl
theorem R_acos : (Scalar.acos a : ℝ) = Real.arccos a := rfl
theorem R_atan2 : (Scalar.atan2 a b : ℝ) = Complex.arg ⟨b, a⟩ := rfl
theorem R_exp : (Scalar.exp a : ℝ) = Real.exp a := rfl
theorem R_pi : (Scalar.pi : ℝ) = Real.pi := rfl
theorem R_abs : (ScalarX.abs a : ℝ) = |a| := rfl
theorem R_sin : (ScalarX.sin a : ℝ) = Real.sin a := rfl
theorem R_cos : (ScalarX.cos a : ℝ) = Real.cos a := rfl
theorem R_log : (ScalarX.log a : ℝ) = Real.log a := rfl
theorem R_lt : (Scalar.lt a b = true) ↔ a < b := by simp [Scalar.lt]
theorem R_le : (Scalar.le a b = true) ↔ a ≤ b := by simp [Scalar.le]
theorem R_eq : (Scalar.eq a b = true) ↔ a = b := by simp [Scalar.eq]
theorem R_lt' : (Scalar.lt a b = false) ↔ b ≤ a := by simp [Scalar.lt]
theorem R_le' : (Scalar.le a b = false) ↔ b < a := by simp [Scalar.le]
theorem R_eq' : (Scalar.eq a b = false) ↔ a ≠ b := by simp [Scalar.eq]
theorem R_lit0 : (Scalar.lit 0 1 : ℝ) = 0 := by simp [R_lit]
theorem R_lit1 : (Scalar.lit 1 1 : ℝ) = 1 := by simp [R_lit]

theorem R_fmin : (fmin a b : ℝ) = min a b := by
  unfold fmin; by_cases h : b < a
  · rw [if_pos ((R_lt _ _).2 h), min_eq_right h.le]
  · rw [if_neg (by rw [R_lt]; exact h), min_eq_left (not_lt.1 h)]

theorem R_fmax : (fmax a b : ℝ) = max a b := by
  unfold fmax; by_cases h : a < b
  · rw [if_pos ((R_lt _ _).2 h), max_eq_right h.le]
  · rw [if_neg (by rw [R_lt]; exact h), max_eq_left (not_lt.1 h)]

end

namespace Vec3
variable (a b : Vec3 ℝ) (s : ℝ)

@[ext] theorem ext' {F : Type} {a b : Vec3 F} (hx : a.x = b.x) (hy : a.y = b.y) (hz : a.z = b.z) : a = b := by
  cases a; cases b; simp_all

theorem add_def : a.add b = ⟨a.x + b.x, a.y + b.y, a.z + b.z⟩ := rfl
theorem neg_def : a.neg = ⟨-a.x, -a.y, -a.z⟩ := rfl
theorem sub_def : a.sub b = ⟨a.x - b.x, a.y - b.y, a.z - b.z⟩ := by
  show (⟨a.x + -b.x, a.y + -b.y, a.z + -b.z⟩ : Vec3 ℝ) = _
  simp only [sub_eq_add_neg]
theorem smul_def : a.smul s = ⟨a.x * s, a.y * s, a.z * s⟩ := rfl
theorem divRaw_def : a.divRaw s = ⟨a.x / s, a.y / s, a.z / s⟩ := rfl
theorem dot_def : a.dot b = a.x * b.x + a.y * b.y + a.z * b.z := by
  show Scalar.lit 0 1 + a.x * b.x + a.y * b.y + a.z * b.z = _
  rw [R_lit0, zero_add]
theorem cross_def : a.cross b = ⟨a.y * b.z - a.z * b.y, a.z * b.x - a.x * b.z, a.x * b.y - a.y * b.x⟩ := rfl
theorem length_def : a.length = Real.sqrt (a.dot a) := rfl
theorem vmin_def : a.vmin b = ⟨min a.x b.x, min a.y b.y, min a.z b.z⟩ := by simp only [vmin, R_fmin]
theorem vmax_def : a.vmax b = ⟨max a.x b.x, max a.y b.y, max a.z b.z⟩ := by simp only [vmax, R_fmax]
theorem vabs_def : a.vabs = ⟨|a.x|, |a.y|, |a.z|⟩ := rfl
theorem zero_def : (zero : Vec3 ℝ) = ⟨0, 0, 0⟩ := by simp only [zero, R_lit0]

theorem dot_self_nonneg : 0 ≤ a.dot a := by
  rw [dot_def]; nlinarith [mul_self_nonneg a.x, mul_self_nonneg a.y, mul_self_nonneg a.z]

theorem dot_comm : a.dot b = b.dot a := by simp only [dot_def]; ring

theorem length_nonneg : 0 ≤ a.length := Real.sqrt_nonneg _

theorem length_sq : a.length * a.length = a.dot a := Real.mul_self_sqrt a.dot_self_nonneg

theorem dot_self_eq_zero : a.dot a = 0 ↔ a = ⟨0, 0, 0⟩ := by
  rw [dot_def]
  constructor
  · intro h
    have hx : a.x * a.x = 0 := by nlinarith [mul_self_nonneg a.x, mul_self_nonneg a.y, mul_self_nonneg a.z]
    have hy : a.y * a.y = 0 := by nlinarith [mul_self_nonneg a.x, mul_self_nonneg a.y, mul_self_nonneg a.z]
    have hz : a.z * a.z = 0 := by nlinarith [mul_self_nonneg a.x, mul_self_nonneg a.y, mul_self_nonneg a.z]
    exact ext' (mul_self_eq_zero.1 hx) (mul_self_eq_zero.1 hy) (mul_self_eq_zero.1 hz)
  · rintro rfl; simp

theorem length_eq_zero : a.length = 0 ↔ a = ⟨0, 0, 0⟩ := by
  rw [← dot_self_eq_zero, length_def, Real.sqrt_eq_zero a.dot_self_nonneg]

theorem length_pos : 0 < a.length ↔ a ≠ ⟨0, 0, 0⟩ := by
  rw [ne_eq, ← length_eq_zero]
  exact ⟨fun h => h.ne', fun h => lt_of_le_of_ne a.length_nonneg (Ne.symm h)⟩

end Vec3

/-! ### `XR` -/
section
variable (a b : ℝ)

@[simp] theorem X_add : (XR.fin a + XR.fin b) = XR.fin (a + b) := rfl
@[simp] theorem X_neg : (-XR.fin a) = XR.fin (-a) := rfl
@[simp] theorem X_sub : (XR.fin a - XR.fin b) = XR.fin (a - b) := by
  show XR.fin (a + -b) = _
  rw [sub_eq_add_neg]
@[simp] theorem X_mul : (XR.fin a * XR.fin b) = XR.fin (a * b) := rfl
theorem X_div {b : ℝ} (h : b ≠ 0) : (XR.fin a / XR.fin b) = XR.fin (a / b) := by
  show XR.div _ _ = _
  simp [XR.div, h]
theorem X_div0 : (XR.fin a / XR.fin 0) = XR.infOf a := by
  show XR.div _ _ = _
  simp [XR.div]
@[simp] theorem X_lit (n : Int) (d : Nat) : (Scalar.lit n d : XR) = XR.fin (Scalar.lit n d : ℝ) := rfl
theorem X_sqrt {a : ℝ} (h : 0 ≤ a) : Scalar.sqrt (XR.fin a) = XR.fin (Real.sqrt a) := by
  show XR.lift _ _ _ = _
  simp [XR.lift, h]
theorem X_acos {a : ℝ} (h : -1 ≤ a) (h' : a ≤ 1) : Scalar.acos (XR.fin a) = XR.fin (Real.arccos a) := by
  show XR.lift _ _ _ = _
  simp [XR.lift, h, h']
@[simp] theorem X_atan2 : Scalar.atan2 (XR.fin a) (XR.fin b) = XR.fin (Complex.arg ⟨b, a⟩) := rfl
@[simp] theorem X_exp : Scalar.exp (XR.fin a) = XR.fin (Real.exp a) := rfl
@[simp] theorem X_pi : (Scalar.pi : XR) = XR.fin Real.pi := rfl
@[simp] theorem X_abs : ScalarX.abs (XR.fin a) = XR.fin |a| := rfl
@[simp] theorem X_sin : ScalarX.sin (XR.fin a) = XR.fin (Real.sin a) := by
  show XR.lift _ _ _ = _
  simp [XR.lift]
@[simp] theorem X_cos : ScalarX.cos (XR.fin a) = XR.fin (Real.cos a) := by
  show XR.lift _ _ _ = _
  simp [XR.lift]
theorem X_log {a : ℝ} (h : 0 < a) : ScalarX.log (XR.fin a) = XR.fin (Real.log a) := by
  show (if 0 < a then XR.fin (Real.log a) else _) = _
  rw [if_pos h]
@[simp] theorem X_lt : Scalar.lt (XR.fin a) (XR.fin b) = Scalar.lt a b := rfl
@[simp] theorem X_eq : Scalar.eq (XR.fin a) (XR.fin b) = Scalar.eq a b := rfl
@[simp] theorem X_le : Scalar.le (XR.fin a) (XR.fin b) = Scalar.le a b := by
  show (XR.lt _ _ || XR.eq _ _) = _
  by_cases h : a ≤ b
  · rw [(R_le _ _).2 h]
    simp only [XR.lt, XR.eq, Bool.or_eq_true, decide_eq_true_eq]
    exact lt_or_eq_of_le h
  · rw [(R_le' a b).2 (not_le.1 h)]
    simp only [XR.lt, XR.eq, Bool.or_eq_false_iff, decide_eq_false_iff_not]
    exact ⟨fun h' => h h'.le, fun h' => h h'.le⟩
@[simp] theorem X_toInt : ScalarX.toInt (XR.fin a) = ScalarX.toInt a := rfl
@[simp] theorem X_finite : Scalar.notFinite (XR.fin a) = false := rfl
@[simp] theorem X_fmin : fmin (XR.fin a) (XR.fin b) = XR.fin (fmin a b) := by
  unfold fmin; rw [X_lt]; split <;> rfl
@[simp] theorem X_fmax : fmax (XR.fin a) (XR.fin b) = XR.fin (fmax a b) := by
  unfold fmax; rw [X_lt]; split <;> rfl

end

theorem XR.fin_inj {a b : ℝ} : XR.fin a = XR.fin b ↔ a = b := ⟨fun h => by cases h; rfl, fun h => by rw [h]⟩

namespace Vec3
variable (a b : Vec3 ℝ) (s : ℝ)

theorem fin_inj {a b : Vec3 ℝ} : a.fin = b.fin ↔ a = b := by
  constructor
  · intro h
    have h1 := congrArg Vec3.x h
    have h2 := congrArg Vec3.y h
    have h3 := congrArg Vec3.z h
    exact ext' (XR.fin_inj.1 h1) (XR.fin_inj.1 h2) (XR.fin_inj.1 h3)
  · rintro rfl; rfl

@[simp] theorem X_vadd : a.fin.add b.fin = (a.add b).fin := rfl
@[simp] theorem X_vneg : a.fin.neg = a.neg.fin := rfl
@[simp] theorem X_vsub : a.fin.sub b.fin = (a.sub b).fin := rfl
@[simp] theorem X_vsmul : a.fin.smul (XR.fin s) = (a.smul s).fin := rfl
@[simp] theorem X_vdot : a.fin.dot b.fin = XR.fin (a.dot b) := rfl
@[simp] theorem X_vcross : a.fin.cross b.fin = (a.cross b).fin := by
  simp only [Vec3.cross, Vec3.fin, X_mul, X_sub]
@[simp] theorem X_vlength : a.fin.length = XR.fin a.length := by
  show Scalar.sqrt (a.fin.dot a.fin) = _
  rw [X_vdot, X_sqrt a.dot_self_nonneg]; rfl
theorem X_vdivRaw {s : ℝ} (h : s ≠ 0) : a.fin.divRaw (XR.fin s) = (a.divRaw s).fin := by
  simp only [divRaw, Vec3.fin, X_div _ h]
@[simp] theorem X_vdiv : a.fin.div? (XR.fin s) = (a.div? s).map Vec3.fin := by
  unfold div?
  rw [X_lit, X_eq]
  by_cases h : s = 0
  · have : Scalar.eq s (Scalar.lit 0 1) = true := by rw [R_eq, R_lit0]; exact h
    rw [this]; rfl
  · have : Scalar.eq s (Scalar.lit 0 1) = false := by rw [R_eq', R_lit0]; exact h
    rw [this]; simp [X_vdivRaw a h]
@[simp] theorem X_vnormalize : a.fin.normalize? = (a.normalize?).map Vec3.fin := by
  unfold normalize?; rw [X_vlength, X_vdiv]
@[simp] theorem X_vmin : a.fin.vmin b.fin = (a.vmin b).fin := by simp [vmin, Vec3.fin]
@[simp] theorem X_vmax : a.fin.vmax b.fin = (a.vmax b).fin := by simp [vmax, Vec3.fin]
@[simp] theorem X_vabs : a.fin.vabs = a.vabs.fin := rfl
@[simp] theorem X_vget (d : Fin 3) : a.fin.get d = XR.fin (a.get d) := by
  match d with
  | 0 => rfl
  | 1 => rfl
  | 2 => rfl
@[simp] theorem X_veq : a.fin.eq b.fin = a.eq b := rfl
@[simp] theorem X_vzero : (zero : Vec3 XR) = (zero : Vec3 ℝ).fin := rfl
theorem R_veq : a.eq b = true ↔ a = b := by
  simp only [eq, Bool.and_eq_true, R_eq]
  constructor
  · rintro ⟨⟨h1, h2⟩, h3⟩; exact ext' h1 h2 h3
  · rintro rfl; exact ⟨⟨rfl, rfl⟩, rfl⟩

theorem div?_def : a.div? s = if s = 0 then none else some ⟨a.x / s, a.y / s, a.z / s⟩ := by
  unfold div?
  by_cases h : s = 0
  · rw [if_pos h, if_pos ((R_eq _ _).2 (by rw [R_lit0]; exact h))]
  · rw [if_neg h, if_neg (by rw [R_eq, R_lit0]; exact h)]; rfl

open Classical in
theorem normalize?_def : a.normalize? = if a = ⟨0, 0, 0⟩ then none else
    some ⟨a.x / a.length, a.y / a.length, a.z / a.length⟩ := by
  unfold normalize?
  rw [div?_def]
  simp only [length_eq_zero]

end Vec3
end TinyMesh
