import Verif.Spec.Scale
import Verif.Proof.RealA
import Verif.Model.Operators
import Verif.Model.Curv
import Verif.Model.Simplify
import Verif.Model.Remesh
/-
Changes of the unit of length and the operations on vectors.
-/
namespace TinyMesh
namespace Zoom
variable (g : Zoom)

theorem dot_pt (a b : Vec3 ℝ) : (g.pt a).dot (g.pt b) = g.area (a.dot b) := by
  simp only [Vec3.dot, pt, area, R_lit0]; ring

theorem abs_pos : 0 < |g.s| := _root_.abs_pos.2 g.ne

/-- the change of lengths, without mirroring -/
noncomputable def mag : Zoom := ⟨|g.s|, g.abs_pos.ne'⟩

theorem len_mag (x : ℝ) : g.mag.len x = g.len x := by simp only [len, mag, abs_abs]

theorem area_mag (x : ℝ) : g.mag.area x = g.area x := by simp only [area, mag, abs_mul_abs_self]

theorem cross_pt (a b : Vec3 ℝ) : (g.pt a).cross (g.pt b) = g.mag.pt (g.mag.pt (a.cross b)) := by
  simp only [Vec3.cross, pt, mag, ← mul_assoc, abs_mul_abs_self]
  refine Vec3.ext' ?_ ?_ ?_ <;> ring

theorem pt_zero : g.pt Vec3.zero = Vec3.zero := by
  simp [pt, Vec3.zero, R_lit0]

theorem pt_add (a b : Vec3 ℝ) : (g.pt a).add (g.pt b) = g.pt (a.add b) := by
  simp only [Vec3.add, pt]
  refine Vec3.ext' ?_ ?_ ?_ <;> ring

theorem pt_neg (a : Vec3 ℝ) : (g.pt a).neg = g.pt a.neg := by
  simp only [Vec3.neg, pt]
  refine Vec3.ext' ?_ ?_ ?_ <;> ring

theorem pt_sub (a b : Vec3 ℝ) : (g.pt a).sub (g.pt b) = g.pt (a.sub b) := by
  simp only [Vec3.sub, pt_neg, pt_add]

theorem pt_smul (s : ℝ) (a : Vec3 ℝ) : (g.pt a).smul s = g.pt (a.smul s) := by
  simp only [Vec3.smul, pt]
  refine Vec3.ext' ?_ ?_ ?_ <;> ring

theorem pt_divRaw (s : ℝ) (a : Vec3 ℝ) : (g.pt a).divRaw s = g.pt (a.divRaw s) := by
  simp only [Vec3.divRaw, pt]
  refine Vec3.ext' ?_ ?_ ?_ <;> ring

theorem pt_div (s : ℝ) (a : Vec3 ℝ) : (g.pt a).div? s = (a.div? s).map g.pt := by
  unfold Vec3.div?
  rw [pt_divRaw]
  split <;> rfl

theorem length_pt (a : Vec3 ℝ) : (g.pt a).length = g.len a.length := by
  have e : ∀ x : ℝ, Scalar.sqrt x = Real.sqrt x := fun _ => rfl
  simp only [Vec3.length, dot_pt, area, len, e]
  rw [Real.sqrt_mul (mul_self_nonneg _), Real.sqrt_mul_self_eq_abs]

theorem length_mag (a : Vec3 ℝ) : (g.mag.pt a).length = g.len a.length := by rw [length_pt, len_mag]

theorem area_zero : g.area 0 = 0 := mul_zero _
theorem len_zero : g.len 0 = 0 := mul_zero _
theorem len_eq_zero {x : ℝ} : g.len x = 0 ↔ x = 0 := by simp [len, g.ne]
theorem len_len (x : ℝ) : g.len (g.len x) = g.area x := by simp only [len, area]; rw [← mul_assoc, abs_mul_abs_self]
theorem area_lt {x y : ℝ} : g.area x < g.area y ↔ x < y := mul_lt_mul_iff_right₀ (mul_self_pos.2 g.ne)
theorem len_lt {x y : ℝ} : g.len x < g.len y ↔ x < y := mul_lt_mul_iff_right₀ g.abs_pos

theorem divRaw_pt (a : Vec3 ℝ) (x : ℝ) : (g.mag.pt a).divRaw (g.len x) = a.divRaw x := by
  simp only [Vec3.divRaw, pt, mag, len, mul_div_mul_left _ _ g.abs_pos.ne']

theorem div_pt (a : Vec3 ℝ) (x : ℝ) : (g.mag.pt a).div? (g.len x) = a.div? x := by
  unfold Vec3.div?
  rw [divRaw_pt]
  have : Scalar.eq (g.len x) (Scalar.lit 0 1) = Scalar.eq x (Scalar.lit 0 1) := by
    show decide _ = decide _
    rw [R_lit0, decide_eq_decide, len_eq_zero]
  rw [this]

/-- The direction of a vector does not depend on the unit. -/
theorem pt_normalize (a : Vec3 ℝ) : (g.mag.pt a).normalize? = a.normalize? := by
  unfold Vec3.normalize?
  rw [length_mag, div_pt]

theorem pt_inj {a b : Vec3 ℝ} : g.pt a = g.pt b ↔ a = b := by
  constructor
  · intro h
    simp only [pt, Vec3.mk.injEq, mul_right_inj' g.ne] at h
    exact Vec3.ext' h.1 h.2.1 h.2.2
  · rintro rfl; rfl

theorem pt_eq (a b : Vec3 ℝ) : (g.pt a).eq (g.pt b) = a.eq b := by
  rw [Bool.eq_iff_iff, Vec3.R_veq, Vec3.R_veq, pt_inj]

theorem pt_mid (a b : Vec3 ℝ) : Vec3.smul (Scalar.lit 1 2) ((g.pt a).add (g.pt b)) = g.pt (Vec3.smul (Scalar.lit 1 2) (a.add b)) := by
  rw [pt_add, pt_smul]

/-! ### Geometric functions -/

theorem arg_area (y x : ℝ) : Complex.arg ⟨g.area x, g.area y⟩ = Complex.arg ⟨x, y⟩ := by
  have : (⟨g.area x, g.area y⟩ : ℂ) = ((g.s * g.s : ℝ) : ℂ) * ⟨x, y⟩ := by
    apply Complex.ext <;> simp [area]
  rw [this, Complex.arg_real_mul _ (mul_self_pos.2 g.ne)]

theorem dot_mag (a b : Vec3 ℝ) : (g.mag.pt a).dot (g.mag.pt b) = g.area (a.dot b) := by rw [dot_pt, area_mag]

theorem dihedral_pt (a b c d : Vec3 ℝ) : Vec3.dihedral (g.pt a) (g.pt b) (g.pt c) (g.pt d) = Vec3.dihedral a b c d := by
  simp only [Vec3.dihedral, pt_sub, cross_pt, length_mag, dot_mag]
  have e : ∀ x : ℝ, Scalar.eq (g.len (g.len x)) (Scalar.lit 0 1) = Scalar.eq x (Scalar.lit 0 1) := by
    intro x
    show decide _ = decide _
    rw [R_lit0, decide_eq_decide, len_eq_zero, len_eq_zero]
  rw [e, e]
  have q : ∀ x y z : ℝ, g.area (g.area x) / (g.len (g.len y) * g.len (g.len z)) = x / (y * z) := by
    intro x y z
    have h := g.ne
    have : g.area (g.area x) / (g.len (g.len y) * g.len (g.len z)) = ((g.s * g.s * (g.s * g.s)) * x) / ((g.s * g.s * (g.s * g.s)) * (y * z)) := by
      simp only [area, len_len]; congr 1 <;> ring
    rw [this, mul_div_mul_left]
    exact mul_ne_zero (mul_ne_zero h h) (mul_ne_zero h h)
  rw [q]

theorem angle_pt (a b c : Vec3 ℝ) : Vec3.angle (g.pt a) (g.pt b) (g.pt c) = Vec3.angle a b c := by
  simp only [Vec3.angle, pt_sub, cross_pt, length_mag, dot_pt, len_len]
  exact g.arg_area _ _

theorem cornerAngle_pt (a b c : Vec3 ℝ) : cornerAngle (g.pt a) (g.pt b) (g.pt c) = cornerAngle a b c := by
  simp only [cornerAngle, pt_sub, cross_pt, length_mag, dot_pt, len_len]
  exact g.arg_area _ _

theorem gaussW_pt (s : ℝ) (a b : Vec3 ℝ) : gaussW (g.len s) (g.pt a) (g.pt b) = gaussW s a b := by
  simp only [gaussW, pt_sub, length_pt, len, mul_div_mul_left _ _ g.abs_pos.ne']

/-- back to the old unit -/
noncomputable def inv : Zoom := ⟨|g.s|⁻¹, inv_ne_zero g.abs_pos.ne'⟩

theorem inv_normalize (a : Vec3 ℝ) : (g.inv.pt a).normalize? = a.normalize? := by
  have im : g.inv.mag = g.inv := by simp only [mag, inv, abs_inv, abs_abs]
  have := g.inv.pt_normalize a
  rwa [im] at this

theorem maxTerm_pt (a b c : Vec3 ℝ) : maxTerm (g.pt a) (g.pt b) (g.pt c) = (maxTerm a b c).map fun x => g.inv.pt (g.inv.pt x) := by
  simp only [maxTerm, pt_sub, cross_pt, length_pt]
  generalize ((b.sub a).cross (c.sub a)) = n
  generalize (b.sub a).length = x
  generalize (c.sub a).length = y
  have e : g.len x * g.len x * g.len y * g.len y = g.len (g.len (g.len (g.len (x * x * y * y)))) := by simp only [len]; ring
  rw [e, div_pt, div_pt]
  have i : ∀ z, z = g.inv.len (g.len z) := by
    intro z
    simp only [len, inv, abs_inv, abs_abs]
    field_simp [g.abs_pos.ne']
  have im : g.inv.mag = g.inv := by simp only [mag, inv, abs_inv, abs_abs]
  have h : (n.div? (x * x * y * y)).map (fun x => g.inv.pt (g.inv.pt x)) = (g.inv.pt (g.inv.pt n)).div? (x * x * y * y) := by
    rw [pt_div, pt_div, Option.map_map]; rfl
  rw [h]
  have dv : ∀ (n : Vec3 ℝ) (z : ℝ), (g.inv.pt n).div? (g.inv.len z) = n.div? z := fun n z => by
    have := g.inv.div_pt n z
    rwa [im] at this
  conv_rhs => rw [i (x * x * y * y), dv, i (g.len _), dv]

theorem areaLoop_pt (l : List (Vec3 ℝ)) : ∀ (a b : Vec3 ℝ) (s : ℝ),
    areaLoop (g.pt a) (g.pt b) (l.map g.pt) (g.area s) = g.area (areaLoop a b l s) := by
  induction l with
  | nil => intro a b s; rfl
  | cons c l ih =>
    intro a b s
    simp only [List.map_cons, areaLoop, pt_sub, cross_pt, length_mag, len_len]
    rw [← ih]
    congr 1
    simp only [area]; ring

theorem polyArea_pt (l : List (Vec3 ℝ)) : polyArea (l.map g.pt) = g.area (polyArea l) := by
  have z : (Scalar.lit 0 1 : ℝ) = g.area (Scalar.lit 0 1) := by rw [R_lit0, area_zero]
  match l with
  | [] => exact z
  | [_] => exact z
  | a :: b :: l =>
    refine Eq.trans ?_ (g.areaLoop_pt l a b _)
    rw [← z]; rfl

theorem getD_pt (l : List (Vec3 ℝ)) (i : Nat) (d : Vec3 ℝ) : (l.map g.pt).getD i (g.pt d) = g.pt (l.getD i d) := by
  simp [List.getD_eq_getElem?_getD, List.getElem?_map]

theorem getD_pt0 (l : List (Vec3 ℝ)) (i : Nat) : (l.map g.pt).getD i Vec3.zero = g.pt (l.getD i Vec3.zero) := by
  rw [← g.getD_pt, pt_zero]

theorem foldl_range_map {β γ : Type} (φ : β → γ) (n : Nat) (f : β → Nat → β) (f' : γ → Nat → γ) (h : ∀ i < n, ∀ b, f' (φ b) i = φ (f b i))
    (b : β) : (List.range n).foldl f' (φ b) = φ ((List.range n).foldl f b) := by
  induction n with
  | zero => rfl
  | succ n ih =>
    rw [List.range_succ, List.foldl_append, List.foldl_append, ih (fun i hi => h i (by omega))]
    exact h n (by omega) _

theorem minDihedral_pt (p : Vec3 ℝ) (l : List (Vec3 ℝ)) : minDihedral (g.pt p) (l.map g.pt) = minDihedral p l := by
  simp only [minDihedral, List.length_map]
  apply foldl_range_map id
  intro i hi b
  simp only [getD_pt, dihedral_pt, id]

theorem foldl_pt (f : Nat → Vec3 ℝ) (l : List Nat) : ∀ a, l.foldl (fun acc i => acc.add (g.mag.pt (g.mag.pt (f i)))) (g.mag.pt (g.mag.pt a)) =
    g.mag.pt (g.mag.pt (l.foldl (fun acc i => acc.add (f i)) a)) := by
  induction l with
  | nil => intro a; rfl
  | cons i l ih => intro a; simp only [List.foldl_cons, pt_add, ih]

theorem sumCross_pt (p : Vec3 ℝ) (l : List (Vec3 ℝ)) : sumCross (g.pt p) (l.map g.pt) = g.mag.pt (g.mag.pt (sumCross p l)) := by
  simp only [sumCross, List.length_map, getD_pt0, pt_sub, cross_pt]
  rw [← g.foldl_pt, pt_zero, pt_zero]

theorem dot_pt_right (a b : Vec3 ℝ) : a.dot (g.pt b) = g.s * a.dot b := by
  simp only [Vec3.dot, pt, R_lit0]; ring

theorem dot_mag_right (a b : Vec3 ℝ) : a.dot (g.mag.pt b) = g.len (a.dot b) := dot_pt_right _ _ _

theorem signLoop_pt (n p : Vec3 ℝ) (l : List (Vec3 ℝ)) : ∀ (k : Nat) (s : ℝ) (i : Nat),
    signLoop n (g.pt p) (l.map g.pt) k (g.area s) i = signLoop n p l k s i := by
  intro k
  induction k with
  | zero => intro s i; rfl
  | succ k ih =>
    intro s i
    simp only [signLoop, List.length_map, getD_pt0, pt_sub, cross_pt, dot_mag_right, len_len]
    rw [ih]
    have e : ∀ x y : ℝ, Scalar.lt (g.area x * g.area y) (Scalar.lit 0 1) = Scalar.lt (x * y) (Scalar.lit 0 1) := by
      intro x y
      show decide _ = decide _
      rw [decide_eq_decide, R_lit0]
      have : g.area x * g.area y = g.area (g.area (x * y)) := by simp only [area]; ring
      have h := g.area_lt (x := x * y) (y := 0)
      have h' := g.area_lt (x := g.area (x * y)) (y := 0)
      rw [area_zero] at h h'
      rw [this, h', h]
    rw [e]

theorem collapseGeomOK_pt (a b : Vec3 ℝ) (l : List (Vec3 ℝ)) :
    collapseGeomOK (g.pt a) (g.pt b) (l.map g.pt) = collapseGeomOK a b l := by
  have e : ∀ x : ℝ, Scalar.eq (g.len (g.len x)) (Scalar.lit 0 1) = Scalar.eq x (Scalar.lit 0 1) := by
    intro x
    show decide _ = decide _
    rw [R_lit0, decide_eq_decide, len_eq_zero, len_eq_zero]
  simp only [collapseGeomOK, sumCross_pt, length_mag, pt_normalize, List.length_map, e]
  split
  · rfl
  · cases (sumCross b l).normalize? with
    | none => rfl
    | some n =>
      have z : (Scalar.lit 0 1 : ℝ) = g.area (Scalar.lit 0 1) := by rw [R_lit0, area_zero]
      dsimp only
      conv_lhs => rw [z]
      rw [g.signLoop_pt]

end Zoom
end TinyMesh
