import Verif.Spec.Motion
import Verif.Proof.RealA
import Verif.Model.Operators
import Verif.Model.Curv
import Verif.Model.Simplify
/-
Rigid motions and the operations on vectors.
-/
namespace TinyMesh
namespace Motion
variable (g : Motion)

theorem w_unit : g.w.x * g.w.x + g.w.y * g.w.y + g.w.z * g.w.z = 1 := by
  have h1 := g.u_unit
  have h2 := g.v_unit
  have h3 := g.orth
  simp only [w]
  linear_combination (g.v.x * g.v.x + g.v.y * g.v.y + g.v.z * g.v.z) * h1 + h2 -
    (g.u.x * g.v.x + g.u.y * g.v.y + g.u.z * g.v.z) * h3

theorem uw : g.u.x * g.w.x + g.u.y * g.w.y + g.u.z * g.w.z = 0 := by simp only [w]; ring
theorem vw : g.v.x * g.w.x + g.v.y * g.w.y + g.v.z * g.w.z = 0 := by simp only [w]; ring

theorem dot_vec (a b : Vec3 ℝ) : (g.vec a).dot (g.vec b) = a.dot b := by
  have h1 := g.u_unit
  have h2 := g.v_unit
  have h3 := g.orth
  have h4 := g.w_unit
  have h5 := g.uw
  have h6 := g.vw
  simp only [Vec3.dot, vec, R_lit0]
  linear_combination (a.x * b.x) * h1 + (a.y * b.y) * h2 + (a.z * b.z) * h4 + (a.x * b.y + a.y * b.x) * h3 +
    (a.x * b.z + a.z * b.x) * h5 + (a.y * b.z + a.z * b.y) * h6

theorem vw_cross : g.v.y * g.w.z - g.v.z * g.w.y = g.u.x ∧ g.v.z * g.w.x - g.v.x * g.w.z = g.u.y ∧
    g.v.x * g.w.y - g.v.y * g.w.x = g.u.z := by
  have h2 := g.v_unit
  have h3 := g.orth
  simp only [w]
  refine ⟨?_, ?_, ?_⟩
  · linear_combination g.u.x * h2 - g.v.x * h3
  · linear_combination g.u.y * h2 - g.v.y * h3
  · linear_combination g.u.z * h2 - g.v.z * h3

theorem wu_cross : g.w.y * g.u.z - g.w.z * g.u.y = g.v.x ∧ g.w.z * g.u.x - g.w.x * g.u.z = g.v.y ∧
    g.w.x * g.u.y - g.w.y * g.u.x = g.v.z := by
  have h1 := g.u_unit
  have h3 := g.orth
  simp only [w]
  refine ⟨?_, ?_, ?_⟩
  · linear_combination g.v.x * h1 - g.u.x * h3
  · linear_combination g.v.y * h1 - g.u.y * h3
  · linear_combination g.v.z * h1 - g.u.z * h3

theorem cross_vec (a b : Vec3 ℝ) : (g.vec a).cross (g.vec b) = g.vec (a.cross b) := by
  obtain ⟨p1, p2, p3⟩ := g.vw_cross
  obtain ⟨q1, q2, q3⟩ := g.wu_cross
  have r1 : g.u.y * g.v.z - g.u.z * g.v.y = g.w.x := rfl
  have r2 : g.u.z * g.v.x - g.u.x * g.v.z = g.w.y := rfl
  have r3 : g.u.x * g.v.y - g.u.y * g.v.x = g.w.z := rfl
  simp only [Vec3.cross, vec]
  refine Vec3.ext' ?_ ?_ ?_
  · linear_combination (a.y * b.z - a.z * b.y) * p1 + (a.z * b.x - a.x * b.z) * q1 + (a.x * b.y - a.y * b.x) * r1
  · linear_combination (a.y * b.z - a.z * b.y) * p2 + (a.z * b.x - a.x * b.z) * q2 + (a.x * b.y - a.y * b.x) * r2
  · linear_combination (a.y * b.z - a.z * b.y) * p3 + (a.z * b.x - a.x * b.z) * q3 + (a.x * b.y - a.y * b.x) * r3

theorem vec_zero : g.vec Vec3.zero = Vec3.zero := by
  simp only [Vec3.zero, vec, R_lit0]
  refine Vec3.ext' ?_ ?_ ?_ <;> ring

theorem vec_add (a b : Vec3 ℝ) : (g.vec a).add (g.vec b) = g.vec (a.add b) := by
  simp only [Vec3.add, vec]
  refine Vec3.ext' ?_ ?_ ?_ <;> ring

theorem vec_neg (a : Vec3 ℝ) : (g.vec a).neg = g.vec a.neg := by
  simp only [Vec3.neg, vec]
  refine Vec3.ext' ?_ ?_ ?_ <;> ring

theorem vec_sub (a b : Vec3 ℝ) : (g.vec a).sub (g.vec b) = g.vec (a.sub b) := by
  simp only [Vec3.sub, vec_add, vec_neg]

theorem vec_smul (s : ℝ) (a : Vec3 ℝ) : (g.vec a).smul s = g.vec (a.smul s) := by
  simp only [Vec3.smul, vec]
  refine Vec3.ext' ?_ ?_ ?_ <;> ring

theorem vec_divRaw (s : ℝ) (a : Vec3 ℝ) : (g.vec a).divRaw s = g.vec (a.divRaw s) := by
  simp only [Vec3.divRaw, vec]
  refine Vec3.ext' ?_ ?_ ?_ <;> ring

theorem vec_div (s : ℝ) (a : Vec3 ℝ) : (g.vec a).div? s = (a.div? s).map g.vec := by
  unfold Vec3.div?
  split
  · rfl
  · simp [vec_divRaw]

theorem length_vec (a : Vec3 ℝ) : (g.vec a).length = a.length := by simp only [Vec3.length, dot_vec]

theorem vec_normalize (a : Vec3 ℝ) : (g.vec a).normalize? = a.normalize?.map g.vec := by
  simp only [Vec3.normalize?, length_vec, vec_div]

theorem pt_sub (a b : Vec3 ℝ) : (g.pt a).sub (g.pt b) = g.vec (a.sub b) := by
  simp only [Vec3.sub, Vec3.add, Vec3.neg, vec, pt]
  refine Vec3.ext' ?_ ?_ ?_ <;> ring

theorem pt_add_vec (a b : Vec3 ℝ) : (g.pt a).add (g.vec b) = g.pt (a.add b) := by
  simp only [Vec3.add, vec, pt]
  refine Vec3.ext' ?_ ?_ ?_ <;> ring

theorem pt_sub_vec (a b : Vec3 ℝ) : (g.pt a).sub (g.vec b) = g.pt (a.sub b) := by
  simp only [Vec3.sub, vec_neg, pt_add_vec]

theorem vec_inj {a b : Vec3 ℝ} (h : g.vec a = g.vec b) : a = b := by
  have h1 : (a.sub b).length = 0 := by
    rw [← g.length_vec, ← g.vec_sub, h]
    simp [Vec3.length, Vec3.dot, Vec3.sub, Vec3.add, Vec3.neg, R_lit0, R_sqrt]
  rw [Vec3.length_eq_zero] at h1
  have hx := congrArg Vec3.x h1
  have hy := congrArg Vec3.y h1
  have hz := congrArg Vec3.z h1
  simp only [Vec3.sub, Vec3.add, Vec3.neg] at hx hy hz
  exact Vec3.ext' (by linarith) (by linarith) (by linarith)

theorem pt_inj {a b : Vec3 ℝ} : g.pt a = g.pt b ↔ a = b := by
  constructor
  · intro h
    apply g.vec_inj
    have hx := congrArg Vec3.x h
    have hy := congrArg Vec3.y h
    have hz := congrArg Vec3.z h
    simp only [pt] at hx hy hz
    exact Vec3.ext' (by linarith) (by linarith) (by linarith)
  · rintro rfl; rfl

theorem pt_eq (a b : Vec3 ℝ) : (g.pt a).eq (g.pt b) = a.eq b := by
  rw [Bool.eq_iff_iff, Vec3.R_veq, Vec3.R_veq, pt_inj]

theorem pt_mid (a b : Vec3 ℝ) : Vec3.smul (Scalar.lit 1 2) ((g.pt a).add (g.pt b)) = g.pt (Vec3.smul (Scalar.lit 1 2) (a.add b)) := by
  simp only [Vec3.smul, Vec3.add, vec, pt, R_lit]
  refine Vec3.ext' ?_ ?_ ?_ <;> push_cast <;> ring

theorem finite_pt (a : Vec3 ℝ) : a.finite = true := rfl

/-! ### Geometric functions -/

theorem dihedral_pt (a b c d : Vec3 ℝ) : Vec3.dihedral (g.pt a) (g.pt b) (g.pt c) (g.pt d) = Vec3.dihedral a b c d := by
  simp only [Vec3.dihedral, pt_sub, cross_vec, length_vec, dot_vec]

theorem angle_pt (a b c : Vec3 ℝ) : Vec3.angle (g.pt a) (g.pt b) (g.pt c) = Vec3.angle a b c := by
  simp only [Vec3.angle, pt_sub, cross_vec, length_vec, dot_vec]

theorem cot_pt (a b c : Vec3 ℝ) : Vec3.cot (g.pt a) (g.pt b) (g.pt c) = Vec3.cot a b c := by
  simp only [Vec3.cot, pt_sub, cross_vec, length_vec, dot_vec]

theorem obtuse_pt (a b c : Vec3 ℝ) : Vec3.obtuse (g.pt a) (g.pt b) (g.pt c) = Vec3.obtuse a b c := by
  simp only [Vec3.obtuse, pt_sub, length_vec]

theorem vorCorner_pt (a b c : Vec3 ℝ) : vorCorner (g.pt a) (g.pt b) (g.pt c) = vorCorner a b c := by
  simp only [vorCorner, obtuse_pt, cot_pt, pt_sub, cross_vec, length_vec, dot_vec]

theorem cornerAngle_pt (a b c : Vec3 ℝ) : cornerAngle (g.pt a) (g.pt b) (g.pt c) = cornerAngle a b c := by
  simp only [cornerAngle, pt_sub, cross_vec, length_vec, dot_vec]

theorem cotW_pt (a b c d : Vec3 ℝ) : cotW (g.pt a) (g.pt b) (g.pt c) (g.pt d) = cotW a b c d := by
  simp only [cotW, pt_sub, cross_vec, length_vec, dot_vec]

theorem belkinW_pt (s : ℝ) (a b : Vec3 ℝ) : belkinW s (g.pt a) (g.pt b) = belkinW s a b := by
  simp only [belkinW, pt_sub, length_vec]

theorem gaussW_pt (s : ℝ) (a b : Vec3 ℝ) : gaussW s (g.pt a) (g.pt b) = gaussW s a b := by
  simp only [gaussW, pt_sub, length_vec]

theorem maxTerm_pt (a b c : Vec3 ℝ) : maxTerm (g.pt a) (g.pt b) (g.pt c) = (maxTerm a b c).map g.vec := by
  simp only [maxTerm, pt_sub, cross_vec, length_vec, vec_div]

theorem areaLoop_pt (l : List (Vec3 ℝ)) : ∀ (a b : Vec3 ℝ) (s : ℝ),
    areaLoop (g.pt a) (g.pt b) (l.map g.pt) s = areaLoop a b l s := by
  induction l with
  | nil => intro a b s; rfl
  | cons c l ih =>
    intro a b s
    simp only [List.map_cons, areaLoop, pt_sub, cross_vec, length_vec, ih]

theorem polyArea_pt (l : List (Vec3 ℝ)) : polyArea (l.map g.pt) = polyArea l := by
  match l with
  | [] => rfl
  | [_] => rfl
  | a :: b :: l => exact g.areaLoop_pt l a b _

theorem getD_pt (l : List (Vec3 ℝ)) (i : Nat) (d : Vec3 ℝ) : (l.map g.pt).getD i (g.pt d) = g.pt (l.getD i d) := by
  simp [List.getD_eq_getElem?_getD, List.getElem?_map]

theorem getD_pt_lt {l : List (Vec3 ℝ)} {i : Nat} (h : i < l.length) (d d' : Vec3 ℝ) : (l.map g.pt).getD i d' = g.pt (l.getD i d) := by
  simp [List.getD_eq_getElem?_getD, List.getElem?_map, List.getElem?_eq_getElem h]

theorem foldl_range_congr {β : Type} (n : Nat) (f f' : β → Nat → β) (h : ∀ i < n, ∀ b, f b i = f' b i) (b : β) :
    (List.range n).foldl f b = (List.range n).foldl f' b := by
  apply List.foldl_ext
  intro b i hi
  exact h i (List.mem_range.1 hi) b

theorem foldl_range_map {β γ : Type} (φ : β → γ) (n : Nat) (f : β → Nat → β) (f' : γ → Nat → γ) (h : ∀ i < n, ∀ b, f' (φ b) i = φ (f b i))
    (b : β) : (List.range n).foldl f' (φ b) = φ ((List.range n).foldl f b) := by
  induction n with
  | zero => rfl
  | succ n ih =>
    rw [List.range_succ, List.foldl_append, List.foldl_append, ih (fun i hi => h i (by omega))]
    exact h n (by omega) _

theorem sumPairs_pt (f f' : Vec3 ℝ → Vec3 ℝ → ℝ) (h : ∀ a b, f' (g.pt a) (g.pt b) = f a b) (l : List (Vec3 ℝ)) :
    sumPairs f' (l.map g.pt) = sumPairs f l := by
  simp only [sumPairs, List.length_map]
  apply foldl_range_congr
  intro i hi b
  rw [g.getD_pt_lt hi Vec3.zero, g.getD_pt_lt (Nat.mod_lt _ (by omega)) Vec3.zero, h]

theorem ringLaplace_pt (p : Vec3 ℝ) (l : List (Vec3 ℝ)) : ringLaplace (g.pt p) (l.map g.pt) = g.vec (ringLaplace p l) := by
  simp only [ringLaplace, List.length_map]
  conv_lhs => rw [← g.vec_zero]
  apply foldl_range_map
  intro i hi b
  have hl : 0 < l.length := by omega
  rw [g.getD_pt_lt hi Vec3.zero, g.getD_pt_lt (Nat.mod_lt (i + 1) hl) Vec3.zero,
    g.getD_pt_lt (Nat.mod_lt (i + l.length - 1) hl) Vec3.zero]
  simp only [cot_pt, pt_sub, vec_smul, vec_add]

theorem minDihedral_pt (p : Vec3 ℝ) (l : List (Vec3 ℝ)) : minDihedral (g.pt p) (l.map g.pt) = minDihedral p l := by
  simp only [minDihedral, List.length_map]
  apply foldl_range_congr
  intro i hi b
  simp only [getD_pt, dihedral_pt]

theorem sumCross_pt (p : Vec3 ℝ) (l : List (Vec3 ℝ)) : sumCross (g.pt p) (l.map g.pt) = g.vec (sumCross p l) := by
  simp only [sumCross, List.length_map]
  conv_lhs => rw [← g.vec_zero]
  apply foldl_range_map
  intro i hi b
  have hl : 0 < l.length := by omega
  rw [g.getD_pt_lt hi Vec3.zero, g.getD_pt_lt (Nat.mod_lt (i + 1) hl) Vec3.zero]
  simp only [pt_sub, cross_vec, vec_add]

theorem signLoop_pt (n p : Vec3 ℝ) (l : List (Vec3 ℝ)) : ∀ (k : Nat) (s : ℝ) (i : Nat), i + k ≤ l.length →
    signLoop (g.vec n) (g.pt p) (l.map g.pt) k s i = signLoop n p l k s i := by
  intro k
  induction k with
  | zero => intro s i _; rfl
  | succ k ih =>
    intro s i hi
    have hl : 0 < l.length := by omega
    have hi' : i < l.length := by omega
    simp only [signLoop, List.length_map]
    rw [g.getD_pt_lt hi' Vec3.zero, g.getD_pt_lt (Nat.mod_lt (i + 1) hl) Vec3.zero]
    simp only [pt_sub, cross_vec, dot_vec]
    rw [ih _ _ (by omega)]

theorem collapseGeomOK_pt (a b : Vec3 ℝ) (l : List (Vec3 ℝ)) :
    collapseGeomOK (g.pt a) (g.pt b) (l.map g.pt) = collapseGeomOK a b l := by
  simp only [collapseGeomOK, sumCross_pt, length_vec, vec_normalize, List.length_map]
  split
  · rfl
  · cases (sumCross b l).normalize? with
    | none => rfl
    | some n => simp only [Option.map_some, g.signLoop_pt n a l l.length _ 0 (by omega)]

end Motion
end TinyMesh
