import Verif.Proof.FillH
/-
The table for a face with four sides.
-/
set_option linter.unusedSimpArgs false
namespace TinyMesh
open Orbit
variable {F : Type} [ScalarX F] {m : Mesh F}

omit [ScalarX F] in
theorem foldAll_one {α β : Type} {body : α → β → M F β} {a : α} {b c : β} (h : body a b m = .ok c m) :
    foldAll body [a] b m = .ok c m := by
  simp only [foldAll]
  rw [bind_apply, h]
  rfl

omit [ScalarX F] in
theorem foldAll_two {α β : Type} {body : α → β → M F β} {a a' : α} {b c d : β} (h : body a b m = .ok c m) (h' : body a' c m = .ok d m) :
    foldAll body [a, a'] b m = .ok d m := by
  simp only [foldAll]
  rw [bind_apply, h]
  dsimp only
  rw [bind_apply, h']
  rfl

omit [ScalarX F] in
theorem foldAll_three {α β : Type} {body : α → β → M F β} {a a' a'' : α} {b c d e : β} (h : body a b m = .ok c m)
    (h' : body a' c m = .ok d m) (h'' : body a'' d m = .ok e m) : foldAll body [a, a', a''] b m = .ok e m := by
  simp only [foldAll]
  rw [bind_apply, h]
  exact foldAll_two h' h''

theorem initStep_eval {bs : List Nat} {s : HeMaps} {i : Nat} {t : FillTab F} {v0 v1 v2 q0 q1 : Vec3 F} (hi : i + 2 < bs.length)
    (h0 : boundaryPos bs i m = .ok v0 m) (h1 : boundaryPos bs (i + 1) m = .ok v1 m) (h2 : boundaryPos bs (i + 2) m = .ok v2 m)
    (k0 : oppositePos (s.he i (i + 1)) m = .ok q0 m) (k1 : oppositePos (s.he (i + 1) (i + 2)) m = .ok q1 m) :
    fillInitStep bs s i t m = .ok ⟨put2 (put2 t.area i (i + 1) (Scalar.lit 0 1)) i (i + 2) (fillArea v0 v1 v2),
      put2 (put2 t.angle i (i + 1) (Scalar.lit 0 1)) i (i + 2) (fillAngle v0 v1 v2 q0 q1),
      put2 (put2 t.o i (i + 1) none) i (i + 2) (some (i + 1))⟩ m := by
  unfold fillInitStep
  dsimp only
  rw [if_pos hi, bind_apply, h0]
  dsimp only
  rw [bind_apply, h1]
  dsimp only
  rw [bind_apply, h2]
  dsimp only
  rw [bind_apply, k0]
  dsimp only
  rw [bind_apply, k1]
  rfl

theorem initStep_last {bs : List Nat} {s : HeMaps} {i : Nat} {t : FillTab F} (hi : ¬ i + 2 < bs.length) :
    fillInitStep bs s i t m = .ok ⟨put2 t.area i (i + 1) (Scalar.lit 0 1), put2 t.angle i (i + 1) (Scalar.lit 0 1),
      put2 t.o i (i + 1) none⟩ m := by
  unfold fillInitStep
  dsimp only
  rw [if_neg hi]
  rfl

theorem fillStep_eval {bs : List Nat} {s : HeMaps} {bound : F} {i k c : Nat} {t : FillTab F} {v0 v1 v2 q0 q1 : Vec3 F}
    (h0 : boundaryPos bs i m = .ok v0 m) (h1 : boundaryPos bs c m = .ok v1 m) (h2 : boundaryPos bs k m = .ok v2 m)
    (k0 : fillOpposite bs s t i c m = .ok q0 m) (k1 : fillOpposite bs s t c k m = .ok q1 m) :
    fillStep bs s bound i k c t m =
      (if Scalar.lt (fmax (fillAngle v0 v1 v2 q0 q1) (fmax (t.angle i c) (t.angle c k))) (t.angle i k) ||
          (Scalar.lt (ScalarX.abs (fmax (fillAngle v0 v1 v2 q0 q1) (fmax (t.angle i c) (t.angle c k)) - t.angle i k)) bound &&
            Scalar.lt (t.area i c + t.area c k + fillArea v0 v1 v2) (t.area i k)) then
        .ok ⟨put2 t.area i k (t.area i c + t.area c k + fillArea v0 v1 v2),
          put2 t.angle i k (fmax (fillAngle v0 v1 v2 q0 q1) (fmax (t.angle i c) (t.angle c k))), put2 t.o i k (some c)⟩ m
      else .ok t m) := by
  unfold fillStep
  rw [bind_apply, h0]
  dsimp only
  rw [bind_apply, h1]
  dsimp only
  rw [bind_apply, h2]
  dsimp only
  rw [bind_apply, k0]
  dsimp only
  rw [bind_apply, k1]
  dsimp only
  split <;> rfl

theorem fillStep_keep {bs : List Nat} {s : HeMaps} {bound : F} {i k c : Nat} {t : FillTab F} {v0 v1 v2 q0 q1 : Vec3 F}
    (h0 : boundaryPos bs i m = .ok v0 m) (h1 : boundaryPos bs c m = .ok v1 m) (h2 : boundaryPos bs k m = .ok v2 m)
    (k0 : fillOpposite bs s t i c m = .ok q0 m) (k1 : fillOpposite bs s t c k m = .ok q1 m)
    (a : Scalar.lt (fmax (fillAngle v0 v1 v2 q0 q1) (fmax (t.angle i c) (t.angle c k))) (t.angle i k) = false)
    (b : Scalar.lt (t.area i c + t.area c k + fillArea v0 v1 v2) (t.area i k) = false) :
    fillStep bs s bound i k c t m = .ok t m := by
  rw [fillStep_eval h0 h1 h2 k0 k1, a, b, Bool.and_false, Bool.or_false]
  rfl

/-- the table for four corners at `v`, with the corners `q` opposite to the first three sides: if the second candidate is not better than
the first one, the first one is chosen -/
theorem fillTable_four {bs : List Nat} {s : HeMaps} {bound : F} {v q : Nat → Vec3 F} (hl : bs.length = 4)
    (hv : ∀ i, i < 4 → boundaryPos bs i m = .ok (v i) m) (hq : ∀ i, i < 3 → oppositePos (s.he i (i + 1)) m = .ok (q i) m)
    {z a1 a2 r1 r2 : F} (hz : z = Scalar.lit 0 1)
    (e1 : a1 = fmax (fillAngle (v 0) (v 1) (v 3) (q 0) (v 2)) (fmax z (fillAngle (v 1) (v 2) (v 3) (q 1) (q 2))))
    (e2 : a2 = fmax (fillAngle (v 0) (v 2) (v 3) (v 1) (q 2)) (fmax (fillAngle (v 0) (v 1) (v 2) (q 0) (q 1)) z))
    (f1 : r1 = z + fillArea (v 1) (v 2) (v 3) + fillArea (v 0) (v 1) (v 3))
    (f2 : r2 = fillArea (v 0) (v 1) (v 2) + z + fillArea (v 0) (v 2) (v 3))
    (h1 : Scalar.lt a1 (Scalar.lit (10 ^ 12) 1) = true) (h2 : Scalar.lt a2 a1 = false) (h3 : Scalar.lt r2 r1 = false) :
    ∃ t : FillTab F, fillTable bs s bound m = .ok t m ∧ t.o 0 3 = some 1 ∧ t.o 1 3 = some 2 := by
  have b0 := hv 0 (by decide)
  have b1 := hv 1 (by decide)
  have b2 := hv 2 (by decide)
  have b3 := hv 3 (by decide)
  have q0 := hq 0 (by decide)
  have q1 := hq 1 (by decide)
  have q2 := hq 2 (by decide)
  subst hz
  obtain ⟨t, ht, x1, x2, x3, x4, y1, y2, y3, y4, o1, o2, w1⟩ : ∃ t : FillTab F,
      foldAll (fillInitStep bs s) (List.range (bs.length - 1)) FillTab.init m = .ok t m ∧
      t.angle 0 1 = Scalar.lit 0 1 ∧ t.angle 2 3 = Scalar.lit 0 1 ∧ t.angle 0 2 = fillAngle (v 0) (v 1) (v 2) (q 0) (q 1) ∧
      t.angle 1 3 = fillAngle (v 1) (v 2) (v 3) (q 1) (q 2) ∧
      t.area 0 1 = Scalar.lit 0 1 ∧ t.area 2 3 = Scalar.lit 0 1 ∧ t.area 0 2 = fillArea (v 0) (v 1) (v 2) ∧
      t.area 1 3 = fillArea (v 1) (v 2) (v 3) ∧ t.o 0 2 = some 1 ∧ t.o 1 3 = some 2 ∧ t.angle 0 3 = Scalar.lit (10 ^ 12) 1 := by
    rw [hl]
    show ∃ t, foldAll (fillInitStep bs s) [0, 1, 2] FillTab.init m = _ ∧ _
    refine ⟨_, foldAll_three (initStep_eval (by rw [hl]; decide) b0 b1 b2 q0 q1) (initStep_eval (by rw [hl]; decide) b1 b2 b3 q1 q2)
      (initStep_last (by rw [hl]; decide)), ?_⟩
    simp [put2, FillTab.init]
  have p1 : fillOpposite bs s t 0 1 m = .ok (q 0) m := by
    unfold fillOpposite; rw [if_pos rfl]; exact q0
  have p2 : fillOpposite bs s t 1 3 m = .ok (v 2) m := by
    unfold fillOpposite; rw [if_neg (by decide), o2]; exact b2
  have st1 := fillStep_eval (bound := bound) b0 b1 b3 p1 p2
  rw [x1, x4, ← e1, w1, h1, Bool.true_or, if_pos rfl, y1, y4, ← f1] at st1
  have p3 : ∀ t' : FillTab F, t'.o = put2 t.o 0 3 (some 1) → fillOpposite bs s t' 0 2 m = .ok (v 1) m := by
    intro t' e
    unfold fillOpposite; rw [if_neg (by decide), e, put2_ne _ _ (by decide), o1]; exact b1
  have p4 : ∀ t', fillOpposite bs s t' 2 3 m = .ok (q 2) m := by
    intro t'
    unfold fillOpposite; rw [if_pos rfl]; exact q2
  have st2 := fillStep_keep (bound := bound) (t := ⟨put2 t.area 0 3 r1, put2 t.angle 0 3 a1, put2 t.o 0 3 (some 1)⟩)
    b0 b2 b3 (p3 _ rfl) (p4 _) (by
      dsimp only
      rw [put2_same, put2_ne _ _ (by decide : ¬ ((0:Nat) = 0 ∧ 2 = 3)), put2_ne _ _ (by decide : ¬ ((2:Nat) = 0 ∧ 3 = 3)), x2, x3, ← e2, h2])
    (by
      dsimp only
      rw [put2_same, put2_ne _ _ (by decide : ¬ ((0:Nat) = 0 ∧ 2 = 3)), put2_ne _ _ (by decide : ¬ ((2:Nat) = 0 ∧ 3 = 3)), y2, y3, ← f2, h3])
  refine ⟨⟨put2 t.area 0 3 r1, put2 t.angle 0 3 a1, put2 t.o 0 3 (some 1)⟩, ?_, put2_same t.o 0 3 (some 1), ?_⟩
  · unfold fillTable
    rw [bind_apply, ht, hl]
    exact foldAll_one (by
      unfold fillRow
      rw [hl]
      exact foldAll_one (foldAll_two st1 st2))
  · dsimp only
    rw [put2_ne _ _ (by decide), o2]

/-- the run after the table has been computed -/
theorem holeFill_of_table {bound : F} (w : m.WF) {f : Nat} (af : m.fAlive f = true) {hs : List Nat} (eh : orbit m.hNext (m.fHe f) = hs)
    {t : FillTab F} {tris : List Tri3} (h : fillTable (hs.map m.hSrc) (startMaps hs) bound m = .ok t m)
    (ht : fillTris t.o (hs.length + 1) [(0, hs.length - 1)] [] = .ok tris) (p : Poly hs.length tris) :
    ∃ m' He, holeFillMinDihedral f bound m = .ok () m' ∧ Patched m m' f hs tris He := by
  subst eh
  obtain ⟨m', He, r, P⟩ := patch_ok w af p
  refine ⟨m', He, ?_, P⟩
  unfold holeFillMinDihedral
  rw [bind_apply, w.faceVerts_ok af]
  dsimp only
  rw [bind_apply, w.faceList_ok af]
  dsimp only
  rw [List.length_map]
  change (fillTable _ (startMaps _) bound >>= _) m = _
  rw [bind_apply, h]
  dsimp only
  rw [ht]
  exact r

/-! ### Exact values -/

theorem X_lt_false {x y : ℝ} (h : y ≤ x) : Scalar.lt (XR.fin x) (XR.fin y) = false := by
  rw [X_lt, Bool.eq_false_iff, ne_eq, R_lt]
  exact not_lt.2 h

theorem X_fmax_max (x y : ℝ) : fmax (XR.fin x) (XR.fin y) = XR.fin (max x y) := by rw [X_fmax, R_fmax]

theorem X_zero : (Scalar.lit 0 1 : XR) = .fin 0 := by
  rw [show (Scalar.lit 0 1 : XR) = .fin (Scalar.lit 0 1 : ℝ) from rfl, R_lit]; norm_num

theorem fillAngle_fin (a b c d e : Vec3 ℝ) : ∃ r : ℝ, fillAngle a.fin b.fin c.fin d.fin e.fin = .fin r ∧ r ≤ Real.pi ∧
    (triNormal a.E b.E c.E = triNormal e.E b.E c.E → Real.pi ≤ r) := by
  have dh : ∀ a b c d : Vec3 ℝ, ∃ r : ℝ, Vec3.dihedral a.fin b.fin c.fin d.fin = .fin r ∧ 0 ≤ r ∧
      (triNormal a.E b.E c.E = triNormal d.E b.E c.E → r = 0) := by
    intro a b c d
    refine ⟨_, dihedral_ok a b c d, ?_, ?_⟩
    · split
      · exact le_refl _
      · exact InnerProductGeometry.angle_nonneg _ _
    · intro h
      split
      · rfl
      · next h0 =>
        push Not at h0
        rw [h]
        exact InnerProductGeometry.angle_self h0.2
  obtain ⟨r, h1, h2, -⟩ := dh c a b d
  obtain ⟨q, h3, h4, h5⟩ := dh a b c e
  refine ⟨max (Real.pi - r) (Real.pi - q), ?_, max_le (by linarith) (by linarith), ?_⟩
  · unfold fillAngle
    rw [h1, h3, ← R_fmax, ← X_fmax]
    rfl
  · intro h
    rw [h5 h]
    exact le_max_of_le_right (by linarith)

theorem fillArea_fin (a b c : Vec3 ℝ) (h : ((b.sub a).cross (c.sub a)).dot ((b.sub a).cross (c.sub a)) = 1) :
    fillArea a.fin b.fin c.fin = .fin (Scalar.lit 1 2 : ℝ) := by
  unfold fillArea
  rw [Vec3.X_vsub, Vec3.X_vsub, Vec3.X_vcross, Vec3.X_vlength, Vec3.length_def, h, Real.sqrt_one]
  show XR.fin ((Scalar.lit 1 2 : ℝ) * 1) = _
  rw [mul_one]

end TinyMesh
