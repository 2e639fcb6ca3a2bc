import Verif.Proof.SettleD
import Verif.Proof.FeatB
/-
The faces and the rotations.
-/
namespace TinyMesh
open Orbit

/-! ### The faces inside -/
section
variable {F : Type} [ScalarX F] {m : Mesh F}

theorem foldPure_keeps {β : Type} {g : Nat → β → Bool × β} {b : β} : ∀ {l : List Nat}, (∀ x ∈ l, g x b = (false, b)) → foldPure g l b = b
  | [], _ => rfl
  | x :: l, h => by
    unfold foldPure
    rw [h x (by simp)]
    exact foldPure_keeps fun y hy => h y (by simp [hy])

/-- a face is inside if it is locked or has only vertices of the list -/
theorem faceInside_true (w : m.WF) {vs : List Nat} {f : Nat} (a : m.fAlive f = true)
    (k : (∀ h, m.hAlive h = true → m.hFace h = f → m.hSrc h ∈ vs) ∨ ∃ h, m.hAlive h = true ∧ m.hFace h = f ∧ m.vLock (m.hSrc h) = true) :
    faceInside vs f m = .ok true m := by
  have L := w.faceLoop a
  unfold faceInside
  rw [bind_apply, getFHe_ok a]; dsimp only
  rw [w.circ_face a (fun x _ => if vs.contains (m.hSrc x) then (false, true) else
      (!((orbit m.hNext (m.fHe f)).any fun x => m.vLock (m.hSrc x)), (orbit m.hNext (m.fHe f)).any fun x => m.vLock (m.hSrc x))) (fun x hx b => by
    rw [bind_apply, getSrc_ok hx]; dsimp only
    split
    · rfl
    · rw [bind_apply, w.fIsLocked_ok a]; rfl)]
  congr 1
  refine foldPure_keeps fun x hx => ?_
  rcases k with k | ⟨h, ah, fh, lh⟩
  · rw [if_pos (by simpa using k x ((L.mem x).1 hx).1 ((L.mem x).1 hx).2)]
  · have : ((orbit m.hNext (m.fHe f)).any fun x => m.vLock (m.hSrc x)) = true := List.any_eq_true.2 ⟨h, (L.mem h).2 ⟨ah, fh⟩, lh⟩
    rw [this]
    split <;> rfl

theorem foldPure_faces (g : Nat → Nat) : ∀ (l : List Nat) (fs : List Nat),
    ∀ f, f ∈ foldPure (fun x fs => (false, if true && !(fs.contains (g x)) then fs ++ [g x] else fs)) l fs ↔ f ∈ fs ∨ ∃ x ∈ l, g x = f
  | [], fs, f => by simp [foldPure]
  | x :: l, fs, f => by
    unfold foldPure
    dsimp only
    rw [if_neg (by simp), foldPure_faces g l]
    by_cases c : g x ∈ fs
    · rw [if_neg (by simpa using c)]
      constructor
      · rintro (h | ⟨y, hy, e⟩)
        · exact .inl h
        · exact .inr ⟨y, by simp [hy], e⟩
      · rintro (h | ⟨y, hy, e⟩)
        · exact .inl h
        · rcases List.mem_cons.1 hy with rfl | hy
          · exact .inl (e ▸ c)
          · exact .inr ⟨y, hy, e⟩
    · rw [if_pos (by simpa using c)]
      constructor
      · rintro (h | ⟨y, hy, e⟩)
        · rcases List.mem_append.1 h with h | h
          · exact .inl h
          · exact .inr ⟨x, by simp, (List.mem_singleton.1 h).symm⟩
        · exact .inr ⟨y, by simp [hy], e⟩
      · rintro (h | ⟨y, hy, e⟩)
        · exact .inl (by simp [h])
        · rcases List.mem_cons.1 hy with rfl | hy
          · exact .inl (by simp [e])
          · exact .inr ⟨y, hy, e⟩

/-- the faces around a vertex, all of which are inside -/
theorem facesAt_ok (w : m.WF) {vs : List Nat} {v : Nat} (a : m.vAlive v = true)
    (k : ∀ h, m.hAlive h = true → m.hSrc h = v → (∀ x, m.hAlive x = true → m.hFace x = m.hFace h → m.hSrc x ∈ vs) ∨
      ∃ x, m.hAlive x = true ∧ m.hFace x = m.hFace h ∧ m.vLock (m.hSrc x) = true) (fs : List Nat) :
    ∃ gs, facesAt vs v fs m = .ok gs m ∧ ∀ f, f ∈ gs ↔ f ∈ fs ∨ ∃ h, m.hAlive h = true ∧ m.hSrc h = v ∧ m.hFace h = f := by
  unfold facesAt
  rw [bind_apply, getVHe_ok a]; dsimp only
  have hc := circ_pure (step := ringStep) (w.permRing v) (w.vHe_ok v a) (fun _ h => w.ne0 h.1) m (Nat.le_refl _) (fun _ h => w.ringStep_ok h.1)
    (body := fun x (fs : List Nat) => do
      let f ← getFace x
      let i ← faceInside vs f
      pure (false, if i && !(fs.contains f) then fs ++ [f] else fs))
    (fun x fs => (false, if true && !(fs.contains (m.hFace x)) then fs ++ [m.hFace x] else fs)) (fun x hx b => by
      rw [bind_apply, getFace_ok hx.1]; dsimp only
      rw [bind_apply, faceInside_true w (w.face_alive _ hx.1) (k x hx.1 hx.2)]; rfl) fs
  refine ⟨_, hc, fun f => ?_⟩
  rw [foldPure_faces]
  refine or_congr Iff.rfl ⟨?_, ?_⟩
  · rintro ⟨x, hx, e⟩
    exact ⟨x, ((w.mem_ring a).1 hx).1, ((w.mem_ring a).1 hx).2, e⟩
  · rintro ⟨x, ax, sx, e⟩
    exact ⟨x, (w.mem_ring a).2 ⟨ax, sx⟩, e⟩

theorem allFaces_ok (w : m.WF) {vs : List Nat} : ∀ (l : List Nat) (fs : List Nat), (∀ v ∈ l, m.vAlive v = true) →
    (∀ h, m.hAlive h = true → m.hSrc h ∈ l → (∀ x, m.hAlive x = true → m.hFace x = m.hFace h → m.hSrc x ∈ vs) ∨
      ∃ x, m.hAlive x = true ∧ m.hFace x = m.hFace h ∧ m.vLock (m.hSrc x) = true) →
    ∃ gs, foldAll (facesAt vs) l fs m = .ok gs m ∧ ∀ f, f ∈ gs ↔ f ∈ fs ∨ ∃ h, m.hAlive h = true ∧ m.hSrc h ∈ l ∧ m.hFace h = f
  | [], fs, _, _ => ⟨fs, rfl, by simp⟩
  | v :: l, fs, a, k => by
    obtain ⟨g1, e1, h1⟩ := facesAt_ok w (a v (by simp)) (fun h ah sh => k h ah (by simp [sh])) fs
    obtain ⟨g2, e2, h2⟩ := allFaces_ok w l g1 (fun u hu => a u (by simp [hu])) fun h ah sh => k h ah (by simp [sh])
    refine ⟨g2, ?_, fun f => ?_⟩
    · unfold foldAll
      rw [bind_apply, e1]
      exact e2
    · rw [h2, h1]
      constructor
      · rintro ((h | ⟨h, ah, sh, e⟩) | ⟨h, ah, sh, e⟩)
        · exact .inl h
        · exact .inr ⟨h, ah, by simp [sh], e⟩
        · exact .inr ⟨h, ah, by simp [sh], e⟩
      · rintro (h | ⟨h, ah, sh, e⟩)
        · exact .inl (.inl h)
        · rcases List.mem_cons.1 sh with sh | sh
          · exact .inl (.inr ⟨h, ah, sh, e⟩)
          · exact .inr ⟨h, ah, sh, e⟩

end

/-! ### The rotations -/
section
variable {m : Mesh XR} {p : Nat → E3}

theorem crossE_tri (a b : E3) : crossE a b = triNormal 0 a b := by unfold crossE triNormal; rw [sub_zero, sub_zero]

theorem crossE_E (a b : Vec3 ℝ) : crossE a.E b.E = (a.cross b).E := by
  rw [crossE_tri, ← TinyMesh.E_zero, triNormal_E]
  congr 1
  apply Vec3.ext' <;> simp [Vec3.cross_def, Vec3.sub_def, Vec3.zero_def]

theorem Vec3.Is.crossE {a b : Vec3 XR} {x y : E3} (ha : a.Is x) (hb : b.Is y) : (a.cross b).Is (TinyMesh.crossE x y) := by
  rw [crossE_tri]; exact ha.cross hb

/-- Rodrigues' formula with an axis of any length -/
theorem rotAxis_apply (θ : ℝ) (a x : Vec3 ℝ) : (rotAxis θ a).apply x =
    (x.add ((a.cross x).smul (Real.sin θ))).add ((a.cross (a.cross x)).smul (1 - Real.cos θ)) := by
  apply Vec3.ext' <;>
    simp [Mat3.apply, rotAxis, Mat3.add, Mat3.mul, Mat3.scale, Mat3.one, crossMat, R_lit0, R_lit1, R_sin, R_cos, Vec3.add_def, Vec3.cross_def, Vec3.smul_def] <;> ring

theorem X_apply (A : Mat3 ℝ) (B : Mat3 XR) (h : ∀ i j, B i j = XR.fin (A i j)) (v : Vec3 ℝ) : B.apply v.fin = (A.apply v).fin := by
  unfold Mat3.apply
  simp only [h]
  rfl

/-- the matrix for two unit vectors -/
theorem tilt_exact {a b : Vec3 XR} {x y : E3} (ha : a.Is x) (hb : b.Is y) (hx : ‖x‖ = 1) (hy : ‖y‖ = 1) {c : Vec3 XR} {z : E3} (hc : c.Is z) :
    ((rotAxis (Scalar.atan2 (a.cross b).length (a.dot b)) (a.cross b)).apply c).Is (tilt x y z) := by
  obtain ⟨u, rfl, rfl⟩ := ha
  obtain ⟨v, rfl, rfl⟩ := hb
  obtain ⟨q, rfl, rfl⟩ := hc
  rw [Vec3.X_vcross, Vec3.X_vlength, Vec3.X_vdot, X_atan2, X_apply _ _ (rotAxis_fin _ _)]
  refine ⟨_, rfl, ?_⟩
  have e1 : u.dot u = 1 := by
    have := Vec3.length_sq u
    rw [← Vec3.E_norm, hx] at this
    linarith
  have e2 : v.dot v = 1 := by
    have := Vec3.length_sq v
    rw [← Vec3.E_norm, hy] at this
    linarith
  have hL := lagrange u v
  rw [e1, e2, ← Vec3.length_sq] at hL
  obtain ⟨-, hc, hs⟩ := arg_unit (by linarith : u.dot v * u.dot v + (u.cross v).length * (u.cross v).length = 1) (u.cross v).length_nonneg
  rw [rotAxis_apply, hc, hs]
  unfold tilt
  rw [crossE_E, crossE_E, crossE_E, Vec3.E_norm, Vec3.E_inner, ← Vec3.E_smul, ← Vec3.E_smul, ← Vec3.E_add, ← Vec3.E_add]

/-- C81: the matrix of a face -/
theorem turnOf_exact (w : m.WF) (A : m.AtE p) {n : Nat → Vec3 XR} {N : Nat → E3} (hn : ∀ u, (n u).Is (N u)) {f : Nat} (a : m.fAlive f = true) (s : m.sides f = 3) :
    (m.areaVec p f ≠ 0 → m.cornerSum N f ≠ 0 → ∃ B, turnOf n f m = .ok B m ∧
      ∀ c z, Vec3.Is c z → (B.apply c).Is (tilt (unitOf (m.areaVec p f)) (unitOf (m.cornerSum N f)) z)) ∧
    (m.areaVec p f = 0 ∨ m.cornerSum N f = 0 → turnOf n f m = .err .throw) := by
  obtain ⟨f1, f2⟩ := frontNormal_exact A w a s
  have o := orbit_three ((w.loop_length a).trans s)
  have hs : ((((orbit m.hNext (m.fHe f)).map m.hSrc).foldl (fun s u => s.add (n u)) Vec3.zero)).Is (m.cornerSum N f) := by
    have := foldl_is n N ((orbit m.hNext (m.fHe f)).map m.hSrc) Vec3.zero 0 Vec3.Is.zero fun u _ => hn u
    rw [zero_add] at this
    convert this using 1
    rw [o]
    simp [Mesh.cornerSum, add_assoc]
  unfold turnOf
  rw [bind_apply, faceNormal_ok w a]
  by_cases z : m.areaVec p f = 0
  · rw [f1 z]
    exact ⟨fun h => absurd z h, fun _ => rfl⟩
  · obtain ⟨n0, e0, h0⟩ := f2 z
    rw [e0]; dsimp only
    rw [bind_apply, w.faceVerts_ok a]; dsimp only
    rw [bind_apply]
    by_cases y : m.cornerSum N f = 0
    · refine ⟨fun _ h => absurd y h, fun _ => ?_⟩
      rw [y] at hs
      rw [hs.normalize_zero]; rfl
    · obtain ⟨n1, e1, h1⟩ := hs.normalize y
      refine ⟨fun _ _ => ⟨rotAxis (Scalar.atan2 (n0.cross n1).length (n0.dot n1)) (n0.cross n1), ?_, ?_⟩, fun h => ?_⟩
      · rw [e1]; rfl
      · intro c x hc
        exact tilt_exact h0 h1 (unit_norm z) (unit_norm y) hc
      · rcases h with h | h
        · exact absurd h z
        · exact absurd h y

/-- `R` holds the matrices of the listed faces -/
def TurnsAre (m : Mesh XR) (p N : Nat → E3) (fs : List Nat) (R : Nat → Option (Mat3 XR)) : Prop :=
  ∀ f ∈ fs, ∃ B, R f = some B ∧ ∀ c z, Vec3.Is c z → (B.apply c).Is (tilt (unitOf (m.areaVec p f)) (unitOf (m.cornerSum N f)) z)

theorem turnsLoop_exact (w : m.WF) (A : m.AtE p) {n : Nat → Vec3 XR} {N : Nat → E3} (hn : ∀ u, (n u).Is (N u)) : ∀ (fs : List Nat) (R : Nat → Option (Mat3 XR))
    (ds : List Nat), TurnsAre m p N ds R → (∀ f ∈ fs, m.fAlive f = true ∧ m.sides f = 3) →
    ((∀ f ∈ fs, m.areaVec p f ≠ 0 ∧ m.cornerSum N f ≠ 0) → ∃ R', foldAll (fun f R => do
      let A ← turnOf n f
      pure (upd R f (some A))) fs R m = .ok R' m ∧ TurnsAre m p N (ds ++ fs) R') ∧
    ((∃ f ∈ fs, m.areaVec p f = 0 ∨ m.cornerSum N f = 0) → foldAll (fun f R => do
      let A ← turnOf n f
      pure (upd R f (some A))) fs R m = .err .throw)
  | [], R, ds, h, _ => ⟨fun _ => ⟨R, rfl, by simpa using h⟩, by simp⟩
  | f :: fs, R, ds, h, a => by
    obtain ⟨k1, k2⟩ := turnOf_exact w A hn (a f (by simp)).1 (a f (by simp)).2
    unfold foldAll
    rw [bind_apply, bind_apply]
    by_cases c : m.areaVec p f = 0 ∨ m.cornerSum N f = 0
    · rw [k2 c]
      refine ⟨fun x => ?_, fun _ => rfl⟩
      rcases c with c | c
      · exact absurd c (x f (by simp)).1
      · exact absurd c (x f (by simp)).2
    · rw [not_or] at c
      obtain ⟨B, e, hB⟩ := k1 c.1 c.2
      rw [e]
      obtain ⟨q1, q2⟩ := turnsLoop_exact w A hn fs (upd R f (some B)) (ds ++ [f]) (by
        intro g hg
        by_cases x : g = f
        · subst x; rw [upd_same]; exact ⟨B, rfl, hB⟩
        · rw [upd_ne _ _ x]
          refine h g ?_
          simpa [x] using hg) fun g hg => a g (by simp [hg])
      constructor
      · intro x
        obtain ⟨R', e', h'⟩ := q1 fun g hg => x g (by simp [hg])
        exact ⟨R', e', by rw [show ds ++ f :: fs = ds ++ [f] ++ fs by simp]; exact h'⟩
      · rintro ⟨g, hg, x⟩
        rcases List.mem_cons.1 hg with rfl | hg
        · exact absurd x (not_or.2 c)
        · exact q2 ⟨g, hg, x⟩

theorem turns_exact (w : m.WF) (A : m.AtE p) {n : Nat → Vec3 XR} {N : Nat → E3} (hn : ∀ u, (n u).Is (N u)) {fs : List Nat}
    (a : ∀ f ∈ fs, m.fAlive f = true ∧ m.sides f = 3) :
    ((∀ f ∈ fs, m.areaVec p f ≠ 0 ∧ m.cornerSum N f ≠ 0) → ∃ R, turns n fs m = .ok R m ∧ TurnsAre m p N fs R) ∧
    ((∃ f ∈ fs, m.areaVec p f = 0 ∨ m.cornerSum N f = 0) → turns n fs m = .err .throw) := by
  unfold turns
  have := turnsLoop_exact w A hn fs (fun _ => none) [] (by intro f hf; cases hf) a
  rwa [List.nil_append] at this

end
end TinyMesh
