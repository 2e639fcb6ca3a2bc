import Verif.Props.Front
/-
The advancing front throws in its first round when two faces next to each other behind the hole lie folded on each other (C75).
-/
set_option maxRecDepth 100000
namespace TinyMesh
open Orbit Sample EuclideanGeometry
variable {m : Mesh XR} {f : Nat} {p : Nat → E3}

/-- there is no angle where the normals of the two faces behind a corner add to zero, or where one of them is missing -/
theorem frontAngle_none (A : m.AtE p) (w : m.WF) {hs : List Nat} {pp prev i next qq p1 a b q : Nat} (C : Corner m f hs pp prev i next qq p1 a b q)
    (T : m.TriBehind f) (z : m.areaVec p (m.hFace (m.hRev a)) = 0 ∨
      unitOf (m.areaVec p (m.hFace (m.hRev a))) + unitOf (m.areaVec p (m.hFace (m.hRev b))) = 0) : m.frontAngle? a b q = none := by
  have ra := w.rev_alive _ C.aa
  have rb := w.rev_alive _ C.ab
  obtain ⟨na0, na1⟩ := frontNormal_exact A w (w.face_alive _ ra) (T a C.aa C.fa).2
  obtain ⟨nb0, nb1⟩ := frontNormal_exact A w (w.face_alive _ rb) (T b C.ab C.fb).2
  unfold Mesh.frontAngle?
  by_cases za : m.areaVec p (m.hFace (m.hRev a)) = 0
  · rw [na0 za]
  by_cases zb : m.areaVec p (m.hFace (m.hRev b)) = 0
  · rw [nb0 zb]
    cases m.frontNormal? (m.hFace (m.hRev a)) <;> rfl
  obtain ⟨n1, k1, k2⟩ := na1 za
  obtain ⟨n2, l1, l2⟩ := nb1 zb
  rw [k1, l1]
  dsimp only
  have hsum := k2.add l2
  rw [z.resolve_left za] at hsum
  rw [Vec3.Is.normalize_zero hsum]
  rfl

/-- C75: if a hole has at least four sides and a face behind it has no area, or two neighbouring faces behind it have opposite normals, the front
throws in its first round: nothing is filled. -/
theorem c75_throws (w : m.WF) (H : m.SimpleHole f) (n4 : 4 ≤ m.sides f) (A : m.AtE p) (T : m.TriBehind f) {a : Nat} (aa : m.hAlive a = true)
    (fa : m.hFace a = f) (z : m.areaVec p (m.hFace (m.hRev a)) = 0 ∨
      unitOf (m.areaVec p (m.hFace (m.hRev a))) + unitOf (m.areaVec p (m.hFace (m.hRev (m.hNext a)))) = 0) (fuel : Nat) :
    advancingFront (fuel + 1) f m = .err .throw := by
  obtain ⟨avg, -, e⟩ := advancingFront_eq w H.alive (fuel + 1)
  obtain ⟨S, lk⟩ := lockHole_start w H
  have I := S.inv
  have n4' : 4 ≤ (orbit (m.lockHole f).hNext ((m.lockHole f).fHe f)).length := by
    rw [← w.loop_length H.alive] at n4
    exact n4
  have s := frontRound_step I.wf I.af n4' (fun C ul => I.behind S lk C ul) avg
  have non : ∀ hs : List Nat, FaceLoop (m.lockHole f) f hs → 4 ≤ hs.length → ∃ j < hs.length, (m.lockHole f).angleAt hs j = none := by
    intro hs hl l4
    have b1 := I.wf.next_alive a aa
    have mem : (m.lockHole f).hNext a ∈ hs := (hl.mem _).2 ⟨b1, by rw [I.wf.face_next a aa]; exact fa⟩
    obtain ⟨j, hj, ej⟩ := List.getElem_of_mem mem
    obtain ⟨pp', prev', next', qq', p', a2, b2, q2, C'⟩ := I.wf.corner I.af hl l4 hj
    have eb : b2 = (m.lockHole f).hNext a := by
      have := (C'.at hl.nodup).2.1
      rw [List.getElem?_eq_getElem hj, ej] at this
      exact (Option.some.inj this).symm
    have ea : a2 = a := I.wf.next_inj _ _ C'.aa aa (by rw [C'.na, eb])
    refine ⟨j, hj, ?_⟩
    rw [C'.angle hl.nodup]
    refine frontAngle_none (m := m.lockHole f) (p := p) A I.wf C' T ?_
    rw [ea, eb]
    exact z
  have len : ∀ hs : List Nat, FaceLoop (m.lockHole f) f hs → 4 ≤ hs.length := by
    intro hs hl
    have p1 : hs.Perm (orbit (m.lockHole f).hNext ((m.lockHole f).fHe f)) :=
      (List.perm_ext_iff_of_nodup hl.nodup (I.wf.faceLoop I.af).nodup).2 (fun x => by rw [hl.mem, (I.wf.faceLoop I.af).mem])
    rw [p1.length_eq]; exact n4'
  have some : ∀ (hs : List Nat) (r : XR × Option Nat), FaceLoop (m.lockHole f) f hs →
      pickAngle ((m.lockHole f).angleAt hs) (List.range hs.length) (Scalar.lit (10 ^ 20) 1, none) = some r → False := by
    rintro hs ⟨t, i⟩ hl k
    obtain ⟨j, hj, ej⟩ := non hs hl (len hs hl)
    obtain ⟨_, hj'⟩ := (pickAngle_some k).2 j (List.mem_range.2 hj)
    rw [ej] at hj'
    exact absurd hj' (by simp)
  have locked : ∀ {hs : List Nat} {pp prev i next qq p a b q : Nat}, Corner (m.lockHole f) f hs pp prev i next qq p a b q →
      (m.lockHole f).closeAt avg b q = true → False := by
    intro hs pp prev i next qq p a b q C c
    unfold Mesh.closeAt at c
    rw [lk _ C.ab C.fb] at c
    exact absurd c (by simp)
  rw [e]
  unfold frontLoop
  rw [bind_apply]
  have fin : frontRound f avg (m.lockHole f) = .err .throw := by
    generalize frontRound f avg (m.lockHole f) = o at s
    cases s with
    | merge C c => exact (locked C c).elim
    | mergeAbort C c => exact (locked C c).elim
    | angleThrow => rfl
    | noAngle nc hl k => exact (some _ _ hl k).elim
    | ear C nc hl k => exact (some _ _ hl k).elim
    | mid C nc hl k => exact (some _ _ hl k).elim
    | wide C nc hl k => exact (some _ _ hl k).elim
    | bisectorThrow => rfl
  rw [fin]

attribute [local instance] Sample.ratScalar

/-- the square patch with one corner folded over: the faces 1 and 2 lie on each other -/
def foldAt (v : Nat) : Vec3 ℝ :=
  if v = 1 then ⟨0, 0, 0⟩ else if v = 2 then ⟨1, 1, 0⟩ else if v = 3 then ⟨-1, 1, 0⟩ else if v = 4 then ⟨2, 2, 0⟩ else ⟨1, -1, 0⟩

/-- C75 is false of the code: a patch of four triangles of positive area with five different vertices has a hole with four distinct corners at which
the front throws, however many rounds it may take. -/
theorem c75_fold_throws : ∃ m : Mesh XR, m.Good ∧ m.SimpleHole 5 ∧ m.AtE (fun v => (foldAt v).E) ∧
    (∀ u v, m.vAlive u = true → m.vAlive v = true → (foldAt u).E = (foldAt v).E → u = v) ∧
    (∀ g, m.fAlive g = true → g ≠ 5 → m.sides g = 3 ∧ m.areaVec (fun v => (foldAt v).E) g ≠ 0) ∧
    ∀ fuel, advancingFront (fuel + 1) 5 m = .err .throw := by
  obtain ⟨m0, G0, C0, c1, c2, c3⟩ := patch_tables
  have G : (m0.overR foldAt).Good := G0.over _
  have w := G.wf
  have H := simpleHoleB_iff w (f := 5) (m := m0.overR foldAt) c1
  have C : PatchFacts (m0.overR foldAt) := ⟨C0.1, C0.2, C0.3, C0.4, C0.5, C0.6, C0.7, C0.8⟩
  have A : (m0.overR foldAt).AtE (fun v => (foldAt v).E) := fun v _ => ⟨_, rfl, rfl⟩
  have t3 := triHoleB_iff w (f := 5) (m := m0.overR foldAt) c2
  have n4 : 4 ≤ (m0.overR foldAt).sides 5 := c3.ge
  generalize m0.overR foldAt = m at G w H C A t3 n4
  obtain ⟨a, b, c, d, e, f, g, h⟩ := C
  have al : ∀ x, m.hAlive x = true ↔ x ∈ m.hes := fun x => (w.hDense.mem x).symm
  have av : ∀ x, m.vAlive x = true ↔ x ∈ m.vs := fun x => (w.vDense.mem x).symm
  have ag : ∀ x, m.fAlive x = true ↔ x ∈ m.fs := fun x => (w.fDense.mem x).symm
  rw [c] at al e f g h
  rw [b] at d ag
  rw [a] at av
  simp only [List.map_cons, List.map_nil, List.cons.injEq, and_true] at d e f g h
  simp only [List.mem_cons, List.not_mem_nil, or_false] at al av ag
  have crn : ∀ x, x = 13 ∨ x = 14 ∨ x = 15 ∨ x = 16 → m.CornerOf 5 (m.hSrc x) := by
    rintro x (rfl | rfl | rfl | rfl) <;> exact ⟨_, (al _).2 (by simp), by simp only [h], rfl⟩
  have s1 : m.sides 1 = 3 := by
    have := t3 2 ((al _).2 (by simp)) (by simp only [h]; omega) (by have := crn 16 (by simp); simpa only [e, f] using this) (by have := crn 13 (by simp); simpa only [e, f] using this)
    simpa only [h] using this
  have s2 : m.sides 2 = 3 := by
    have := t3 5 ((al _).2 (by simp)) (by simp only [h]; omega) (by have := crn 13 (by simp); simpa only [e, f] using this) (by have := crn 14 (by simp); simpa only [e, f] using this)
    simpa only [h] using this
  have s3 : m.sides 3 = 3 := by
    have := t3 8 ((al _).2 (by simp)) (by simp only [h]; omega) (by have := crn 14 (by simp); simpa only [e, f] using this) (by have := crn 15 (by simp); simpa only [e, f] using this)
    simpa only [h] using this
  have s4 : m.sides 4 = 3 := by
    have := t3 11 ((al _).2 (by simp)) (by simp only [h]; omega) (by have := crn 15 (by simp); simpa only [e, f] using this) (by have := crn 16 (by simp); simpa only [e, f] using this)
    simpa only [h] using this
  have T : m.TriBehind 5 := by
    intro x ax fx
    rcases (al x).1 ax with rfl | rfl | rfl | rfl | rfl | rfl | rfl | rfl | rfl | rfl | rfl | rfl | rfl | rfl | rfl | rfl <;> simp only [h] at fx <;>
      first | omega | (simp only [g, h]; exact ⟨by omega, by assumption⟩)
  have v1 : m.areaVec (fun v => (foldAt v).E) 1 = (⟨0, 0, 2⟩ : Vec3 ℝ).E := by
    simp only [Mesh.areaVec, triNormal_E, d, e, f, foldAt]; norm_num [Vec3.cross, Vec3.sub_def]
  have v2 : m.areaVec (fun v => (foldAt v).E) 2 = (⟨0, 0, -4⟩ : Vec3 ℝ).E := by
    simp only [Mesh.areaVec, triNormal_E, d, e, f, foldAt]; norm_num [Vec3.cross, Vec3.sub_def]
  have v3 : m.areaVec (fun v => (foldAt v).E) 3 = (⟨0, 0, -4⟩ : Vec3 ℝ).E := by
    simp only [Mesh.areaVec, triNormal_E, d, e, f, foldAt]; norm_num [Vec3.cross, Vec3.sub_def]
  have v4 : m.areaVec (fun v => (foldAt v).E) 4 = (⟨0, 0, 2⟩ : Vec3 ℝ).E := by
    simp only [Mesh.areaVec, triNormal_E, d, e, f, foldAt]; norm_num [Vec3.cross, Vec3.sub_def]
  have ne : ∀ r : ℝ, r ≠ 0 → (⟨0, 0, r⟩ : Vec3 ℝ).E ≠ 0 := fun r k q => by
    have q0 := congrArg (fun x : E3 => x 2) q
    simp at q0
    exact k q0
  have um : unitOf (⟨0, 0, -4⟩ : Vec3 ℝ).E = (⟨0, 0, -1⟩ : Vec3 ℝ).E := by
    unfold unitOf
    rw [Vec3.E_norm, ← Vec3.E_smul]
    have : Vec3.length (⟨0, 0, -4⟩ : Vec3 ℝ) = 4 := by
      rw [Vec3.length_def, Vec3.dot_def]; norm_num
      rw [show (16 : ℝ) = 4 ^ 2 by norm_num, Real.sqrt_sq (by norm_num)]
    rw [this]
    congr 1
    apply Vec3.ext' <;> norm_num [Vec3.smul]
  refine ⟨m, G, H, A, ?_, ?_, ?_⟩
  · intro u v au av' k
    rw [Vec3.E_inj] at k
    have kx := congrArg Vec3.x k
    have ky := congrArg Vec3.y k
    rcases (av u).1 au with rfl | rfl | rfl | rfl | rfl <;> rcases (av v).1 av' with rfl | rfl | rfl | rfl | rfl <;>
      first | rfl | (norm_num [foldAt] at kx; done) | (norm_num [foldAt] at ky; done)
  · intro x ax nx
    rcases (ag x).1 ax with rfl | rfl | rfl | rfl | rfl
    · exact ⟨s1, by rw [v1]; exact ne _ (by norm_num)⟩
    · exact ⟨s2, by rw [v2]; exact ne _ (by norm_num)⟩
    · exact ⟨s3, by rw [v3]; exact ne _ (by norm_num)⟩
    · exact ⟨s4, by rw [v4]; exact ne _ (by norm_num)⟩
    · exact absurd rfl nx
  · intro fuel
    refine c75_throws w H n4 A T (a := 14) ((al _).2 (by simp)) (by simp only [h]) (.inr ?_) fuel
    simp only [f, g, h, v1, v2, unitOf_up, um]
    rw [← Vec3.E_add]
    ext i; fin_cases i <;> simp [Vec3.E, Vec3.add_def]

end TinyMesh
