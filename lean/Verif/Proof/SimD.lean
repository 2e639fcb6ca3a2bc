import Verif.Proof.SimB
import Verif.Proof.SettleI
import Verif.Proof.LinesA
import Verif.Spec.Contract
/-
The tests before a contraction in exact arithmetic.
-/
namespace TinyMesh
open Orbit
variable {m : Mesh XR} {p : Nat → E3}

theorem angleTest {n n' : Vec3 XR} {x y : E3} (h : n.Is x) (h' : n'.Is y) :
    Scalar.le (n.dot n' / (n.length * n'.length)) (Scalar.lit 1 (10 ^ 12) : XR) = true ↔ x ≠ 0 ∧ y ≠ 0 ∧ inner ℝ x y ≤ 1 / 10 ^ 12 * (‖x‖ * ‖y‖) := by
  rw [h.dot h', h.length, h'.length, X_mul, X_lit, R_lit]
  by_cases c : ‖x‖ * ‖y‖ = 0
  · have z : inner ℝ x y = (0 : ℝ) := by
      rcases mul_eq_zero.1 c with k | k
      · rw [norm_eq_zero.1 k, inner_zero_left]
      · rw [norm_eq_zero.1 k, inner_zero_right]
    rw [c, z, X_div0]
    constructor
    · intro k
      exfalso
      revert k
      simp [XR.infOf, Scalar.le, Scalar.lt, Scalar.eq, XR.lt, XR.eq]
    · rintro ⟨h1, h2, -⟩
      exact absurd c (mul_ne_zero (norm_ne_zero_iff.2 h1) (norm_ne_zero_iff.2 h2))
  · have pos : 0 < ‖x‖ * ‖y‖ := lt_of_le_of_ne (by positivity) (Ne.symm c)
    rw [X_div _ c, X_le_iff, decide_eq_true_eq, div_le_iff₀ pos]
    have n1 : x ≠ 0 := fun k => c (by rw [k]; simp)
    have n2 : y ≠ 0 := fun k => c (by rw [k]; simp)
    push_cast
    norm_num [n1, n2]

/-- the three corners of a triangle in the order of the circulator -/
theorem Mesh.Good.onTri_first {F : Type} {m : Mesh F} (g : m.Good) {h : Nat} (a : m.hAlive h = true) (t : m.OnTri h) : m.OnTri (m.fHe (m.hFace h)) ∧
    (m.fHe (m.hFace h) = h ∨ m.fHe (m.hFace h) = m.hNext h ∨ m.fHe (m.hFace h) = m.hNext (m.hNext h)) := by
  have w := g.wf
  obtain ⟨ah, hf⟩ := w.fHe_ok _ (w.face_alive _ a)
  have : m.fHe (m.hFace h) ∈ orbit m.hNext h := by
    obtain ⟨n, hn⟩ := w.face_conn h (m.fHe (m.hFace h)) a ah hf.symm
    exact (w.permNext.mem_orbit a).2 ⟨n, hn⟩
  rw [w.tri_orbit g.simple a t] at this
  simp only [List.mem_cons, List.not_mem_nil, or_false] at this
  refine ⟨?_, this⟩
  rcases this with e | e | e <;> rw [e]
  · exact t
  · exact Mesh.WF.onTri_next t
  · exact Mesh.WF.onTri_next (Mesh.WF.onTri_next t)

/-- the corners of the triangle `f` -/
def Mesh.cornersOf {F : Type} (m : Mesh F) (f : Nat) : List Nat := [m.hSrc (m.fHe f), m.hSrc (m.hNext (m.fHe f)), m.hSrc (m.hNext (m.hNext (m.fHe f)))]

theorem faceFlips_exact (g : m.Good) (A : m.AtE p) {vi vj : Nat} (ne : vi ≠ vj) {v : Vec3 XR} {x : E3} (hv : v.Is x) {h : Nat} (a : m.hAlive h = true) (t : m.OnTri h) :
    ∃ b, faceFlips vi vj v (m.hFace h) m = .ok b m ∧ (b = true ↔ vi ∈ m.cornersOf (m.hFace h) ∧ vj ∈ m.cornersOf (m.hFace h) ∧ m.TurnsOver p vi vj x (m.hFace h)) := by
  have w := g.wf
  have fa := w.face_alive _ a
  obtain ⟨t', -⟩ := g.onTri_first a t
  obtain ⟨ah, hf⟩ := w.fHe_ok _ fa
  set f := m.hFace h
  have a1 := w.next_alive _ ah
  have a2 := w.next_alive _ a1
  have n01 := g.simple.no_loop _ ah
  have n12 := g.simple.no_loop _ a1
  have n20 := g.simple.no_loop _ a2
  rw [t'] at n20
  have e : faceVerts f m = .ok (m.cornersOf f) m := (w.faceVerts_ok fa).trans (by rw [w.tri_orbit g.simple ah t']; rfl)
  have e2 := getPosList_ok (m := m) (m.cornersOf f) (by
      intro x hx
      simp only [Mesh.cornersOf, List.mem_cons, List.not_mem_nil, or_false] at hx
      rcases hx with rfl | rfl | rfl
      · exact w.src_alive _ ah
      · exact w.src_alive _ a1
      · exact w.src_alive _ a2)
  have A0 := A _ (w.src_alive _ ah)
  have A1 := A _ (w.src_alive _ a1)
  have A2 := A _ (w.src_alive _ a2)
  unfold faceFlips
  rw [bind_apply, e]
  dsimp only
  rw [bind_apply, e2]
  dsimp only
  by_cases c : vi ∈ m.cornersOf f ∧ vj ∈ m.cornersOf f
  · rw [if_pos c]
    obtain ⟨n', r', hn'⟩ : ∃ n', crossOf (replaceFirst vi vj v (m.cornersOf f) ((m.cornersOf f).map m.vPos)) m = .ok n' m ∧
        n'.Is (-m.areaVec (Function.update p (m.firstEnd vi vj f) x) f) := by
      unfold Mesh.areaVec Mesh.firstEnd
      simp only [Mesh.cornersOf, List.map_cons, List.map_nil, replaceFirst]
      by_cases c0 : m.hSrc (m.fHe f) = vi ∨ m.hSrc (m.fHe f) = vj
      · rw [if_pos c0, if_pos c0, Function.update_self, Function.update_of_ne (fun k => n01 k.symm), Function.update_of_ne n20, ← triNormal_flip]
        exact ⟨_, rfl, Vec3.Is.triNormal hv A2 A1⟩
      · have c1 : m.hSrc (m.hNext (m.fHe f)) = vi ∨ m.hSrc (m.hNext (m.fHe f)) = vj := by
          simp only [Mesh.cornersOf, List.mem_cons, List.not_mem_nil, or_false] at c
          obtain ⟨k1, k2⟩ := c
          rcases k1 with k | k | k
          · exact absurd (.inl k.symm) c0
          · exact .inl k.symm
          · rcases k2 with k' | k' | k'
            · exact absurd (.inr k'.symm) c0
            · exact .inr k'.symm
            · exact absurd (k.trans k'.symm) ne
        rw [if_neg c0, if_neg c0, if_pos c1, Function.update_self, Function.update_of_ne n01, Function.update_of_ne (fun k => n12 k.symm), ← triNormal_flip]
        exact ⟨_, rfl, Vec3.Is.triNormal A0 A2 hv⟩
    obtain ⟨n, r, hn⟩ : ∃ n, crossOf ((m.cornersOf f).map m.vPos) m = .ok n m ∧ n.Is (-m.areaVec p f) := by
      unfold Mesh.areaVec
      rw [← triNormal_flip]
      exact ⟨_, rfl, Vec3.Is.triNormal A0 A2 A1⟩
    rw [bind_apply, r]
    dsimp only
    rw [bind_apply, r']
    dsimp only
    refine ⟨_, rfl, ?_⟩
    rw [angleTest hn hn']
    simp only [c.1, c.2, true_and, Mesh.TurnsOver, ne_eq, neg_eq_zero, inner_neg_neg, norm_neg]
  · rw [if_neg c]
    exact ⟨false, rfl, by simp only [Bool.false_eq_true, false_iff]; rintro ⟨k1, k2, -⟩; exact c ⟨k1, k2⟩⟩

theorem anyFlips_exact (vi vj : Nat) (v : Vec3 XR) {P : Nat → Prop} : ∀ (fs : List Nat) (r : Bool), (∀ f ∈ fs, ∃ b, faceFlips vi vj v f m = .ok b m ∧ (b = true ↔ P f)) →
    ∃ b, anyFlips vi vj v fs r m = .ok b m ∧ (b = true ↔ r = true ∨ ∃ f ∈ fs, P f)
  | [], r, _ => ⟨r, rfl, by simp⟩
  | f :: fs, r, h => by
    obtain ⟨b, e, hb⟩ := h f (by simp)
    obtain ⟨b', e', hb'⟩ := anyFlips_exact vi vj v fs (r || b) fun x hx => h x (by simp [hx])
    refine ⟨b', by simp [anyFlips, e, e'], ?_⟩
    rw [hb', Bool.or_eq_true, hb]
    simp [or_assoc]

theorem anyThin_exact {F : Type} {m : Mesh F} (w : m.WF) : ∀ vs : List Nat, (∀ v ∈ vs, m.vAlive v = true) →
    ∃ b, anyThin vs m = .ok b m ∧ (b = true ↔ ∃ v ∈ vs, m.outDeg v < 4)
  | [], _ => ⟨false, rfl, by simp⟩
  | v :: vs, h => by
    obtain ⟨b, e, hb⟩ := anyThin_exact w vs fun x hx => h x (by simp [hx])
    unfold anyThin
    rw [bind_apply, w.degree_ok (h v (by simp))]
    dsimp only
    by_cases c : m.outDeg v < 4
    · rw [if_pos (by exact_mod_cast c)]
      exact ⟨true, rfl, by simp [c]⟩
    · rw [if_neg (by exact_mod_cast c)]
      exact ⟨b, e, by simp [hb, c]⟩

theorem mem_cornersOf {F : Type} {m : Mesh F} (g : m.Good) {h : Nat} (a : m.hAlive h = true) (t : m.OnTri h) {v : Nat} :
    v ∈ m.cornersOf (m.hFace h) ↔ v = m.hSrc h ∨ v = m.hSrc (m.hNext h) ∨ v = m.hSrc (m.hNext (m.hNext h)) := by
  have t3 : m.hNext (m.hNext (m.hNext h)) = h := t
  unfold Mesh.cornersOf
  simp only [List.mem_cons, List.not_mem_nil, or_false]
  rcases (g.onTri_first a t).2 with e | e | e <;> rw [e]
  · rw [t3]; tauto
  · rw [t3]; tauto

/-- a triangle with both ends of an edge is one of the two at the edge -/
theorem two_faces {F : Type} {m : Mesh F} (g : m.Good) {h : Nat} (a : m.hAlive h = true) {y : Nat} (ay : m.hAlive y = true) (t : m.OnTri y)
    (h1 : m.hSrc h ∈ m.cornersOf (m.hFace y)) (h2 : m.hSrc (m.hNext h) ∈ m.cornersOf (m.hFace y)) : m.hFace y = m.hFace h ∨ m.hFace y = m.hFace (m.hRev h) := by
  have w := g.wf
  have ne := g.simple.no_loop _ a
  have ay1 := w.next_alive _ ay
  have ay2 := w.next_alive _ ay1
  have t3 : m.hNext (m.hNext (m.hNext y)) = y := t
  have f1 := w.face_next _ ay
  have f2 := w.face_next _ ay1
  have ar := w.rev_alive _ a
  have sr := w.src_rev _ a
  have sr' : m.hSrc (m.hNext (m.hRev h)) = m.hSrc h := by rw [← w.src_rev _ ar, w.rev_rev _ a]
  rw [mem_cornersOf g ay t] at h1 h2
  have fwd : ∀ z, m.hAlive z = true → m.hFace z = m.hFace y → m.hSrc h = m.hSrc z → m.hSrc (m.hNext h) = m.hSrc (m.hNext z) → m.hFace y = m.hFace h ∨ m.hFace y = m.hFace (m.hRev h) :=
    fun z az fz e1 e2 => .inl (by rw [g.simple.no_dup h z a az e1 e2, fz])
  have bwd : ∀ z, m.hAlive z = true → m.hFace z = m.hFace y → m.hSrc (m.hNext h) = m.hSrc z → m.hSrc h = m.hSrc (m.hNext z) → m.hFace y = m.hFace h ∨ m.hFace y = m.hFace (m.hRev h) :=
    fun z az fz e1 e2 => .inr (by rw [g.simple.no_dup (m.hRev h) z ar az (sr.trans e1) (sr'.trans e2), fz])
  rcases h1 with h1 | h1 | h1 <;> rcases h2 with h2 | h2 | h2
  · exact absurd (h1.trans h2.symm) ne
  · exact fwd y ay rfl h1 h2
  · exact bwd _ ay2 (f2.trans f1) h2 (by rw [t3]; exact h1)
  · exact bwd _ ay rfl h2 h1
  · exact absurd (h1.trans h2.symm) ne
  · exact fwd _ ay1 f1 h1 h2
  · exact fwd _ ay2 (f2.trans f1) h1 (by rw [t3]; exact h2)
  · exact bwd _ ay1 f1 h2 h1
  · exact absurd (h1.trans h2.symm) ne

/-- the tests before a contraction -/
theorem qemAllowed_exact (g : m.Good) (A : m.AtE p) {nv : Nat} (hn : m.vs.length ≤ nv) (ck : Nat → Bool) {h : Nat} (a : m.hAlive h = true)
    {v : Vec3 XR} {x : E3} (hv : v.Is x) :
    ∃ b, qemAllowed nv ck h v m = .ok b m ∧ (b = true ↔ m.Contractible p (fun u => ck (m.vIdx u).toNat = true) h x) := by
  have w := g.wf
  have an := w.next_alive _ a
  have as := w.src_alive _ a
  have ad := w.src_alive _ an
  have ne := g.simple.no_loop _ a
  have no : ¬ m.Contractible p (fun u => ck (m.vIdx u).toNat = true) h x → ∃ b', (pure false : M XR Bool) m = .ok b' m ∧ (b' = true ↔ m.Contractible p (fun u => ck (m.vIdx u).toNat = true) h x) :=
    fun n => ⟨false, rfl, by simp [n]⟩
  unfold qemAllowed
  rw [bind_apply, getSrc_ok a]; dsimp only
  rw [bind_apply, getVIdx_ok as]; dsimp only
  rw [bind_apply, getDst_ok a an]; dsimp only
  rw [bind_apply, getVIdx_ok ad]; dsimp only
  rw [bind_apply, w.vertexAt_idx as]; dsimp only
  rw [bind_apply, w.vertexAt_idx ad]; dsimp only
  rw [bind_apply, getVIdx_ok as]; dsimp only
  rw [bind_apply, inRange_ok w hn as]; dsimp only
  split
  next c => exact no fun C => C.fresh.1 c
  next c1 =>
  rw [bind_apply, getVIdx_ok ad]; dsimp only
  rw [bind_apply, inRange_ok w hn ad]; dsimp only
  split
  next c => exact no fun C => C.fresh.2 c
  next c2 =>
  rw [bind_apply, w.vIsBoundary_ok as]; dsimp only
  split
  next c => exact no fun C => C.inside.1 ((w.any_ring as).1 c)
  next b1 =>
  rw [w.any_ring as] at b1
  rw [bind_apply, w.vIsBoundary_ok ad]; dsimp only
  split
  next c => exact no fun C => C.inside.2 ((w.any_ring ad).1 c)
  next b2 =>
  rw [w.any_ring ad] at b2
  rw [bind_apply, w.degree_ok as]; dsimp only
  split
  next c => exact no fun C => by have := C.degree.1; omega
  next d1 =>
  rw [bind_apply, w.degree_ok ad]; dsimp only
  split
  next c => exact no fun C => by have := C.degree.2; omega
  next d2 =>
  rw [bind_apply, w.vertFaces_ok as]; dsimp only
  rw [bind_apply, w.vertFaces_ok ad]; dsimp only
  have onT : ∀ u, ¬ m.AtBoundary u → ∀ y, m.hAlive y = true → m.hSrc y = u → m.OnTri y := by
    intro u bu y ay sy
    refine g.tri.onTri ay ?_
    cases hb : m.hBd y
    · rfl
    · exact absurd ⟨y, ay, sy, hb⟩ bu
  obtain ⟨fl, hfl, efl⟩ := anyFlips_exact (m := m) (m.hSrc h) (m.hSrc (m.hNext h)) v (P := fun f => m.hSrc h ∈ m.cornersOf f ∧ m.hSrc (m.hNext h) ∈ m.cornersOf f ∧
    m.TurnsOver p (m.hSrc h) (m.hSrc (m.hNext h)) x f) ((orbit m.sig (m.vHe (m.hSrc h))).map m.hFace ++
    (orbit m.sig (m.vHe (m.hSrc (m.hNext h)))).map m.hFace) false (by
      intro f hf
      rcases List.mem_append.1 hf with hf | hf
      · obtain ⟨y, hy, rfl⟩ := List.mem_map.1 hf
        obtain ⟨ay, sy⟩ := (w.mem_ring as).1 hy
        exact faceFlips_exact g A ne hv ay (onT _ b1 y ay sy)
      · obtain ⟨y, hy, rfl⟩ := List.mem_map.1 hf
        obtain ⟨ay, sy⟩ := (w.mem_ring ad).1 hy
        exact faceFlips_exact g A ne hv ay (onT _ b2 y ay sy))
  have efl : fl = true ↔ ∃ f, (f = m.hFace h ∨ f = m.hFace (m.hRev h)) ∧ m.TurnsOver p (m.hSrc h) (m.hSrc (m.hNext h)) x f := by
    rw [efl]
    have ar := w.rev_alive _ a
    have sr := w.src_rev _ a
    have sr' : m.hSrc (m.hNext (m.hRev h)) = m.hSrc h := by rw [← w.src_rev _ ar, w.rev_rev _ a]
    constructor
    · rintro (k | ⟨f, hf, k1, k2, k3⟩)
      · cases k
      · refine ⟨f, ?_, k3⟩
        rcases List.mem_append.1 hf with hf | hf
        · obtain ⟨y, hy, rfl⟩ := List.mem_map.1 hf
          obtain ⟨ay, sy⟩ := (w.mem_ring as).1 hy
          exact two_faces g a ay (onT _ b1 y ay sy) k1 k2
        · obtain ⟨y, hy, rfl⟩ := List.mem_map.1 hf
          obtain ⟨ay, sy⟩ := (w.mem_ring ad).1 hy
          exact two_faces g a ay (onT _ b2 y ay sy) k1 k2
    · rintro ⟨f, rfl | rfl, k⟩
      · refine .inr ⟨_, List.mem_append.2 (.inl (List.mem_map.2 ⟨h, (w.mem_ring as).2 ⟨a, rfl⟩, rfl⟩)), ?_, ?_, k⟩
        · exact (mem_cornersOf g a (onT _ b1 h a rfl)).2 (.inl rfl)
        · exact (mem_cornersOf g a (onT _ b1 h a rfl)).2 (.inr (.inl rfl))
      · refine .inr ⟨_, List.mem_append.2 (.inr (List.mem_map.2 ⟨m.hRev h, (w.mem_ring ad).2 ⟨ar, sr⟩, rfl⟩)), ?_, ?_, k⟩
        · exact (mem_cornersOf g ar (onT _ b2 _ ar sr)).2 (.inr (.inl sr'.symm))
        · exact (mem_cornersOf g ar (onT _ b2 _ ar sr)).2 (.inl sr.symm)
  rw [bind_apply, hfl]; dsimp only
  split
  next c =>
    obtain ⟨f, h1, h2⟩ := efl.1 c
    exact no fun C => C.turn f h1 h2
  next c3 =>
  rw [bind_apply, w.ringVerts_ok as]; dsimp only
  rw [bind_apply, w.ringVerts_ok ad]; dsimp only
  have memv : ∀ u z, m.vAlive u = true → (z ∈ (orbit m.sig (m.vHe u)).map (fun x => m.hSrc (m.hNext x)) ↔ m.Joined u z) := by
    intro u z au
    rw [List.mem_map]
    constructor
    · rintro ⟨y, hy, e⟩
      obtain ⟨ay, sy⟩ := (w.mem_ring au).1 hy
      exact ⟨y, ay, sy, e⟩
    · rintro ⟨y, ay, sy, e⟩
      exact ⟨y, (w.mem_ring au).2 ⟨ay, sy⟩, e⟩
  obtain ⟨th, hth, eth⟩ := anyThin_exact w (((orbit m.sig (m.vHe (m.hSrc (m.hNext h)))).map fun x => m.hSrc (m.hNext x)).filter fun x =>
    ((orbit m.sig (m.vHe (m.hSrc h))).map fun x => m.hSrc (m.hNext x)).contains x) (by
      intro x hx
      obtain ⟨y, hy, rfl⟩ := List.mem_map.1 (List.mem_filter.1 hx).1
      exact w.src_alive _ (w.next_alive _ ((w.mem_ring ad).1 hy).1))
  rw [bind_apply, hth]
  refine ⟨_, rfl, ?_⟩
  have key : th = true ↔ ∃ u, m.Joined (m.hSrc h) u ∧ m.Joined (m.hSrc (m.hNext h)) u ∧ m.outDeg u < 4 := by
    rw [eth]
    simp only [List.mem_filter, List.contains_iff_mem, memv _ _ as, memv _ _ ad]
    constructor
    · rintro ⟨u, ⟨k1, k2⟩, k3⟩; exact ⟨u, k2, k1, k3⟩
    · rintro ⟨u, k1, k2, k3⟩; exact ⟨u, ⟨k2, k1⟩, k3⟩
  rw [Bool.not_eq_true', ← Bool.not_eq_true, key]
  constructor
  · intro k
    refine ⟨⟨c1, c2⟩, ⟨b1, b2⟩, ⟨by omega, by omega⟩, fun f hf ht => c3 (efl.2 ⟨f, hf, ht⟩), fun u k1 k2 => ?_⟩
    by_contra k3
    exact k ⟨u, k1, k2, by omega⟩
  · rintro C ⟨u, k1, k2, k3⟩
    have := C.thin u k1 k2
    omega

end TinyMesh
