import Verif.Proof.SmoothC
import Verif.Proof.SmoothD
import Verif.Proof.SimA
import Verif.Proof.FeatC
import Verif.Proof.OperA
import Verif.Proof.FeatD
import Verif.Spec.Denoise
/-
One round of the denoising filters with exact numbers.
-/
namespace TinyMesh
open Orbit
variable {m : Mesh XR} {p : Nat → E3}

/-! ### weights -/

theorem lit_half : (Scalar.lit 1 2 : XR) = .fin (1 / 2) := by rw [X_lit, R_lit]; norm_num
theorem lit_three : (Scalar.lit 3 1 : XR) = .fin 3 := by rw [X_lit, R_lit]; norm_num
theorem lit_zero : (Scalar.lit 0 1 : XR) = .fin 0 := by rw [X_lit, R_lit]; norm_num
theorem weightK_eq (x σ : ℝ) (hx : 0 ≤ x) : weightK (XR.fin x) (XR.fin σ) = .fin (kernelAt σ x) := by
  rcases lt_or_ge 0 σ with hσ | hσ
  · rw [weightK_ok x hσ]
    unfold kernelAt
    congr 1
    have : |x| = x := abs_of_nonneg hx
    rw [this]
    have e : -x * x / (σ * σ) = -(x ^ 2 / σ ^ 2) := by ring
    rw [e]
    split
    · ring
    · split
      · have : Real.sqrt (2 * Real.pi) * σ ≠ 0 := by positivity
        have := (Real.exp_pos 2).ne'
        field_simp
      · rfl
  · have l2 : (Scalar.lit 2 1 : ℝ) = 2 := by rw [R_lit]; norm_num
    have l4 : (Scalar.lit 4 1 : ℝ) = 4 := by rw [R_lit]; norm_num
    unfold weightK kernelAt
    have h2 : ¬ x < 2 * σ := by linarith
    have h4 : ¬ x < 4 * σ := by linarith
    dsimp only
    rw [if_neg h2, if_neg h4, if_neg, if_neg]
    · exact lit_zero
    · rw [X_lit, X_mul, X_lt, R_lt, l4]; exact h4
    · rw [X_lit, X_mul, X_lt, R_lt, l2]; exact h2

theorem kernelAt_nonneg (σ x : ℝ) (hx : 0 ≤ x) : 0 ≤ kernelAt σ x := by
  unfold kernelAt
  split
  · have : 0 < σ := by linarith
    positivity
  · split
    · have : 0 < σ := by linarith
      positivity
    · exact le_refl _

theorem Mesh.normalWeight_nonneg {F : Type} (m : Mesh F) (p : Nat → E3) (b : Bool) (σ σn : ℝ) (f g : Nat) :
    0 ≤ m.normalWeight p b σ σn f g := by
  unfold Mesh.normalWeight
  refine mul_nonneg (mul_nonneg ?_ (kernelAt_nonneg _ _ dist_nonneg)) ?_
  · unfold Mesh.areaAt; positivity
  · split
    · exact kernelAt_nonneg _ _ dist_nonneg
    · exact zero_le_one

/-! ### programs -/

/-- memory after a store of a number -/
def setN (s : Loc → XR) (a i : Nat) (x : XR) : Loc → XR := fun l => if l = .arr a i 0 then x else s l

theorem exec_storeNum (a i : Nat) (x : XR) (s : Loc → XR) : (Prog.storeNum a i x).exec s = .ok ((), setN s a i x) := rfl

theorem exec_loadNum {n a i : Nat} (h : i < n) (s : Loc → XR) : (Prog.loadNum n a (i : Int)).exec s = .ok (s (.arr a i 0), s) := by
  unfold Prog.loadNum
  rw [if_pos ⟨by omega, by omega⟩]
  rfl

theorem faceAt_get {i f : Nat} (h : m.fs[i]? = some f) : faceAt (i : Int) m = .ok f m := by
  unfold faceAt arrayAt
  rw [if_neg (by omega)]
  simp [h]

theorem Mesh.WF.faceFaces_ok (w : m.WF) {f : Nat} (a : m.fAlive f = true) :
    faceFaces f m = .ok ((orbit m.hNext (m.fHe f)).map fun h => m.hFace (m.hRev h)) m := by
  simp only [faceFaces, bind_apply, getFHe_ok a]
  refine (w.circ_face a (fun x l => (false, l ++ [m.hFace (m.hRev x)]))
    (fun x hx _ => by simp [getRev_ok hx, getFace_ok (w.rev_alive _ hx)]) _).trans ?_
  rw [foldPure_map]
  simp

theorem Vec3.Is.triNormal {a b c : Vec3 XR} {x y z : E3} (ha : a.Is x) (hb : b.Is y) (hc : c.Is z) :
    (Vec3.cross (b.sub a) (c.sub a)).Is (triNormal x y z) := by
  obtain ⟨u, rfl, rfl⟩ := ha
  obtain ⟨v, rfl, rfl⟩ := hb
  obtain ⟨w, rfl, rfl⟩ := hc
  exact ⟨(v.sub u).cross (w.sub u), by rw [Vec3.X_vsub, Vec3.X_vsub, Vec3.X_vcross], (triNormal_E u v w).symm⟩

theorem Vec3.Is.normalize {a : Vec3 XR} {x : E3} (ha : a.Is x) (hx : x ≠ 0) : ∃ b, a.normalize? = some b ∧ b.Is (unitOf x) := by
  unfold Vec3.normalize?
  rw [ha.length]
  exact ha.div (norm_ne_zero_iff.2 hx)


/-- the arrays hold what belongs to face `f` at place `i` -/
structure HoldsFace (m : Mesh XR) (p : Nat → E3) (s : Loc → XR) (i f : Nat) : Prop where
  normal : (arrOf s 0 i).Is (unitOf (m.areaVec p f))
  center : (arrOf s 1 i).Is (m.centerOf p f)
  area : s (.arr 2 i 0) = .fin (m.areaAt p f)

theorem exec_dnNormal (G : m.Good) {s : Loc → XR} (A : ∀ v, m.vAlive v = true → (posOf s v).Is (p v)) {i f : Nat} (hi : m.fs[i]? = some f)
    (t : m.OnTri (m.fHe f)) (hn : m.areaVec p f ≠ 0) :
    ∃ s', (dnNormal m i).exec s = .ok ((), s') ∧ HoldsFace m p s' i f := by
  have w := G.wf
  have a := w.fDense.alive_at hi
  have ah := (w.fHe_ok f a).1
  have a1 := w.next_alive _ ah
  have a2 := w.next_alive _ a1
  unfold dnNormal
  rw [Prog.exec_bind, Prog.exec_topo_ok (faceAt_get hi)]; dsimp only
  rw [Prog.exec_bind, Prog.exec_topo_ok (w.faceVerts_ok a), w.tri_orbit G.simple ah t]; dsimp only
  rw [Prog.exec_bind, exec_loadAll s _ (by
    intro v hv
    simp only [List.map_cons, List.map_nil, List.mem_cons, List.not_mem_nil, or_false] at hv
    rcases hv with rfl | rfl | rfl
    · exact w.src_alive _ ah
    · exact w.src_alive _ a1
    · exact w.src_alive _ a2)]
  rw [show List.map (posOf s) (List.map m.hSrc [m.fHe f, m.hNext (m.fHe f), m.hNext (m.hNext (m.fHe f))]) =
    [posOf s (m.hSrc (m.fHe f)), posOf s (m.hSrc (m.hNext (m.fHe f))), posOf s (m.hSrc (m.hNext (m.hNext (m.fHe f))))] from rfl]
  dsimp only
  have hA := A _ (w.src_alive _ ah)
  have hB := A _ (w.src_alive _ a1)
  have hC := A _ (w.src_alive _ a2)
  have hN := hA.triNormal hB hC
  obtain ⟨n, e1, h1⟩ := hN.normalize hn
  obtain ⟨g, e2, h2⟩ := ((hA.add hB).add hC).div (s := 3) (by norm_num)
  rw [lit_three, e1, e2, hN.length, lit_half, X_mul]
  rw [Prog.exec_bind, exec_orThrow]; dsimp only
  rw [Prog.exec_bind, Prog.exec_storeArr]; dsimp only
  rw [Prog.exec_bind, exec_orThrow]; dsimp only
  rw [Prog.exec_bind, Prog.exec_storeArr]; dsimp only
  refine ⟨_, exec_storeNum _ _ _ _, ?_, ?_, ?_⟩
  · have : arrOf (setN (setA (setA s 0 i n) 1 i g) 2 i (XR.fin (1 / 2 * ‖triNormal (p (m.hSrc (m.fHe f))) (p (m.hSrc (m.hNext (m.fHe f))))
        (p (m.hSrc (m.hNext (m.hNext (m.fHe f)))))‖))) 0 i = n := by
      simp [arrOf, setN, setA, Vec3.get]
    rw [this]; exact h1
  · have : arrOf (setN (setA (setA s 0 i n) 1 i g) 2 i (XR.fin (1 / 2 * ‖triNormal (p (m.hSrc (m.fHe f))) (p (m.hSrc (m.hNext (m.fHe f))))
        (p (m.hSrc (m.hNext (m.hNext (m.fHe f)))))‖))) 1 i = g := by
      simp [arrOf, setN, setA, Vec3.get]
    rw [this]; exact h2
  · unfold setN
    rw [if_pos rfl]
    unfold Mesh.areaAt Mesh.areaVec
    congr 1
    ring

theorem exec_dnSum (w : m.WF) {s : Loc → XR} (H : ∀ i f, m.fs[i]? = some f → HoldsFace m p s i f) (bil : Bool) (σ σn : ℝ) {i f : Nat}
    (hi : m.fs[i]? = some f) : ∀ (gs : List Nat) {t : Vec3 XR} {x : E3}, (∀ g ∈ gs, m.fAlive g = true) → t.Is x →
    ∃ r, (dnSum m m.fs.length bil (XR.fin σ) (XR.fin σn) i gs t).exec s = .ok (r, s) ∧
      r.Is (x + (gs.map fun g => m.normalWeight p bil σ σn f g • unitOf (m.areaVec p g)).sum)
  | [], t, x, _, ht => ⟨t, rfl, by simpa using ht⟩
  | g :: gs, t, x, hg, ht => by
    have ag := hg g (by simp)
    obtain ⟨j, hj, e1, e2⟩ := w.fDense.at ag
    have hj' : m.fs[j]? = some g := by rw [List.getElem?_eq_getElem hj, e1]
    have hil : i < m.fs.length := (List.getElem?_eq_some_iff.1 hi).1
    have Hi := H i f hi
    have Hj := H j g hj'
    have ln0 : (Vec3.length ((arrOf s 0 i).sub (arrOf s 0 j))) = .fin (dist (unitOf (m.areaVec p f)) (unitOf (m.areaVec p g))) := by
      rw [(Hi.normal.sub Hj.normal).length, dist_eq_norm]
    have ln1 : (Vec3.length ((arrOf s 1 i).sub (arrOf s 1 j))) = .fin (dist (m.centerOf p f) (m.centerOf p g)) := by
      rw [(Hi.center.sub Hj.center).length, dist_eq_norm]
    unfold dnSum
    rw [Prog.exec_bind, Prog.exec_topo_ok (getFIdx_ok ag), e2]; dsimp only
    rw [Prog.exec_bind, Prog.exec_loadArr hil]; dsimp only
    rw [Prog.exec_bind, Prog.exec_loadArr hj]; dsimp only
    rw [Prog.exec_bind, exec_loadNum hj]; dsimp only
    rw [Prog.exec_bind, Prog.exec_loadArr hj]; dsimp only
    rw [ln1, Hj.area]
    have fin : ∀ wt : XR, wt = .fin (m.normalWeight p bil σ σn f g) →
        ∃ r, (dnSum m m.fs.length bil (XR.fin σ) (XR.fin σn) i gs (t.add (Vec3.smul wt (arrOf s 0 j)))).exec s = .ok (r, s) ∧
          r.Is (x + ((g :: gs).map fun g => m.normalWeight p bil σ σn f g • unitOf (m.areaVec p g)).sum) := by
      rintro wt rfl
      obtain ⟨r, h1, h2⟩ := exec_dnSum w H bil σ σn hi gs (fun g' h => hg g' (by simp [h])) (ht.add (Hj.normal.smul (m.normalWeight p bil σ σn f g)))
      refine ⟨r, h1, ?_⟩
      rw [List.map_cons, List.sum_cons, ← add_assoc]
      exact h2
    cases bil
    · rw [if_neg (by simp)]
      refine fin _ ?_
      unfold dnWeight Mesh.normalWeight
      rw [if_neg (by simp), if_neg (by simp), weightK_eq _ _ dist_nonneg, X_mul, mul_one, mul_comm]
    · rw [if_pos rfl, Prog.exec_bind, Prog.exec_loadArr hil]; dsimp only
      rw [ln0]
      refine fin _ ?_
      unfold dnWeight Mesh.normalWeight
      rw [if_pos rfl, if_pos rfl, weightK_eq _ _ dist_nonneg, weightK_eq _ _ dist_nonneg, X_mul, X_mul]

theorem sum_perm' {l l' : List Nat} (h : l.Perm l') (f : Nat → E3) : (l.map f).sum = (l'.map f).sum := (h.map f).sum_eq

theorem exec_dnFilter (w : m.WF) {s : Loc → XR} (H : ∀ i f, m.fs[i]? = some f → HoldsFace m p s i f) (bil : Bool) (σ σn : ℝ) {i f : Nat}
    (hi : m.fs[i]? = some f) (h0 : arrOf s 3 i = Vec3.zero) :
    ∃ s', (dnFilter m m.fs.length bil (XR.fin σ) (XR.fin σn) i).exec s = .ok ((), s') ∧
      (arrOf s' 3 i).Is (m.filteredNormal p bil σ σn f) := by
  have a := w.fDense.alive_at hi
  unfold dnFilter
  rw [Prog.exec_bind, Prog.exec_topo_ok (faceAt_get hi)]; dsimp only
  rw [Prog.exec_bind, Prog.exec_topo_ok (w.faceFaces_ok a)]; dsimp only
  obtain ⟨r, h1, h2⟩ := exec_dnSum w H bil σ σn hi ((orbit m.hNext (m.fHe f)).map fun h => m.hFace (m.hRev h)) (by
    intro g hg
    obtain ⟨h, hh, rfl⟩ := List.mem_map.1 hg
    exact w.face_alive _ (w.rev_alive _ ((w.mem_loop a).1 hh).1)) Vec3.Is.zero
  rw [Prog.exec_bind, h1]; dsimp only
  rw [zero_add, List.map_map] at h2
  have e : ((orbit m.hNext (m.fHe f)).map ((fun g => m.normalWeight p bil σ σn f g • unitOf (m.areaVec p g)) ∘ fun h => m.hFace (m.hRev h))).sum =
      ((m.hes.filter fun h => m.hFace h == f).map fun h =>
        m.normalWeight p bil σ σn f (m.hFace (m.hRev h)) • unitOf (m.areaVec p (m.hFace (m.hRev h)))).sum := sum_perm' (w.loop_perm a) _
  rw [e] at h2
  unfold Mesh.filteredNormal
  generalize ((m.hes.filter fun h => m.hFace h == f).map fun h =>
        m.normalWeight p bil σ σn f (m.hFace (m.hRev h)) • unitOf (m.areaVec p (m.hFace (m.hRev h)))).sum = x at h2 ⊢
  rw [h2.length]
  by_cases hx : x = 0
  · subst hx
    rw [if_pos (by rw [lit_zero, norm_zero, X_eq, R_eq])]
    refine ⟨s, rfl, ?_⟩
    rw [h0]
    unfold unitOf
    rw [smul_zero]
    exact Vec3.Is.zero
  · have hl : ‖x‖ ≠ 0 := norm_ne_zero_iff.2 hx
    rw [if_neg (by rw [lit_zero, X_eq, R_eq]; exact hl)]
    obtain ⟨b, e3, h3⟩ := h2.div hl
    rw [e3, Prog.exec_bind, exec_orThrow]; dsimp only
    refine ⟨_, Prog.exec_storeArr _ _ _ _, ?_⟩
    rw [arrOf_setA]
    exact h3

theorem exec_dnIncr (w : m.WF) {s : Loc → XR} {n : Nat → E3} (H : ∀ i f, m.fs[i]? = some f → HoldsFace m p s i f)
    (N : ∀ i f, m.fs[i]? = some f → (arrOf s 3 i).Is (n f)) {v : Nat} (a : m.vAlive v = true) (hv : (posOf s v).Is (p v)) :
    ∀ (gs : List Nat) {t : ℝ} {c : Vec3 XR} {x : E3}, (∀ g ∈ gs, m.fAlive g = true) → c.Is x →
    ∃ c', (dnIncr m m.fs.length v gs (XR.fin t) c).exec s = .ok ((XR.fin (t + (gs.map (m.areaAt p)).sum), c'), s) ∧
      c'.Is (x + (gs.map fun g => (m.areaAt p g * inner ℝ (n g) (m.centerOf p g - p v)) • n g).sum)
  | [], t, c, x, _, hc => ⟨c, by simp [dnIncr]; rfl, by simpa using hc⟩
  | g :: gs, t, c, x, hg, hc => by
    have ag := hg g (by simp)
    obtain ⟨j, hj, e1, e2⟩ := w.fDense.at ag
    have hj' : m.fs[j]? = some g := by rw [List.getElem?_eq_getElem hj, e1]
    have Hj := H j g hj'
    have Nj := N j g hj'
    unfold dnIncr
    rw [Prog.exec_bind, Prog.exec_topo_ok (getFIdx_ok ag), e2]; dsimp only
    rw [Prog.exec_bind, exec_loadNum hj]; dsimp only
    rw [Prog.exec_bind, Prog.exec_loadArr hj]; dsimp only
    rw [Prog.exec_bind, Prog.exec_loadArr hj]; dsimp only
    rw [Prog.exec_bind, Prog.exec_loadPos a]; dsimp only
    rw [Hj.area, Nj.dot (Hj.center.sub hv), X_mul, X_add]
    obtain ⟨c', h1, h2⟩ := exec_dnIncr w H N a hv gs (t := t + m.areaAt p g) (fun g' h => hg g' (by simp [h]))
      (hc.add (Nj.smul (m.areaAt p g * inner ℝ (n g) (m.centerOf p g - p v))))
    refine ⟨c', ?_, ?_⟩
    · rw [h1, List.map_cons, List.sum_cons, add_assoc]
    · rw [List.map_cons, List.sum_cons, ← add_assoc]; exact h2

theorem exec_dnMove (w : m.WF) {s : Loc → XR} {n : Nat → E3} (H : ∀ i f, m.fs[i]? = some f → HoldsFace m p s i f)
    (N : ∀ i f, m.fs[i]? = some f → (arrOf s 3 i).Is (n f)) {i v : Nat} (hi : m.vs[i]? = some v) (hv : (posOf s v).Is (p v))
    (ha : ((m.hes.filter fun h => m.hSrc h == v).map fun h => m.areaAt p (m.hFace h)).sum ≠ 0) :
    ∃ s', (dnMove m m.fs.length i).exec s = .ok ((), s') ∧ (posOf s' v).Is (m.projected p n v) := by
  have a := w.vDense.alive_at hi
  unfold dnMove
  rw [Prog.exec_bind, Prog.exec_topo_ok (vertexAt_ok hi)]; dsimp only
  rw [Prog.exec_bind, Prog.exec_topo_ok (w.vertFaces_ok a)]; dsimp only
  obtain ⟨c, h1, h2⟩ := exec_dnIncr w H N a hv ((orbit m.sig (m.vHe v)).map m.hFace) (t := 0) (by
    intro g hg
    obtain ⟨h, hh, rfl⟩ := List.mem_map.1 hg
    exact w.face_alive _ ((w.mem_ring a).1 hh).1) Vec3.Is.zero
  have e1 : (((orbit m.sig (m.vHe v)).map m.hFace).map (m.areaAt p)).sum =
      ((m.hes.filter fun h => m.hSrc h == v).map fun h => m.areaAt p (m.hFace h)).sum := by
    rw [List.map_map]
    exact ((w.ring_perm a).map _).sum_eq
  rw [lit_zero, Prog.exec_bind, h1]; dsimp only
  rw [zero_add, e1]
  rw [zero_add, List.map_map] at h2
  have e2 : ((orbit m.sig (m.vHe v)).map ((fun g => (m.areaAt p g * inner ℝ (n g) (m.centerOf p g - p v)) • n g) ∘ m.hFace)).sum = _ :=
    sum_perm' (w.ring_perm a) _
  rw [e2] at h2
  obtain ⟨b, e3, h3⟩ := h2.div ha
  rw [e3, Prog.exec_bind, exec_orThrow]; dsimp only
  rw [Prog.exec_bind, Prog.exec_loadPos a]; dsimp only
  refine ⟨_, Prog.exec_storePos a _ _, ?_⟩
  rw [posOf_setP]
  exact hv.add h3

/-! ### the three loops -/

theorem Mesh.Solid.areaSum {m : Mesh XR} (S : m.Solid p) (w : m.WF) {v : Nat} (a : m.vAlive v = true) :
    0 < ((m.hes.filter fun h => m.hSrc h == v).map fun h => m.areaAt p (m.hFace h)).sum := by
  have pos : ∀ h, m.hAlive h = true → 0 < m.areaAt p (m.hFace h) := fun h ah => by
    unfold Mesh.areaAt
    have := norm_pos_iff.2 (S.area _ (w.face_alive _ ah))
    positivity
  have hl : ∀ l : List Nat, (∀ h ∈ l, m.hAlive h = true) → l ≠ [] → 0 < (l.map fun h => m.areaAt p (m.hFace h)).sum := by
    intro l hl hne
    induction l with
    | nil => exact absurd rfl hne
    | cons x l ih =>
      rw [List.map_cons, List.sum_cons]
      have := pos x (hl x (by simp))
      by_cases he : l = []
      · subst he; simpa using this
      · have := ih (fun h hh => hl h (by simp [hh])) he
        linarith
  refine hl _ (fun h hh => (w.hDense.mem h).1 (List.mem_filter.1 hh).1) ?_
  have := w.vHe_ok v a
  exact List.ne_nil_of_mem (List.mem_filter.2 ⟨(w.hDense.mem _).2 this.1, by simpa using this.2⟩)

theorem dnSweep_exact (G : m.Good) (A : m.AtE p) (S : m.Solid p) (bil : Bool) (σ σn : ℝ) :
    ∃ m', dnSweep bil (XR.fin σ) (XR.fin σn) m = .ok () m' ∧ m.SameButPos m' ∧ m'.AtE (m.denoised p bil σ σn) := by
  have w := G.wf
  have r1 := dnNormal_free (m := m) m.fs.length
  have r2 := dnFilter_free (m := m) m.fs.length m.fs.length bil (XR.fin σ) (XR.fin σn)
  have r3 := dnMove_free w m.vs.length m.fs.length
  have fat : ∀ i < m.fs.length, ∃ f, m.fs[i]? = some f := fun i hi => ⟨_, List.getElem?_eq_getElem hi⟩
  have vat : ∀ i < m.vs.length, ∃ v, m.vs[i]? = some v := fun i hi => ⟨_, List.getElem?_eq_getElem hi⟩
  have x1 : ∀ i f, m.fs[i]? = some f → ∃ s', (dnNormal m i).exec m.mem = .ok ((), s') ∧ HoldsFace m p s' i f := fun i f hi =>
    exec_dnNormal G (s := m.mem) A hi (S.tri f (w.fDense.alive_at hi)) (S.area f (w.fDense.alive_at hi))
  unfold dnSweep
  dsimp only
  cases h1 : serial (dnNormal m) (List.range m.fs.length) m.mem with
  | error e =>
    obtain ⟨i, hi, he⟩ := r1.serial_error h1
    obtain ⟨f, hf⟩ := fat i hi
    obtain ⟨s', hs, -⟩ := x1 i f hf
    rw [hs] at he
    cases he
  | ok s1 =>
    obtain ⟨k1, k2⟩ := r1.serial_ok h1
    have H1 : ∀ i f, m.fs[i]? = some f → HoldsFace m p s1 i f := by
      intro i f hf
      obtain ⟨s', hs, hl⟩ := k1 i (List.getElem?_eq_some_iff.1 hf).1
      obtain ⟨s'', hs', hh⟩ := x1 i f hf
      rw [hs'] at hs
      injection hs with hs
      injection hs with _ hs
      subst hs
      have e0 : arrOf s1 0 i = arrOf s'' 0 i := by
        simp only [arrOf]
        rw [hl (.arr 0 i 0) (Or.inl ⟨rfl, rfl⟩), hl (.arr 0 i 1) (Or.inl ⟨rfl, rfl⟩), hl (.arr 0 i 2) (Or.inl ⟨rfl, rfl⟩)]
      have e1 : arrOf s1 1 i = arrOf s'' 1 i := by
        simp only [arrOf]
        rw [hl (.arr 1 i 0) (Or.inr (Or.inl ⟨rfl, rfl⟩)), hl (.arr 1 i 1) (Or.inr (Or.inl ⟨rfl, rfl⟩)),
          hl (.arr 1 i 2) (Or.inr (Or.inl ⟨rfl, rfl⟩))]
      exact ⟨by rw [e0]; exact hh.normal, by rw [e1]; exact hh.center, by rw [hl (.arr 2 i 0) (Or.inr (Or.inr ⟨rfl, rfl⟩))]; exact hh.area⟩
    have P1 : ∀ v, posOf s1 v = m.vPos v := by
      intro v
      have : ∀ c, s1 (.pos v c) = m.mem (.pos v c) := fun c => k2 _ fun i _ h => by simp [ArrAt] at h
      exact (by simp only [posOf, this] : posOf s1 v = posOf m.mem v)
    have Z1 : ∀ i, arrOf s1 3 i = Vec3.zero := by
      intro i
      have : ∀ c, s1 (.arr 3 i c) = m.mem (.arr 3 i c) := fun c => k2 _ fun i _ h => by simp [ArrAt] at h
      simp only [arrOf, this]
      rfl
    have x2 := fun i f (hi : m.fs[i]? = some f) => exec_dnFilter w H1 bil σ σn hi (Z1 i)
    dsimp only
    cases h2 : serial (dnFilter m m.fs.length bil (XR.fin σ) (XR.fin σn)) (List.range m.fs.length) s1 with
    | error e =>
      obtain ⟨i, hi, he⟩ := r2.serial_error h2
      obtain ⟨f, hf⟩ := fat i hi
      obtain ⟨s', hs, -⟩ := x2 i f hf
      rw [hs] at he
      cases he
    | ok s2 =>
      obtain ⟨l1, l2⟩ := r2.serial_ok h2
      have N2 : ∀ i f, m.fs[i]? = some f → (arrOf s2 3 i).Is (m.filteredNormal p bil σ σn f) := by
        intro i f hf
        obtain ⟨s', hs, hl⟩ := l1 i (List.getElem?_eq_some_iff.1 hf).1
        obtain ⟨s'', hs', hh⟩ := x2 i f hf
        rw [hs'] at hs
        injection hs with hs
        injection hs with _ hs
        subst hs
        have e3 : arrOf s2 3 i = arrOf s'' 3 i := by
          simp only [arrOf]
          rw [hl (.arr 3 i 0) ⟨rfl, rfl⟩, hl (.arr 3 i 1) ⟨rfl, rfl⟩, hl (.arr 3 i 2) ⟨rfl, rfl⟩]
        rw [e3]
        exact hh
      have same : ∀ b i c, b ≠ 3 → s2 (.arr b i c) = s1 (.arr b i c) := fun b i c hb => l2 _ fun j _ h => hb h.1
      have H2 : ∀ i f, m.fs[i]? = some f → HoldsFace m p s2 i f := by
        intro i f hf
        have h := H1 i f hf
        have e : ∀ b, b ≠ 3 → arrOf s2 b i = arrOf s1 b i := fun b hb => by simp only [arrOf, same b i _ hb]
        exact ⟨by rw [e 0 (by omega)]; exact h.normal, by rw [e 1 (by omega)]; exact h.center, by rw [same 2 i 0 (by omega)]; exact h.area⟩
      have P2 : ∀ v, posOf s2 v = m.vPos v := by
        intro v
        have : ∀ c, s2 (.pos v c) = s1 (.pos v c) := fun c => l2 _ fun i _ h => h
        rw [← P1 v]
        simp only [posOf, this]
      have x3 := fun i v (hi : m.vs[i]? = some v) => exec_dnMove w H2 N2 hi (by rw [P2]; exact A v (w.vDense.alive_at hi))
        (S.areaSum w (w.vDense.alive_at hi)).ne'
      dsimp only
      cases h3 : serial (dnMove m m.fs.length) (List.range m.vs.length) s2 with
      | error e =>
        obtain ⟨i, hi, he⟩ := r3.serial_error h3
        obtain ⟨v, hv⟩ := vat i hi
        obtain ⟨s', hs, -⟩ := x3 i v hv
        rw [hs] at he
        cases he
      | ok s3 =>
        obtain ⟨q1, q2⟩ := r3.serial_ok h3
        refine ⟨_, rfl, rfl, ?_⟩
        intro v a
        have a : m.vAlive v = true := a
        obtain ⟨i, hi⟩ := List.mem_iff_getElem?.1 ((w.vDense.mem v).2 a)
        obtain ⟨s', hs, hl⟩ := q1 i (List.getElem?_eq_some_iff.1 hi).1
        obtain ⟨s'', hs', hh⟩ := x3 i v hi
        rw [hs'] at hs
        injection hs with hs
        injection hs with _ hs
        subst hs
        have e : posOf s3 v = posOf s'' v := by
          simp only [posOf]
          rw [hl (.pos v 0) hi, hl (.pos v 1) hi, hl (.pos v 2) hi]
        change (posOf s3 v).Is _
        rw [e]
        exact hh

end TinyMesh
