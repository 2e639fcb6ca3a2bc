import Verif.Proof.L0A
/-
L0 denoising: one round of the loop in exact arithmetic.
-/
namespace TinyMesh
open Matrix

section
variable {F : Type} {m : Mesh F}

/-- four vertices of an edge, with weights -/
def quadL (m : Mesh F) (h : Nat) (c : ℝ × ℝ × ℝ × ℝ) : List (Nat × ℝ) :=
  [(m.hSrc h, c.1), (m.hSrc (m.hNext (m.hNext h)), c.2.1), (m.hSrc (m.hRev h), c.2.2.1), (m.hSrc (m.hNext (m.hNext (m.hRev h))), c.2.2.2)]

theorem quadL_alive (wf : m.WF) {h : Nat} (a : m.hAlive h = true) (c : ℝ × ℝ × ℝ × ℝ) : ∀ t ∈ quadL m h c, m.vAlive t.1 = true := by
  intro t ht
  have ar := wf.rev_alive h a
  simp only [quadL, List.mem_cons, List.not_mem_nil, or_false] at ht
  rcases ht with rfl | rfl | rfl | rfl
  · exact wf.src_alive _ a
  · exact wf.src_alive _ (wf.next_alive _ (wf.next_alive _ a))
  · exact wf.src_alive _ ar
  · exact wf.src_alive _ (wf.next_alive _ (wf.next_alive _ ar))

/-- the triplets of the row of an edge -/
def quadT (m : Mesh F) (S : List Nat) (c : Nat → ℝ × ℝ × ℝ × ℝ) (e : Nat) : List (Int × Int × ℝ) :=
  match S[e]? with
  | some h => (quadL m h (c h)).map fun t => ((e : Int), m.vIdx t.1, t.2)
  | none => []

/-- the matrix with one row for each edge -/
noncomputable def Mesh.quadMat (m : Mesh F) (S : List Nat) (c : Nat → ℝ × ℝ × ℝ × ℝ) : Matrix (Fin S.length) (Fin m.vs.length) ℝ :=
  fun e j => coef (quadT m S c e) e j

theorem quadMat_apply (wf : m.WF) {S : List Nat} (hS : ∀ h ∈ S, m.hAlive h = true) (c : Nat → ℝ × ℝ × ℝ × ℝ) (x : Nat → ℝ) (e : Fin S.length) :
    (m.quadMat S c).mulVec (fun j => x m.vs[j]) e = ((quadL m S[e] (c S[e])).map fun t => t.2 * x t.1).sum := by
  have hv : S[(e : Nat)]? = some S[e] := List.getElem?_eq_getElem e.2
  refine Eq.trans ?_ (coef_apply wf x e _ (quadL_alive wf (hS _ (List.getElem_mem e.2)) _))
  change ∑ j, m.quadMat S c e j * _ = _
  unfold Mesh.quadMat quadT
  rw [hv]

theorem quadT_fst (S : List Nat) (c : Nat → ℝ × ℝ × ℝ × ℝ) (e : Nat) : ∀ t ∈ quadT m S c e, t.1 = (e : Int) := by
  intro t ht
  unfold quadT at ht
  split at ht
  · obtain ⟨x, -, rfl⟩ := List.mem_map.1 ht; rfl
  · simp at ht

end

section
variable {m : Mesh XR} {p : Nat → E3}

theorem quadMat_ok (wf : m.WF) {S : List Nat} (hS : ∀ h ∈ S, m.hAlive h = true) {c : Nat → ℝ × ℝ × ℝ × ℝ}
    {row : Nat → M XR (List (Triplet XR))} (hr : ∀ e h, S[e]? = some h → row e m = .ok ((quadT m S c e).map finT) m) :
    ∃ ts L, rows row (List.range S.length) m = .ok ts m ∧ ofTripletsRect S.length m.vs.length ts m = .ok L m ∧
      ∀ (e : Fin S.length) (j : Fin m.vs.length), L e j = XR.fin (m.quadMat S c e j) := by
  have h1 := rows_ok (m := m) (row := row) (f := quadT m S c) (List.range S.length) fun e he => by
    exact hr e _ (List.getElem?_eq_getElem (List.mem_range.1 he))
  obtain ⟨L, h2, h3⟩ := ofTripletsRect_fin (r := S.length) (c := m.vs.length) (ts := (List.range S.length).flatMap (quadT m S c)) (by
    intro t ht
    obtain ⟨e, he, ht⟩ := List.mem_flatMap.1 ht
    have he := List.mem_range.1 he
    rw [quadT_fst S c e t ht]
    refine ⟨by omega, by omega, ?_⟩
    unfold quadT at ht
    rw [List.getElem?_eq_getElem he] at ht
    obtain ⟨x, hx, rfl⟩ := List.mem_map.1 ht
    obtain ⟨k, hk⟩ := wf.vDense.exists_at (quadL_alive wf (hS _ (List.getElem_mem he)) _ x hx)
    have := (List.getElem?_eq_some_iff.1 hk).1
    dsimp only
    rw [wf.vDense.idx_of hk]
    omega) m
  refine ⟨_, L, h1, h2, fun e j => ?_⟩
  rw [h3, coef_flat (quadT_fst S c) _ e.2]
  rfl

theorem edgeQuad_ok {F : Type} {m : Mesh F} (wf : m.WF) {h : Nat} (a : m.hAlive h = true) : edgeQuad h m =
    .ok (m.hSrc h, m.hSrc (m.hNext (m.hNext h)), m.hSrc (m.hRev h), m.hSrc (m.hNext (m.hNext (m.hRev h)))) m := by
  have ar := wf.rev_alive h a
  have an := wf.next_alive h a
  have arn := wf.next_alive _ ar
  unfold edgeQuad
  simp only [bind_apply, getRev_ok a, getSrc_ok a, getSrc_ok ar, getNext_ok a, getNext_ok ar, getDst_ok an (wf.next_alive _ an),
    getDst_ok arn (wf.next_alive _ arn), pure_apply]

/-- four finite numbers -/
def fin4 (c : ℝ × ℝ × ℝ × ℝ) : XR × XR × XR × XR := (XR.fin c.1, XR.fin c.2.1, XR.fin c.2.2.1, XR.fin c.2.2.2)

theorem quadTriplets_ok (wf : m.WF) {S : List Nat} {e h : Nat} (he : S[e]? = some h) (a : m.hAlive h = true) (c : Nat → ℝ × ℝ × ℝ × ℝ) :
    quadTriplets e (m.hSrc h, m.hSrc (m.hNext (m.hNext h)), m.hSrc (m.hRev h), m.hSrc (m.hNext (m.hNext (m.hRev h)))) (fin4 (c h)) m =
      .ok ((quadT m S c e).map finT) m := by
  have ha := quadL_alive wf a (c h)
  have h1 := ha _ (List.mem_cons_self)
  have h2 := ha _ (List.mem_cons_of_mem _ List.mem_cons_self)
  have h3 := ha _ (List.mem_cons_of_mem _ (List.mem_cons_of_mem _ List.mem_cons_self))
  have h4 := ha _ (List.mem_cons_of_mem _ (List.mem_cons_of_mem _ (List.mem_cons_of_mem _ List.mem_cons_self)))
  unfold quadTriplets quadT
  rw [he]
  simp only [bind_apply, getVIdx_ok h1, getVIdx_ok h2, getVIdx_ok h3, getVIdx_ok h4, pure_apply]
  rfl

theorem edgeNo_ok {F : Type} {m : Mesh F} {S : List Nat} {e h : Nat} (he : S[e]? = some h) : edgeNo S e m = .ok h m := by
  unfold edgeNo
  rw [he]; rfl

theorem l0RowR_ok (wf : m.WF) {S : List Nat} {e h : Nat} (he : S[e]? = some h) (a : m.hAlive h = true) :
    l0RowR S e m = .ok ((quadT m S (fun _ => (1, -1, 1, -1)) e).map finT) m := by
  unfold l0RowR
  rw [bind_apply, edgeNo_ok he]; dsimp only
  rw [bind_apply, edgeQuad_ok wf a]; dsimp only
  rw [← quadTriplets_ok wf he a]
  congr 1
  simp [fin4, R_lit]

/-- the weights of the edge operator -/
noncomputable def Mesh.bendC (m : Mesh XR) (p : Nat → E3) (h : Nat) : ℝ × ℝ × ℝ × ℝ :=
  let s := m.areaOf p h
  let t := m.areaOf p (m.hRev h)
  let u := footAt (p (m.hSrc h)) (p (m.hSrc (m.hNext h))) (tipMean s t (p (m.hSrc (m.hNext (m.hNext h)))) (p (m.hSrc (m.hNext (m.hNext (m.hRev h))))))
  (u - 1, t / (s + t), -u, s / (s + t))

theorem tri_len {a b c : Vec3 XR} {x y z : E3} (ha : a.Is x) (hb : b.Is y) (hc : c.Is z) :
    Vec3.length (Vec3.cross (b.sub a) (b.sub c)) = XR.fin (2 * triArea x z y) := by
  obtain ⟨x, rfl, rfl⟩ := ha
  obtain ⟨y, rfl, rfl⟩ := hb
  obtain ⟨z, rfl, rfl⟩ := hc
  rw [Vec3.X_vsub, Vec3.X_vsub, Vec3.X_vcross, Vec3.X_vlength]
  have e : triArea x.E z.E y.E = ‖triNormal x.E z.E y.E‖ / 2 := rfl
  rw [e, triNormal_E, Vec3.E_norm, mul_div_cancel₀ _ (two_ne_zero), Vec3.length_def, Vec3.length_def]
  congr 2
  simp only [Vec3.dot_def, Vec3.cross_def, Vec3.sub_def]
  ring

theorem triArea_swap (x y z : E3) : triArea x y z = triArea y x z := by
  obtain ⟨a, rfl⟩ := Vec3.E_surj x
  obtain ⟨b, rfl⟩ := Vec3.E_surj y
  obtain ⟨c, rfl⟩ := Vec3.E_surj z
  have e : ∀ x y z : Vec3 ℝ, triArea x.E y.E z.E = ‖triNormal x.E y.E z.E‖ / 2 := fun _ _ _ => rfl
  rw [e, e, triNormal_E, triNormal_E, Vec3.E_norm, Vec3.E_norm, Vec3.length_def, Vec3.length_def]
  congr 2
  simp only [Vec3.dot_def, Vec3.cross_def, Vec3.sub_def]
  ring

/-- the coefficients of the code are the weights of the edge operator -/
theorem l0Coefs_exact {a b c d : Vec3 XR} {x y z w : E3} (ha : a.Is x) (hb : b.Is y) (hc : c.Is z) (hd : d.Is w)
    (h1 : x ≠ z) {s t : ℝ} (hs : s = triArea x z y) (ht : t = triArea z x w) (h2 : 0 < s + t) :
    l0Coefs a b c d = fin4 (footAt x z (tipMean s t y w) - 1, t / (s + t), -footAt x z (tipMean s t y w), s / (s + t)) := by
  have hn : ‖x - z‖ ≠ 0 := norm_ne_zero_iff.2 (sub_ne_zero.2 h1)
  have hq : ‖x - z‖ * ‖x - z‖ * (s + t) ≠ 0 := mul_ne_zero (mul_ne_zero hn hn) h2.ne'
  have hz : inner ℝ (z - x) (z - x) = ‖x - z‖ * ‖x - z‖ := by
    rw [real_inner_self_eq_norm_mul_norm, norm_sub_rev]
  have hf : footAt x z (tipMean s t y w) =
      (t * inner ℝ (y - x) (z - x) + s * inner ℝ (w - x) (z - x)) / (‖x - z‖ * ‖x - z‖ * (s + t)) := by
    unfold footAt tipMean
    have : (t / (s + t)) • y + (s / (s + t)) • w - x = (t / (s + t)) • (y - x) + (s / (s + t)) • (w - x) := by
      have : x = (t / (s + t)) • x + (s / (s + t)) • x := by
        rw [← add_smul, ← add_div, add_comm t, div_self h2.ne', one_smul]
      conv_lhs => rw [this]
      simp only [smul_sub]; abel
    rw [this, inner_add_left, real_inner_smul_left, real_inner_smul_left, norm_sub_rev z x, sq]
    field_simp
  have l2 : ∀ r : ℝ, (Scalar.lit 1 2 : XR) * XR.fin (2 * r) = XR.fin r := by
    intro r
    rw [X_lit, X_mul, R_lit]; congr 1; norm_num; ring
  unfold l0Coefs fin4
  dsimp only
  rw [tri_len ha hb hc, tri_len ha hd hc, l2, l2, triArea_swap x z w, ← hs, ← ht, (ha.sub hc).length,
    (hd.sub hc).dot (hc.sub ha), (ha.sub hc).dot (hc.sub hb), (hc.sub ha).dot (ha.sub hd), (hb.sub ha).dot (ha.sub hc)]
  simp only [X_mul, X_add]
  rw [X_div (h := hq), X_div (h := h2.ne'), X_div (h := hq), X_div (h := h2.ne'), hf]
  have i1 : inner ℝ (w - z) (z - x) = inner ℝ (w - x) (z - x) - ‖x - z‖ * ‖x - z‖ := by
    rw [← hz, ← inner_sub_left]; congr 1; abel
  have i2 : inner ℝ (x - z) (z - y) = inner ℝ (y - x) (z - x) - ‖x - z‖ * ‖x - z‖ := by
    rw [← hz, ← inner_sub_left, ← neg_sub z x, ← neg_sub y z, inner_neg_neg, real_inner_comm]; congr 1; abel
  have i3 : inner ℝ (z - x) (x - w) = -inner ℝ (w - x) (z - x) := by
    rw [← neg_sub w x, inner_neg_right, real_inner_comm]
  have i4 : inner ℝ (y - x) (x - z) = -inner ℝ (y - x) (z - x) := by
    rw [← neg_sub z x, inner_neg_right]
  rw [i1, i2, i3, i4]
  refine Prod.ext ?_ (Prod.ext rfl (Prod.ext ?_ rfl))
  · dsimp only
    congr 1
    field_simp
    ring
  · dsimp only
    congr 1
    field_simp
    ring

theorem l0RowD_ok (wf : m.WF) (A : m.AtE p) (hp : m.L0Proper p) {S : List Nat} {e h : Nat} (he : S[e]? = some h) (a : m.hAlive h = true) :
    l0RowD S e m = .ok ((quadT m S (m.bendC p) e).map finT) m := by
  have ar := wf.rev_alive h a
  have e1 : m.hSrc (m.hRev h) = m.hSrc (m.hNext h) := wf.src_rev _ a
  have e2 : m.hSrc (m.hNext (m.hRev h)) = m.hSrc h := by
    have := wf.src_rev _ ar
    rw [wf.rev_rev _ a] at this
    exact this.symm
  have a1 := wf.src_alive _ a
  have a2 := wf.src_alive _ (wf.next_alive _ (wf.next_alive _ a))
  have a3 := wf.src_alive _ ar
  have a4 := wf.src_alive _ (wf.next_alive _ (wf.next_alive _ ar))
  unfold l0RowD
  rw [bind_apply, edgeNo_ok he]; dsimp only
  rw [bind_apply, edgeQuad_ok wf a]; dsimp only
  rw [bind_apply, getPos_ok a1]; dsimp only
  rw [bind_apply, getPos_ok a2]; dsimp only
  rw [bind_apply, getPos_ok a3]; dsimp only
  rw [bind_apply, getPos_ok a4]; dsimp only
  have hc : l0Coefs (m.vPos (m.hSrc h)) (m.vPos (m.hSrc (m.hNext (m.hNext h)))) (m.vPos (m.hSrc (m.hRev h)))
      (m.vPos (m.hSrc (m.hNext (m.hNext (m.hRev h))))) = fin4 (m.bendC p h) := by
    have hA := l0Coefs_exact (A _ a1) (A _ a2) (A _ a3) (A _ a4) (s := m.areaOf p h) (t := m.areaOf p (m.hRev h))
      (by rw [e1]; exact (hp h a).1) (by unfold Mesh.areaOf; rw [e1]) (by unfold Mesh.areaOf; rw [e2]) (hp h a).2
    rw [hA, e1]
    rfl
  rw [hc, quadTriplets_ok wf he a]

theorem bendC_apply (wf : m.WF) {h : Nat} (a : m.hAlive h = true) (p q : Nat → E3) (k : Fin 3) :
    ((quadL m h (m.bendC p h)).map fun t => t.2 * q t.1 k).sum = m.bendOf p q h k := by
  have e1 : m.hSrc (m.hRev h) = m.hSrc (m.hNext h) := wf.src_rev _ a
  simp only [quadL, Mesh.bendC, Mesh.bendOf, tipMean, List.map_cons, List.map_nil, List.sum_cons, List.sum_nil, e1, PiLp.sub_apply,
    PiLp.add_apply, PiLp.smul_apply, smul_eq_mul]
  ring

theorem crossC_apply (wf : m.WF) {h : Nat} (a : m.hAlive h = true) (q : Nat → E3) (k : Fin 3) :
    ((quadL m h (1, -1, 1, -1)).map fun t => t.2 * q t.1 k).sum = m.crossOf q h k := by
  have e1 : m.hSrc (m.hRev h) = m.hSrc (m.hNext h) := wf.src_rev _ a
  simp only [quadL, Mesh.crossOf, List.map_cons, List.map_nil, List.sum_cons, List.sum_nil, e1, PiLp.sub_apply,
    PiLp.add_apply]
  ring

end
end TinyMesh
