import Verif.Proof.LinesD
/-
Ridge and valley lines: the field.
-/
namespace TinyMesh
open Orbit

theorem Vec3.Is.normalize_zero {a : Vec3 XR} (ha : a.Is 0) : a.normalize? = none := by
  have h := ha.length
  rw [norm_zero] at h
  unfold Vec3.normalize?
  rw [h]
  obtain ⟨w, rfl, -⟩ := ha
  rw [Vec3.X_vdiv, Vec3.div?_def, if_pos rfl]; rfl

theorem putDirs_ok {m : Mesh XR} {xx : Nat → Vec3 XR} {X : Nat → E3} : ∀ (l : List Nat) (k : Nat) (d : Nat → Vec3 XR), l.Nodup →
    (∀ (a : Nat) i, l[a]? = some i → (xx (k + a)).Is (X i)) →
    ((∃ i ∈ l, X i = 0) → putDirs xx k l d m = .err .throw) ∧
    ((∀ i ∈ l, X i ≠ 0) → ∃ d', putDirs xx k l d m = .ok d' m ∧ (∀ i ∈ l, (d' i).Is (unitOf (X i))) ∧ ∀ i, i ∉ l → d' i = d i)
  | [], k, d, _, _ => ⟨by simp, fun _ => ⟨d, rfl, by simp, fun _ _ => rfl⟩⟩
  | i :: l, k, d, nd, h => by
    obtain ⟨ni, nd⟩ := List.nodup_cons.1 nd
    have h0 := h 0 i rfl
    rw [Nat.add_zero] at h0
    by_cases z : X i = 0
    · rw [z] at h0
      refine ⟨fun _ => ?_, fun h' => absurd z (h' i (by simp))⟩
      unfold putDirs
      rw [h0.normalize_zero]
      rfl
    · obtain ⟨x, e1, e2⟩ := h0.normalize z
      have run : putDirs xx k (i :: l) d m = putDirs xx (k + 1) l (upd d i x) m := by
        rw [putDirs, e1]; rfl
      obtain ⟨ih1, ih2⟩ := putDirs_ok (m := m) (xx := xx) l (k + 1) (upd d i x) nd fun a j hj => by
        have := h (a + 1) j (by simpa using hj)
        rwa [show k + (a + 1) = k + 1 + a by omega] at this
      rw [run]
      refine ⟨fun ⟨j, hj, hz⟩ => ih1 ⟨j, (List.mem_cons.1 hj).resolve_left fun e => z (e ▸ hz), hz⟩, fun h' => ?_⟩
      obtain ⟨d', r1, r2, r3⟩ := ih2 fun j hj => h' j (by simp [hj])
      refine ⟨d', r1, fun j hj => ?_, fun j hj => ?_⟩
      · rcases List.mem_cons.1 hj with rfl | hj
        · rw [r3 _ ni, upd_same]; exact e2
        · exact r2 j hj
      · rw [r3 j fun h => hj (by simp [h]), upd_ne _ _ fun e : j = i => hj (by simp [e])]

section
variable {m : Mesh XR} {p : Nat → E3} {c : CurvData} {ks : List (Principal XR)} {es : List (XR × XR)}

open Classical in
/-- the state before the system is solved -/
theorem lineField_start (G : m.Good) (A : m.AtE p) (C : m.Closed p) (H : m.HoldsCurv c ks es) :
    ∃ (s : LineAcc XR) (fr : Nat → Bool) (t : LineSys XR) (LL SS : Nat → Nat → XR),
      AccHolds m s (fun v => if m.OnLine p c v then m.lineDir p c v else 0) (fun v => if m.OnLine p c v then 1 else 0) ∧
      (∀ (i : Nat) v, m.vs[i]? = some v → (fr i = false ↔ m.OnLine p c v)) ∧
      SysHolds m.vs.length fr t ((List.range m.vs.length).flatMap (rowK m p fr)) ((List.range m.vs.length).flatMap (rowKF m p fr)) ∧
      (∀ i, i < m.vs.length → fr i = true → i ∈ t.free) ∧
      (∀ i j, LL i j = XR.fin (coef (((List.range m.vs.length).flatMap (rowK m p fr)).map (numbered t.free t.free)) i j)) ∧
      (∀ i j, SS i j = XR.fin (coef (((List.range m.vs.length).flatMap (rowKF m p fr)).map (numbered t.free t.fixed)) i j)) ∧
      ∀ solve : LinSolve XR, lineField solve ks es m = (do
        let bb (c : Vec3 XR → XR) : Nat → XR := fun i => sumN t.fixed.length fun k => -(SS i k) * c (s.dir ((t.fixed[k]?).getD 0))
        let d ← putDirs (fun i => ⟨solve t.free.length LL (bb Vec3.x) i, solve t.free.length LL (bb Vec3.y) i,
          solve t.free.length LL (bb Vec3.z) i⟩) 0 t.free s.dir
        pure ((List.range m.vs.length).map fun i => (d i, s.cnt i))) m := by
  have w := G.wf
  obtain ⟨flags, f1, f2⟩ := marks_ok G A H C
  obtain ⟨s0, g1, g2⟩ := lineFaces_ok G A C f2
  obtain ⟨s, k1, k2⟩ := lineMeans_ok w g2
  have hfr : ∀ (i : Nat) v, m.vs[i]? = some v → ((fun i => !decide (m.OnLine p c (m.vs.getD i 0))) i = false ↔ m.OnLine p c v) := by
    intro i v hi
    have : m.vs.getD i 0 = v := by rw [List.getD_eq_getElem?_getD, hi, Option.getD_some]
    simp [-List.getD_eq_getElem?_getD, this]
  obtain ⟨t, t1, t2, t3⟩ := lineSys_ok w A (fr := fun i => !decide (m.OnLine p c (m.vs.getD i 0))) (cnt := s.cnt) (fun i hi => by
    have hv : m.vs[i]? = some m.vs[i] := List.getElem?_eq_getElem hi
    have hg : m.vs.getD i 0 = m.vs[i] := by rw [List.getD_eq_getElem?_getD, hv, Option.getD_some]
    rw [(k2 i _ hv).2]
    dsimp only
    rw [hg]
    by_cases o : m.OnLine p c m.vs[i] <;> simp [o])
  obtain ⟨LL, l1, l2⟩ := ofTripletsRect_fin (r := t.free.length) (c := t.free.length)
    (ts := ((List.range m.vs.length).flatMap (rowK m p fun i => !decide (m.OnLine p c (m.vs.getD i 0)))).map (numbered t.free t.free)) (by
      intro x hx
      obtain ⟨k, hk, rfl⟩ := List.mem_map.1 hx
      obtain ⟨a1, a2⟩ := t2.keys k hk
      have b1 := List.idxOf_lt_length_iff.2 a1
      have b2 := List.idxOf_lt_length_iff.2 a2
      unfold numbered
      dsimp only
      omega) m
  obtain ⟨SS, l3, l4⟩ := ofTripletsRect_fin (r := t.free.length) (c := t.fixed.length)
    (ts := ((List.range m.vs.length).flatMap (rowKF m p fun i => !decide (m.OnLine p c (m.vs.getD i 0)))).map (numbered t.free t.fixed)) (by
      intro x hx
      obtain ⟨k, hk, rfl⟩ := List.mem_map.1 hx
      obtain ⟨a1, a2⟩ := t2.keysF k hk
      have b1 := List.idxOf_lt_length_iff.2 a1
      have b2 := List.idxOf_lt_length_iff.2 a2
      unfold numbered
      dsimp only
      omega) m
  refine ⟨s, _, t, LL, SS, k2, hfr, t2, t3, l2, l4, fun solve => ?_⟩
  unfold lineField
  rw [bind_apply, read_apply]; dsimp only
  rw [bind_apply, read_apply]; dsimp only
  rw [bind_apply, f1]; dsimp only
  rw [bind_apply, g1]; dsimp only
  rw [bind_apply, k1]; dsimp only
  rw [bind_apply, t1]; dsimp only
  rw [bind_apply, t2.entries, l1]; dsimp only
  rw [bind_apply, t2.entriesF, l3]

theorem outs_smul_sum (v : Nat) (x : Nat → E3) (k : Fin 3) :
    (((m.outs v).map fun h => m.cotOf p h • (x v - x (m.hSrc (m.hNext h)))).sum) k =
      m.weightOut (fun h => m.cotOf p h * (x v k - x (m.hSrc (m.hNext h)) k)) v := by
  unfold Mesh.weightOut Mesh.outs
  generalize m.hes.filter _ = l
  induction l with
  | nil => simp
  | cons a l ih => simp only [List.map_cons, List.sum_cons, PiLp.add_apply, ih, PiLp.smul_apply, PiLp.sub_apply, smul_eq_mul]

/-- the field for meshes all of whose vertices are linked to a line -/
theorem lineField_ok (G : m.Good) (A : m.AtE p) (C : m.Closed p) (H : m.HoldsCurv c ks es) (P : m.LineProper p c) {solve : LinSolve XR}
    (hE : solve.ExactSym) : ∃ x, m.LineHarmonic p c x ∧
      ((∃ v, m.vAlive v = true ∧ ¬m.OnLine p c v ∧ x v = 0) → lineField solve ks es m = .err .throw) ∧
      ((∀ v, m.vAlive v = true → ¬m.OnLine p c v → x v ≠ 0) → ∃ r, lineField solve ks es m = .ok r m ∧ m.LineRows p c x r) := by
  classical
  have w := G.wf
  obtain ⟨s, fr, t, LL, SS, k2, hfr, t2, t3, l2, l4, run⟩ := lineField_start G A C H
  have det := lineMat_det w hfr P.nonneg P.linked t2 t3
  have key : ∀ (co : Vec3 XR → XR) (k : Fin 3), (∀ (a : Vec3 XR) (x : E3), a.Is x → co a = XR.fin (x k)) → _ := fun co k hco =>
    line_solve w hE t2 t3 det l2 l4 (d := fun i => co (s.dir i)) (D := fun v => (if m.OnLine p c v then m.lineDir p c v else 0 : E3) k)
      (fun i v hi => hco _ _ (k2 i v hi).1)
  obtain ⟨y0, o0, h0, s0⟩ := key Vec3.x 0 (fun a x h => by rw [h.coords])
  obtain ⟨y1, o1, h1, s1⟩ := key Vec3.y 1 (fun a x h => by rw [h.coords])
  obtain ⟨y2, o2, h2, s2⟩ := key Vec3.z 2 (fun a x h => by rw [h.coords])
  have hrow : ∀ (a : Nat) i, t.free[a]? = some i → ((⟨solve t.free.length LL (fun i => sumN t.fixed.length fun k => -(SS i k) * (s.dir ((t.fixed[k]?).getD 0)).x) (0 + a),
      solve t.free.length LL (fun i => sumN t.fixed.length fun k => -(SS i k) * (s.dir ((t.fixed[k]?).getD 0)).y) (0 + a),
      solve t.free.length LL (fun i => sumN t.fixed.length fun k => -(SS i k) * (s.dir ((t.fixed[k]?).getD 0)).z) (0 + a)⟩ : Vec3 XR)).Is
        (!₂[y0 (m.vs.getD i 0), y1 (m.vs.getD i 0), y2 (m.vs.getD i 0)]) := by
    intro a i ha
    obtain ⟨la, rfl⟩ := List.getElem?_eq_some_iff.1 ha
    rw [Nat.zero_add]
    have e0 := s0 ⟨a, la⟩
    have e1 := s1 ⟨a, la⟩
    have e2 := s2 ⟨a, la⟩
    dsimp only at e0 e1 e2
    rw [e0, e1, e2]
    exact Vec3.Is.of _ _ _
  obtain ⟨q1, q2⟩ := putDirs_ok (m := m) (xx := fun i => ⟨solve t.free.length LL (fun i => sumN t.fixed.length fun k => -(SS i k) * (s.dir ((t.fixed[k]?).getD 0)).x) i,
      solve t.free.length LL (fun i => sumN t.fixed.length fun k => -(SS i k) * (s.dir ((t.fixed[k]?).getD 0)).y) i,
      solve t.free.length LL (fun i => sumN t.fixed.length fun k => -(SS i k) * (s.dir ((t.fixed[k]?).getD 0)).z) i⟩)
    (X := fun i => !₂[y0 (m.vs.getD i 0), y1 (m.vs.getD i 0), y2 (m.vs.getD i 0)]) t.free 0 s.dir t2.nd hrow
  have free : ∀ (i : Nat) v, m.vs[i]? = some v → ¬m.OnLine p c v → fr i = true := by
    intro i v hi o
    cases e : fr i with
    | true => rfl
    | false => exact absurd ((hfr i v hi).1 e) o
  have gd : ∀ (i : Nat) v, m.vs[i]? = some v → m.vs.getD i 0 = v := by
    intro i v hi
    rw [List.getD_eq_getElem?_getD, hi, Option.getD_some]
  refine ⟨fun v => !₂[y0 v, y1 v, y2 v], ⟨?_, ?_⟩, ?_, ?_⟩
  · intro v a o
    obtain ⟨i, hi⟩ := w.vDense.exists_at a
    have f := (hfr i v hi).2 o
    ext k
    have e0 := o0 i v hi f
    have e1 := o1 i v hi f
    have e2 := o2 i v hi f
    rw [if_pos o] at e0 e1 e2
    fin_cases k
    · exact e0
    · exact e1
    · exact e2
  · intro v a o
    obtain ⟨i, hi⟩ := w.vDense.exists_at a
    have f := free i v hi o
    ext k
    refine (outs_smul_sum (m := m) (p := p) v (fun v => !₂[y0 v, y1 v, y2 v]) k).trans ?_
    fin_cases k
    · exact h0 i v hi f
    · exact h1 i v hi f
    · exact h2 i v hi f
  · rintro ⟨v, a, o, z⟩
    obtain ⟨i, hi⟩ := w.vDense.exists_at a
    have hm := t3 i (List.getElem?_eq_some_iff.1 hi).1 (free i v hi o)
    rw [run]
    dsimp only
    rw [bind_apply, q1 ⟨i, hm, by rw [gd i v hi]; exact z⟩]
  · intro nz
    obtain ⟨d, r1, r2, r3⟩ := q2 fun i hi => by
      obtain ⟨lt, f⟩ := t2.mem i hi
      have hv : m.vs[i]? = some m.vs[i] := List.getElem?_eq_getElem lt
      rw [gd i _ hv]
      refine nz _ (w.vDense.alive_at hv) fun o => ?_
      have := (hfr i _ hv).2 o
      rw [f] at this
      cases this
    refine ⟨_, by rw [run]; dsimp only; rw [bind_apply, r1]; rfl, by simp, ?_⟩
    intro i v hi
    have lt := (List.getElem?_eq_some_iff.1 hi).1
    refine ⟨d i, ?_, ?_⟩
    · by_cases o : m.OnLine p c v
      · have : i ∉ t.free := by
          intro hm
          have := (t2.mem i hm).2
          rw [(hfr i v hi).2 o] at this
          cases this
        rw [r3 i this, if_pos o]
        have := (k2 i v hi).1
        dsimp only at this
        rwa [if_pos o] at this
      · have := r2 i (t3 i lt (free i v hi o))
        rw [gd i v hi] at this
        rw [if_neg o]
        exact this
    · rw [List.getElem?_map, List.getElem?_range lt, Option.map_some, (k2 i v hi).2]

/-- the field on a mesh without lines: the right side is zero -/
theorem lineField_none (G : m.Good) (A : m.AtE p) (C : m.Closed p) (H : m.HoldsCurv c ks es) (ne : m.vs ≠ []) (no : ∀ v, ¬m.OnLine p c v)
    {solve : LinSolve XR} (hz : ∀ n A b, (∀ i, b i = .fin 0) → ∀ i, solve n A b i = .fin 0) : lineField solve ks es m = .err .throw := by
  classical
  have w := G.wf
  obtain ⟨s, fr, t, LL, SS, k2, hfr, t2, t3, l2, l4, run⟩ := lineField_start G A C H
  have nf : t.fixed = [] := by
    rw [List.eq_nil_iff_forall_not_mem]
    intro k hk
    obtain ⟨lt, f⟩ := t2.memF k hk
    exact no _ ((hfr k _ (List.getElem?_eq_getElem lt)).1 f)
  have hb : ∀ co : Vec3 XR → XR, ∀ i, (fun i => sumN t.fixed.length fun k => -(SS i k) * co (s.dir ((t.fixed[k]?).getD 0))) i = XR.fin 0 := by
    intro co i
    rw [nf]
    simp [sumN, R_lit0]
  have hx : ∀ i, (⟨solve t.free.length LL (fun i => sumN t.fixed.length fun k => -(SS i k) * (s.dir ((t.fixed[k]?).getD 0)).x) i,
      solve t.free.length LL (fun i => sumN t.fixed.length fun k => -(SS i k) * (s.dir ((t.fixed[k]?).getD 0)).y) i,
      solve t.free.length LL (fun i => sumN t.fixed.length fun k => -(SS i k) * (s.dir ((t.fixed[k]?).getD 0)).z) i⟩ : Vec3 XR).Is 0 := by
    intro i
    rw [hz _ _ _ (hb Vec3.x), hz _ _ _ (hb Vec3.y), hz _ _ _ (hb Vec3.z)]
    have := Vec3.Is.of 0 0 0
    have e : (!₂[(0 : ℝ), 0, 0] : E3) = 0 := by ext k; fin_cases k <;> rfl
    rwa [e] at this
  obtain ⟨q1, -⟩ := putDirs_ok (m := m) (X := fun _ => 0) (xx := fun i =>
      ⟨solve t.free.length LL (fun i => sumN t.fixed.length fun k => -(SS i k) * (s.dir ((t.fixed[k]?).getD 0)).x) i,
      solve t.free.length LL (fun i => sumN t.fixed.length fun k => -(SS i k) * (s.dir ((t.fixed[k]?).getD 0)).y) i,
      solve t.free.length LL (fun i => sumN t.fixed.length fun k => -(SS i k) * (s.dir ((t.fixed[k]?).getD 0)).z) i⟩) t.free 0 s.dir t2.nd (fun a i _ => hx (0 + a))
  rw [run]
  dsimp only
  have hl : 0 < m.vs.length := List.length_pos_iff.2 ne
  have f0 : fr 0 = true := by
    cases e : fr 0 with
    | true => rfl
    | false => exact absurd ((hfr 0 _ (List.getElem?_eq_getElem hl)).1 e) (no _)
  rw [bind_apply, q1 ⟨0, t3 0 hl f0, rfl⟩]

theorem Mesh.LineHarmonic.coord {x : Nat → E3} (h : m.LineHarmonic p c x) (l : E3 →L[ℝ] ℝ) {v : Nat} (a : m.vAlive v = true) (o : ¬m.OnLine p c v) :
    m.weightOut (fun h => m.cotOf p h * (l (x v) - l (x (m.hSrc (m.hNext h))))) v = 0 := by
  have := congrArg l (h.off v a o)
  rw [map_zero] at this
  rw [← this]
  unfold Mesh.weightOut Mesh.outs
  generalize m.hes.filter _ = l'
  induction l' with
  | nil => simp
  | cons b l' ih => simp only [List.map_cons, List.sum_cons, map_add, map_smul, map_sub, smul_eq_mul, ih]

/-- the harmonic field is unique -/
theorem Mesh.LineHarmonic.unique (w : m.WF) (P : m.LineProper p c) {x x' : Nat → E3} (h : m.LineHarmonic p c x) (h' : m.LineHarmonic p c x') :
    ∀ v, m.vAlive v = true → x v = x' v := by
  have half : ∀ x x' : Nat → E3, m.LineHarmonic p c x → m.LineHarmonic p c x' → ∀ (l : E3 →L[ℝ] ℝ) v, m.vAlive v = true → l (x v) - l (x' v) ≤ 0 := by
    intro x x' h h' l
    refine harm_le w (fun h a _ => P.nonneg h a) P.linked (x := fun v => l (x v) - l (x' v)) (fun v a o => ?_) (fun v a o => ?_)
    · rw [h.onLine v a o, h'.onLine v a o, sub_self]
    · have h1 := h.coord l a o
      have h2 := h'.coord l a o
      have := weightOut_sub (m := m) (fun h => m.cotOf p h * (l (x v) - l (x (m.hSrc (m.hNext h))))) (fun h => m.cotOf p h * (l (x' v) - l (x' (m.hSrc (m.hNext h))))) v
      rw [h1, h2, sub_zero] at this
      rw [← this]
      congr 1
      funext y
      ring
  intro v a
  ext k
  have h1 := half x x' h h' (EuclideanSpace.proj k) v a
  have h2 := half x' x h' h (EuclideanSpace.proj k) v a
  change x v k - x' v k ≤ 0 at h1
  change x' v k - x v k ≤ 0 at h2
  linarith

theorem inward_norm (C : m.Closed p) {h : Nat} (a : m.hAlive h = true) : ‖m.inward p h‖ ≤ 1 := by
  unfold Mesh.inward
  dsimp only
  unfold unitOf
  rw [norm_smul, norm_inv, norm_norm]
  exact inv_mul_le_one

/-- no direction is longer than one -/
theorem lineDir_norm (v : Nat) : ‖m.lineDir p c v‖ ≤ 1 := by
  unfold Mesh.lineDir
  split
  · unfold unitOf
    rw [norm_smul, norm_inv, norm_norm]
    exact inv_mul_le_one
  · rename_i h
    exact (not_lt.1 h).trans (by norm_num)

theorem Mesh.LineHarmonic.norm_le (w : m.WF) (P : m.LineProper p c) {x : Nat → E3} (h : m.LineHarmonic p c x) {v : Nat} (a : m.vAlive v = true) :
    ‖x v‖ ≤ 1 := by
  by_contra hc
  have pos : 0 < ‖x v‖ := by linarith [not_le.1 hc]
  have := harm_le w (fun h a _ => P.nonneg h a) P.linked (x := fun u => (innerSL ℝ (x v) : E3 →L[ℝ] ℝ) (x u)) (c := ‖x v‖) (fun u au o => by
    rw [h.onLine u au o]
    refine (real_inner_le_norm (x v) (m.lineDir p c u)).trans ?_
    nlinarith [lineDir_norm (m := m) (p := p) (c := c) u]) (fun u au o => h.coord (innerSL ℝ (x v)) au o) v a
  change inner ℝ (x v) (x v) ≤ ‖x v‖ at this
  rw [real_inner_self_eq_norm_sq] at this
  nlinarith [not_le.1 hc]

end
end TinyMesh

namespace TinyMesh
variable {m : Mesh XR} {p : Nat → E3} {c : CurvData}

theorem exists_gap {S : Nat → Prop} {g : Nat → ℝ} : ∀ l : List Nat, (∀ v ∈ l, S v → 0 < g v) → ∃ d, 0 < d ∧ ∀ v ∈ l, S v → d ≤ g v
  | [], _ => ⟨1, one_pos, by simp⟩
  | a :: l, h => by
    obtain ⟨d, d0, hd⟩ := exists_gap l fun v hv => h v (by simp [hv])
    by_cases s : S a
    · refine ⟨min d (g a), lt_min d0 (h a (by simp) s), fun v hv sv => ?_⟩
      rcases List.mem_cons.1 hv with rfl | hv
      · exact min_le_right _ _
      · exact (min_le_left _ _).trans (hd v hv sv)
    · refine ⟨d, d0, fun v hv sv => ?_⟩
      rcases List.mem_cons.1 hv with rfl | hv
      · exact absurd sv s
      · exact hd v hv sv

theorem lineMean_ge (w : m.WF) {e : E3} {d : ℝ}
    (he : ∀ h, m.LineEdge p c h → d ≤ inner ℝ ((m.faceKind p c (m.hFace (m.hRev h)) : ℝ) • m.inward p h) e) {v : Nat} (o : m.OnLine p c v) :
    d ≤ inner ℝ (m.lineMeanDir p c v) e := by
  classical
  obtain ⟨h, lh, hh⟩ := o
  have mem : h ∈ m.linesAt p c v := by
    unfold Mesh.linesAt
    rw [List.mem_filter]
    exact ⟨(w.hDense.mem h).2 lh.alive, by simpa using ⟨lh, hh⟩⟩
  have le : ∀ y ∈ m.linesAt p c v, d ≤ inner ℝ ((m.faceKind p c (m.hFace (m.hRev y)) : ℝ) • m.inward p y) e := fun y hy => by
    unfold Mesh.linesAt at hy
    exact he y (of_decide_eq_true (List.mem_filter.1 hy).2).1
  have key : ∀ l : List Nat, (∀ y ∈ l, d ≤ inner ℝ ((m.faceKind p c (m.hFace (m.hRev y)) : ℝ) • m.inward p y) e) →
      (l.length : ℝ) * d ≤ inner ℝ ((l.map fun h => (m.faceKind p c (m.hFace (m.hRev h)) : ℝ) • m.inward p h).sum) e := by
    intro l
    induction l with
    | nil => simp
    | cons b l ih =>
      intro hl
      have h1 := hl b (by simp)
      have h2 := ih fun y hy => hl y (by simp [hy])
      rw [List.map_cons, List.sum_cons, inner_add_left, List.length_cons]
      push_cast
      linarith
  unfold Mesh.lineMeanDir
  have pos : (0 : ℝ) < (m.linesAt p c v).length := by exact_mod_cast List.length_pos_iff.2 (List.ne_nil_of_mem mem)
  rw [inner_smul_left, conj_trivial, le_inv_mul_iff₀ pos]
  exact key _ le

/-- line directions in an open half-space: so is the field -/
theorem Mesh.LineHarmonic.half (w : m.WF) (P : m.LineProper p c) {e : E3}
    (he : ∀ h, m.LineEdge p c h → 0 < inner ℝ ((m.faceKind p c (m.hFace (m.hRev h)) : ℝ) • m.inward p h) e) {x : Nat → E3}
    (hx : m.LineHarmonic p c x) {v : Nat} (a : m.vAlive v = true) : 0 < inner ℝ (x v) e := by
  classical
  have mean : ∀ v, m.OnLine p c v → 0 < inner ℝ (m.lineMeanDir p c v) e := by
    rintro v ⟨h, lh, hh⟩
    have mem : h ∈ m.linesAt p c v := by
      unfold Mesh.linesAt
      rw [List.mem_filter]
      exact ⟨(w.hDense.mem h).2 lh.alive, by simpa using ⟨lh, hh⟩⟩
    have pos : ∀ y ∈ m.linesAt p c v, 0 < inner ℝ ((m.faceKind p c (m.hFace (m.hRev y)) : ℝ) • m.inward p y) e := fun y hy => by
      unfold Mesh.linesAt at hy
      exact he y (of_decide_eq_true (List.mem_filter.1 hy).2).1
    unfold Mesh.lineMeanDir
    rw [inner_smul_left]
    refine mul_pos (by simpa using List.length_pos_iff.2 (List.ne_nil_of_mem mem)) ?_
    have key : ∀ l : List Nat, l ≠ [] → (∀ y ∈ l, 0 < inner ℝ ((m.faceKind p c (m.hFace (m.hRev y)) : ℝ) • m.inward p y) e) →
        0 < inner ℝ ((l.map fun h => (m.faceKind p c (m.hFace (m.hRev h)) : ℝ) • m.inward p h).sum) e := by
      intro l
      induction l with
      | nil => intro h; exact absurd rfl h
      | cons b l ih =>
        intro _ hl
        rw [List.map_cons, List.sum_cons, inner_add_left]
        have hb := hl b (by simp)
        by_cases ne : l = []
        · subst ne
          simpa using hb
        · exact add_pos hb (ih ne fun y hy => hl y (by simp [hy]))
    exact key _ (List.ne_nil_of_mem mem) pos
  have dir : ∀ v, m.OnLine p c v → 0 < inner ℝ (m.lineDir p c v) e := by
    intro v o
    have := mean v o
    unfold Mesh.lineDir
    split
    · rename_i hn
      unfold unitOf
      rw [inner_smul_left]
      refine mul_pos ?_ this
      simpa using fun hz : m.lineMeanDir p c v = 0 => by rw [hz, inner_zero_left] at this; exact lt_irrefl _ this
    · exact this
  obtain ⟨d, d0, hd⟩ := exists_gap (S := m.OnLine p c) (g := fun v => inner ℝ (m.lineDir p c v) e) m.vs fun v _ o => dir v o
  have := harm_le w (fun h a _ => P.nonneg h a) P.linked (x := fun u => (-(innerSL ℝ e) : E3 →L[ℝ] ℝ) (x u)) (c := -d) (fun u au o => by
    rw [hx.onLine u au o]
    change -(inner ℝ e (m.lineDir p c u)) ≤ -d
    rw [real_inner_comm]
    exact neg_le_neg (hd u ((w.vDense.mem u).2 au) o)) (fun u au o => hx.coord (-(innerSL ℝ e)) au o) v a
  change -(inner ℝ e (x v)) ≤ -d at this
  rw [real_inner_comm] at this
  linarith

end TinyMesh
