import Verif.Proof.CtxD
import Verif.Proof.CohE
import Verif.Props.Geom
/-
The dissimilarity of matched patches, and the trees of the moved patches.
-/
namespace TinyMesh
open Orbit
variable {m : Mesh XR} {p : Nat → E3} {r : RigidFit XR} {R : Matrix (Fin 3) (Fin 3) ℝ} {t : E3}

theorem RigidFit.move_is (hR : r.R.Is R) (ht : r.t.Is t) {a : Vec3 XR} {x : E3} (ha : a.Is x) : (r.move a).Is (turnBy R x + t) :=
  (hR.turn ha).add ht

theorem closestMoved_ok (A : m.AtE p) (hR : r.R.Is R) (ht : r.t.Is t) {pt : Vec3 XR} {x : E3} (hx : pt.Is x) : ∀ (us : List Nat) (D : ℝ) (o : Option Nat),
    (∀ u ∈ us, m.vAlive u = true) →
    ((∀ u ∈ us, D ≤ ‖x - (turnBy R (p u) + t)‖) ∧ closestMoved r pt us (.fin D, o) m = .ok (.fin D, o) m) ∨
    ∃ u ∈ us, ‖x - (turnBy R (p u) + t)‖ < D ∧ (∀ u' ∈ us, ‖x - (turnBy R (p u) + t)‖ ≤ ‖x - (turnBy R (p u') + t)‖) ∧
      closestMoved r pt us (.fin D, o) m = .ok (.fin ‖x - (turnBy R (p u) + t)‖, some u) m
  | [], D, o, _ => .inl ⟨by simp, rfl⟩
  | u :: us, D, o, al => by
    have a := al u (by simp)
    have hd := (hx.sub (RigidFit.move_is hR ht (A u a))).length
    have run : closestMoved r pt (u :: us) (.fin D, o) m =
        closestMoved r pt us (if ‖x - (turnBy R (p u) + t)‖ < D then (.fin ‖x - (turnBy R (p u) + t)‖, some u) else (.fin D, o)) m := by
      rw [closestMoved, bind_apply, getPos_ok a]
      dsimp only
      rw [hd, X_lt]
      by_cases c : ‖x - (turnBy R (p u) + t)‖ < D
      · rw [if_pos ((R_lt _ _).2 c), if_pos c]
      · rw [if_neg (by rw [R_lt]; exact c), if_neg c]
    rw [run]
    by_cases c : ‖x - (turnBy R (p u) + t)‖ < D
    · rw [if_pos c]
      right
      rcases closestMoved_ok A hR ht hx us _ (some u) (fun v hv => al v (by simp [hv])) with ⟨h1, h2⟩ | ⟨v, hv, h1, h2, h3⟩
      · exact ⟨u, by simp, c, fun u' hu' => by
          rcases List.mem_cons.1 hu' with rfl | hu'
          · exact le_refl _
          · exact h1 u' hu', h2⟩
      · exact ⟨v, by simp [hv], h1.trans c, fun u' hu' => by
          rcases List.mem_cons.1 hu' with rfl | hu'
          · exact h1.le
          · exact h2 u' hu', h3⟩
    · rw [if_neg c]
      rcases closestMoved_ok A hR ht hx us D o (fun v hv => al v (by simp [hv])) with ⟨h1, h2⟩ | ⟨v, hv, h1, h2, h3⟩
      · exact .inl ⟨fun u' hu' => by
          rcases List.mem_cons.1 hu' with rfl | hu'
          · exact not_lt.1 c
          · exact h1 u' hu', h2⟩
      · exact .inr ⟨v, by simp [hv], h1, fun u' hu' => by
          rcases List.mem_cons.1 hu' with rfl | hu'
          · exact h1.le.trans (not_lt.1 c)
          · exact h2 u' hu', h3⟩

/-- the rows of a list are the field `a` with the flags `fl` -/
def FieldIs (m : Mesh XR) (field : List (Vec3 XR × XR)) (a : Nat → E3) (fl : Nat → ℝ) : Prop :=
  ∀ (k v : Nat), m.vs[k]? = some v → ∃ y : Vec3 XR, field[k]? = some (y, XR.fin (fl v)) ∧ y.Is (a v)

theorem FieldIs.at (w : m.WF) {field : List (Vec3 XR × XR)} {a : Nat → E3} {fl : Nat → ℝ} (h : FieldIs m field a fl) {v : Nat} (al : m.vAlive v = true) :
    ∃ y, atIdx field (m.vIdx v) m = .ok (y, XR.fin (fl v)) m ∧ y.Is (a v) := by
  obtain ⟨h1, h2⟩ := w.idx_toNat al
  obtain ⟨y, e, i⟩ := h _ _ h1
  refine ⟨y, ?_, i⟩
  rw [h2]
  exact atIdx_ok e

theorem dissimLoop_ok (w : m.WF) (A : m.AtE p) (hR : r.R.Is R) {field : List (Vec3 XR × XR)} {a : Nat → E3} {fl : Nat → ℝ}
    (hf : FieldIs m field a fl) {src : List Nat} (aS : ∀ u ∈ src, m.vAlive u = true) (n : Nat) (near : Nat → Nat) : ∀ (vs : List Nat) (s s' : ℝ),
    (∀ v ∈ vs, m.vAlive v = true ∧ near v ∈ src ∧ ∃ d, closestMoved r (m.vPos v) src (.fin (10 ^ 20), none) m = .ok (d, some (near v)) m) →
    dissimLoop field r src n vs (.fin s, .fin s') m =
      .ok (.fin (s + (vs.map fun v => (if fl (near v) = 0 then (1 : ℝ) else n) * ‖a v - turnBy R (a (near v))‖ ^ 2).sum),
        .fin (s' + (vs.map fun v => if fl (near v) = 0 then (1 : ℝ) else n).sum)) m
  | [], s, s', _ => by simp [dissimLoop]
  | v :: vs, s, s', H => by
    obtain ⟨av, hu, d, h3⟩ := H v (by simp)
    obtain ⟨y, e1, i1⟩ := hf.at w av
    obtain ⟨z, e2, i2⟩ := hf.at w (aS _ hu)
    have g2 := dissimLoop_ok w A hR hf aS n near vs (s + (if fl (near v) = 0 then (1 : ℝ) else n) * ‖a v - turnBy R (a (near v))‖ ^ 2)
      (s' + if fl (near v) = 0 then (1 : ℝ) else n) (fun x hx => H x (by simp [hx]))
    have lim : (Scalar.lit (10 ^ 20) 1 : XR) = .fin (10 ^ 20) := by rw [X_lit_fin]; norm_num
    have wt : (if Scalar.eq (XR.fin (fl (near v))) (Scalar.lit 0 1) then Scalar.lit 1 1 else Scalar.lit n 1 : XR) =
        .fin (if fl (near v) = 0 then (1 : ℝ) else n) := by
      rw [lit_zero, X_eq_iff]
      by_cases c : fl (near v) = 0
      · rw [if_pos (decide_eq_true c), if_pos c, X_lit_fin]; norm_num
      · rw [if_neg (by simpa using c), if_neg c, X_lit_fin]; norm_num
    rw [dissimLoop, bind_apply, getPos_ok av]; dsimp only
    rw [bind_apply, lim, h3]; dsimp only
    rw [bind_apply, getVIdx_ok av]; dsimp only
    rw [bind_apply, e1]; dsimp only
    rw [bind_apply, getVIdx_ok (aS _ hu)]; dsimp only
    rw [bind_apply, e2]; dsimp only
    rw [wt, (i1.sub (hR.turn i2)).length, X_mul, X_mul, X_add, X_add, mul_assoc, ← sq, g2, List.map_cons, List.sum_cons, List.map_cons, List.sum_cons,
      ← add_assoc, ← add_assoc]

/-- the weighted mean -/
theorem dissim_ok (w : m.WF) (A : m.AtE p) (hR : r.R.Is R) (ht : r.t.Is t) {field : List (Vec3 XR × XR)} {a : Nat → E3} {fl : Nat → ℝ}
    (hf : FieldIs m field a fl) {src : List Nat} (aS : ∀ u ∈ src, m.vAlive u = true) {vs : List Nat} (ne : vs ≠ [])
    (al : ∀ v ∈ vs, m.vAlive v = true) (near : ∀ v ∈ vs, ∃ u ∈ src, ‖p v - (turnBy R (p u) + t)‖ < 10 ^ 20) :
    ∃ near : Nat → Nat, (∀ v ∈ vs, ClosestImage p R t src v (near v)) ∧ dissim field r vs src m = .ok (.fin (fieldDist a fl R vs near)) m := by
  have ex : ∀ v, ∃ u, v ∈ vs → ClosestImage p R t src v u ∧ ∃ d, closestMoved r (m.vPos v) src (.fin (10 ^ 20), none) m = .ok (d, some u) m := by
    intro v
    by_cases hv : v ∈ vs
    · rcases closestMoved_ok A hR ht (A v (al v hv)) src (10 ^ 20) none aS with ⟨h1, -⟩ | ⟨u, hu, h1, h2, h3⟩
      · obtain ⟨u, hu, c⟩ := near v hv
        exact absurd (h1 u hu) (not_le.2 c)
      · exact ⟨u, fun _ => ⟨⟨hu, h2⟩, _, h3⟩⟩
    · exact ⟨0, fun c => absurd c hv⟩
  choose g hg using ex
  refine ⟨g, fun v hv => (hg v hv).1, ?_⟩
  unfold dissim
  rw [lit_zero, bind_apply, dissimLoop_ok w A hR hf aS vs.length g vs 0 0 (fun v hv => ⟨al v hv, (hg v hv).1.1, (hg v hv).2⟩)]
  have pos : 0 < (vs.map fun v => if fl (g v) = 0 then (1 : ℝ) else vs.length).sum := by
    refine sum_pos_of ?_ (by simpa using ne)
    intro x hx
    obtain ⟨v, -, rfl⟩ := List.mem_map.1 hx
    split
    · exact one_pos
    · exact Nat.cast_pos.2 (List.length_pos_of_ne_nil ne)
  dsimp only
  rw [zero_add, zero_add, X_div _ pos.ne']
  rfl

/-- without a vertex near by, a null pointer is used -/
theorem dissim_none (A : m.AtE p) (hR : r.R.Is R) (ht : r.t.Is t) {field : List (Vec3 XR × XR)} {src : List Nat} (aS : ∀ u ∈ src, m.vAlive u = true)
    {v : Nat} {vs : List Nat} (av : m.vAlive v = true) (far : ∀ u ∈ src, 10 ^ 20 ≤ ‖p v - (turnBy R (p u) + t)‖) :
    dissim field r (v :: vs) src m = .err .ub := by
  have lim : (Scalar.lit (10 ^ 20) 1 : XR) = .fin (10 ^ 20) := by rw [X_lit_fin]; norm_num
  rcases closestMoved_ok A hR ht (A v av) src (10 ^ 20) none aS with ⟨-, h1⟩ | ⟨u, hu, h1, -⟩
  · unfold dissim
    rw [bind_apply, dissimLoop, bind_apply, getPos_ok av]; dsimp only
    rw [bind_apply, lim, h1]; rfl
  · exact absurd (far u hu) (not_le.2 h1)

theorem fieldDist_nonneg (a : Nat → E3) (fl : Nat → ℝ) (vs : List Nat) (near : Nat → Nat) : 0 ≤ fieldDist a fl R vs near := by
  unfold fieldDist
  refine div_nonneg (List.sum_nonneg ?_) (List.sum_nonneg ?_)
  all_goals
    intro x hx
    obtain ⟨v, -, rfl⟩ := List.mem_map.1 hx
    split <;> positivity

/-! ### Trees -/

open Classical in
theorem Vec3.fin_eq (a b : Vec3 ℝ) : Vec3.eq a.fin b.fin = decide (a = b) := by
  obtain ⟨a1, a2, a3⟩ := a
  obtain ⟨b1, b2, b3⟩ := b
  unfold Vec3.eq Vec3.fin
  dsimp only
  rw [X_eq_iff, X_eq_iff, X_eq_iff, ← Bool.decide_and, ← Bool.decide_and]
  refine decide_eq_decide.2 ?_
  rw [Vec3.mk.injEq, and_assoc]

open Classical in
theorem internPoint_fin (V : List (Vec3 ℝ)) (x : Vec3 ℝ) :
    ∃ V' k, internPoint (V.map Vec3.fin) x.fin = (V'.map Vec3.fin, k) ∧ V <+: V' ∧ V'[k]? = some x := by
  unfold internPoint
  cases e : (V.map Vec3.fin).findIdx? fun q => q.eq x.fin with
  | some k =>
    refine ⟨V, k, rfl, List.prefix_refl _, ?_⟩
    obtain ⟨hk, h, -⟩ := List.findIdx?_eq_some_iff_getElem.1 e
    rw [List.getElem_map, Vec3.fin_eq] at h
    have h := of_decide_eq_true h
    rw [List.length_map] at hk
    rw [List.getElem?_eq_getElem hk, h]
  | none =>
    refine ⟨V ++ [x], V.length, ?_, List.prefix_append _ _, by simp⟩
    have : x.fin.eq x.fin = true := by rw [Vec3.fin_eq]; simp
    simp [this]

/-- the corners of the faces in a row -/
noncomputable def cornersOf (m : Mesh XR) (fs : List Nat) : List Nat := fs.flatMap fun f => (orbit m.hNext (m.fHe f)).map m.hSrc

theorem moveCorner_fold (q : Nat → Vec3 ℝ) : ∀ (vs : List Nat) (V : List (Vec3 ℝ)) (I : List Nat),
    (∀ v ∈ vs, m.vAlive v = true ∧ r.move (m.vPos v) = (q v).fin) →
    ∃ V' J, foldAll (fun v (s : List (Vec3 XR) × List Nat) => do
      let p ← getPos v
      let (V, k) := internPoint s.1 (r.move p)
      pure (V, s.2 ++ [k])) vs (V.map Vec3.fin, I) m = .ok (V'.map Vec3.fin, I ++ J) m ∧ V <+: V' ∧ J.map (fun k => V'[k]?) = vs.map fun v => some (q v)
  | [], V, I, _ => ⟨V, [], by simp [foldAll], List.prefix_refl _, rfl⟩
  | v :: vs, V, I, H => by
    obtain ⟨a, e⟩ := H v (by simp)
    obtain ⟨V1, k, e1, p1, h1⟩ := internPoint_fin V (q v)
    obtain ⟨V', J, e2, p2, h2⟩ := moveCorner_fold q vs V1 (I ++ [k]) fun u hu => H u (by simp [hu])
    refine ⟨V', k :: J, ?_, p1.trans p2, ?_⟩
    · rw [foldAll, bind_apply, bind_apply, getPos_ok a]
      dsimp only
      rw [e, e1]
      dsimp only
      rw [pure_apply]
      exact e2.trans (by rw [List.append_assoc]; rfl)
    · rw [List.map_cons, List.map_cons, h2]
      congr 1
      obtain ⟨z, rfl⟩ := p2
      rw [List.getElem?_append_left (List.getElem?_eq_some_iff.1 h1).1, h1]

theorem moveCorners_ok (w : m.WF) (q : Nat → Vec3 ℝ) (hq : ∀ v, m.vAlive v = true → r.move (m.vPos v) = (q v).fin) :
    ∀ (fs : List Nat) (V : List (Vec3 ℝ)) (I : List Nat), (∀ f ∈ fs, m.fAlive f = true) →
    ∃ V' J, moveCorners r fs (V.map Vec3.fin, I) m = .ok (V'.map Vec3.fin, I ++ J) m ∧ V <+: V' ∧
      J.map (fun k => V'[k]?) = (cornersOf m fs).map fun v => some (q v)
  | [], V, I, _ => ⟨V, [], by simp [moveCorners], List.prefix_refl _, rfl⟩
  | f :: fs, V, I, al => by
    have a := al f (by simp)
    obtain ⟨V1, J1, e1, p1, h1⟩ := moveCorner_fold (m := m) (r := r) q ((orbit m.hNext (m.fHe f)).map m.hSrc) V I (fun v hv => by
      obtain ⟨x, hx, rfl⟩ := List.mem_map.1 hv
      have := w.src_alive x ((w.mem_loop a).1 hx).1
      exact ⟨this, hq _ this⟩)
    obtain ⟨V', J, e2, p2, h2⟩ := moveCorners_ok w q hq fs V1 (I ++ J1) fun g hg => al g (by simp [hg])
    refine ⟨V', J1 ++ J, ?_, p1.trans p2, ?_⟩
    · rw [moveCorners, bind_apply, w.faceVerts_ok a]; dsimp only
      rw [bind_apply, e1, ← List.append_assoc]
      exact e2
    · rw [List.map_append, h2]
      have : J1.map (fun k => V'[k]?) = J1.map fun k => V1[k]? := by
        refine List.map_congr_left fun k hk => ?_
        have : V1[k]? ∈ J1.map fun k => V1[k]? := List.mem_map_of_mem hk
        rw [h1] at this
        obtain ⟨v, -, hv⟩ := List.mem_map.1 this
        obtain ⟨z, rfl⟩ := p2
        rw [List.getElem?_append_left (List.getElem?_eq_some_iff.1 hv.symm).1]
      rw [this, h1]
      simp [cornersOf]
theorem three_corners (w : m.WF) {f : Nat} (a : m.fAlive f = true) (s3 : m.sides f = 3) : (orbit m.hNext (m.fHe f)).map m.hSrc =
    [m.hSrc (m.fHe f), m.hSrc (m.hNext (m.fHe f)), m.hSrc (m.hNext (m.hNext (m.fHe f)))] := by
  rw [orbit_three ((w.loop_length a).trans s3)]
  rfl

theorem reads_corners (w : m.WF) (q : Nat → Vec3 ℝ) (hq : ∀ v, m.vAlive v = true → (q v).E = turnBy R (p v) + t) {V : List (Vec3 ℝ)} :
    ∀ (fs J : List Nat), (∀ f ∈ fs, m.fAlive f = true ∧ m.sides f = 3) → J.map (fun k => V[k]?) = (cornersOf m fs).map (fun v => some (q v)) →
    ∃ ts, Reads V J ts ∧ List.Forall₂ (m.ImageOf p R t) fs ts
  | [], J, _, h => by
    obtain rfl : J = [] := by simpa [cornersOf] using h
    exact ⟨[], ⟨rfl, fun k t hk => by simp at hk⟩, .nil⟩
  | f :: fs, J, H, h => by
    obtain ⟨a, s3⟩ := H f (by simp)
    obtain ⟨a0, e0⟩ := w.fHe_ok _ a
    rw [show cornersOf m (f :: fs) = (orbit m.hNext (m.fHe f)).map m.hSrc ++ cornersOf m fs from rfl, three_corners w a s3] at h
    match J, h with
    | x :: y :: z :: J, h =>
      simp only [List.map_cons, List.cons_append, List.nil_append, List.cons.injEq] at h
      obtain ⟨h1, h2, h3, h4⟩ := h
      obtain ⟨ts, r, im⟩ := reads_corners w q hq fs J (fun g hg => H g (by simp [hg])) h4
      have a1 := w.next_alive _ a0
      refine ⟨⟨_, _, _⟩ :: ts, r.cons (t := ⟨_, _, _⟩) h1 h2 h3, .cons ⟨m.fHe f, a0, e0, hq _ (w.src_alive _ a0), hq _ (w.src_alive _ a1),
        hq _ (w.src_alive _ (w.next_alive _ a1))⟩ im⟩
    | [], h => simp at h
    | [_], h => simp at h
    | [_, _], h => simp at h

/-- the tree of the moved patch -/
theorem patchBvh_ok (w : m.WF) (A : m.AtE p) (hR : r.R.Is R) (ht : r.t.Is t) {fs : List Nat} (al : ∀ f ∈ fs, m.fAlive f = true ∧ m.sides f = 3)
    {lib : Lib XR} (std : lib.Std) :
    ∃ (root : BNode XR) (V : List (Vec3 ℝ)) (I : List Nat) (ts : List (Triangle ℝ)), patchBvh lib r fs m = .ok ⟨root, ts.map Triangle.fin⟩ m ∧
      Reads V I ts ∧ bvhConstruct lib (V.map Vec3.fin) I = .ok ⟨root, ts.map Triangle.fin⟩ ∧ List.Forall₂ (m.ImageOf p R t) fs ts := by
  have mv : ∀ v, ∃ q : Vec3 ℝ, m.vAlive v = true → r.move (m.vPos v) = q.fin ∧ q.E = turnBy R (p v) + t := by
    intro v
    by_cases a : m.vAlive v = true
    · obtain ⟨q, h1, h2⟩ := RigidFit.move_is hR ht (A v a)
      exact ⟨q, fun _ => ⟨h1, h2⟩⟩
    · exact ⟨⟨0, 0, 0⟩, fun c => absurd c a⟩
  choose q hq using mv
  obtain ⟨V, J, e, -, hJ⟩ := moveCorners_ok w q (fun v a => (hq v a).1) fs [] [] (fun f hf => (al f hf).1)
  rw [List.nil_append] at e
  obtain ⟨ts, hr, him⟩ := reads_corners (p := p) (R := R) (t := t) w q (fun v a => (hq v a).2) fs J al hJ
  obtain ⟨root, hb, -⟩ := c34_build std hr
  refine ⟨root, V, J, ts, ?_, hr, hb, him⟩
  have h3 : (J.length % 3 == 0) = true := by rw [hr.1]; simp
  unfold patchBvh
  rw [bind_apply, show ([] : List (Vec3 XR)) = ([] : List (Vec3 ℝ)).map Vec3.fin from rfl, e]; dsimp only
  rw [bind_apply, h3]
  simp only [M.assert, hb]
  rfl
end TinyMesh
