import Verif.Proof.LinesA
import Verif.Proof.DenB
/-
Ridge and valley lines: the directions on the lines.
-/
namespace TinyMesh
open Orbit

theorem foldAll_range {F β : Type} {m : Mesh F} {body : Nat → β → M F β} {P : Nat → β → Prop} (n : Nat) {b : β} (h0 : P 0 b)
    (step : ∀ i b, i < n → P i b → ∃ b', body i b m = .ok b' m ∧ P (i + 1) b') :
    ∃ b', foldAll body (List.range n) b m = .ok b' m ∧ P n b' := by
  have key : ∀ (k i : Nat) (b : β), i + k = n → P i b → ∃ b', foldAll body (List.range' i k) b m = .ok b' m ∧ P n b' := by
    intro k
    induction k with
    | zero =>
      intro i b e h
      have : i = n := by omega
      exact ⟨b, rfl, this ▸ h⟩
    | succ k ih =>
      intro i b e h
      obtain ⟨b', h1, h2⟩ := step i b (by omega) h
      obtain ⟨b'', h3, h4⟩ := ih (i + 1) b' (by omega) h2
      refine ⟨b'', ?_, h4⟩
      rw [List.range'_succ]
      unfold foldAll
      rw [bind_apply, h1]
      exact h3
  rw [List.range_eq_range']
  exact key n 0 b (by omega) h0

/-! ### The direction across an edge -/

theorem triNormal_smul_left (s : ℝ) (x y : E3) : triNormal 0 (s • x) y = s • triNormal 0 x y := by
  unfold triNormal
  simp

theorem triple_cross (x y : E3) : triNormal 0 (triNormal 0 x y) x = ‖x‖ ^ 2 • y - inner ℝ x y • x := by
  obtain ⟨u, rfl⟩ := Vec3.E_surj x
  obtain ⟨v, rfl⟩ := Vec3.E_surj y
  rw [← E_zero, triNormal_E, triNormal_E, ← real_inner_self_eq_norm_sq, Vec3.E_inner, Vec3.E_inner]
  apply Vec3.E_ext <;> simp [Vec3.E, Vec3.cross_def, Vec3.sub_def, Vec3.zero_def, Vec3.dot_def] <;> ring

theorem Vec3.Is.cross {a b : Vec3 XR} {x y : E3} (ha : a.Is x) (hb : b.Is y) : (a.cross b).Is (TinyMesh.triNormal 0 x y) := by
  obtain ⟨u, rfl, rfl⟩ := ha
  obtain ⟨v, rfl, rfl⟩ := hb
  refine ⟨u.cross v, by rw [Vec3.X_vcross], ?_⟩
  rw [← TinyMesh.E_zero, triNormal_E]
  congr 1
  apply Vec3.ext' <;> simp [Vec3.cross_def, Vec3.sub_def, Vec3.zero_def]

theorem inwardDir_ok {a b d : Vec3 XR} {x y z : E3} (ha : a.Is x) (hb : b.Is y) (hd : d.Is z) (hn : triNormal x y z ≠ 0) :
    ∃ r, inwardDir a b d = some r ∧ r.Is (unitOf (z - x - (inner ℝ (y - x) (z - x) / ‖y - x‖ ^ 2) • (y - x))) := by
  have hyx : y - x ≠ 0 := by
    intro h
    apply hn
    rw [triNormal_sub, h]
    have := triNormal_smul_left 0 0 (z - x)
    simpa using this
  have hq : 0 < ‖y - x‖ ^ 2 := by have := norm_pos_iff.2 hyx; positivity
  obtain ⟨n, h1, h2⟩ := (ha.triNormal hb hd).normalize hn
  have hc := h2.cross (hb.sub ha)
  have hN : 0 < ‖triNormal x y z‖ := norm_pos_iff.2 hn
  have e : triNormal 0 (unitOf (triNormal x y z)) (y - x) =
      (‖triNormal x y z‖⁻¹ * ‖y - x‖ ^ 2) • (z - x - (inner ℝ (y - x) (z - x) / ‖y - x‖ ^ 2) • (y - x)) := by
    rw [show unitOf (triNormal x y z) = ‖triNormal x y z‖⁻¹ • triNormal x y z from rfl, triNormal_smul_left, triNormal_sub x y z, triple_cross,
      mul_smul]
    congr 1
    rw [smul_sub (‖y - x‖ ^ 2) (z - x), smul_smul (‖y - x‖ ^ 2), mul_div_cancel₀ _ hq.ne']
  have ne : triNormal 0 (unitOf (triNormal x y z)) (y - x) ≠ 0 := by
    intro h
    -- the three vectors are orthogonal
    have h3 : ‖y - x‖ ^ 2 • (z - x) - inner ℝ (y - x) (z - x) • (y - x) = 0 := by
      have := h
      rw [show unitOf (triNormal x y z) = ‖triNormal x y z‖⁻¹ • triNormal x y z from rfl, triNormal_smul_left, triNormal_sub x y z,
        triple_cross] at this
      exact (smul_eq_zero.1 this).resolve_left (by rw [← triNormal_sub]; exact (inv_pos.2 hN).ne')
    have h4 : z - x = (inner ℝ (y - x) (z - x) / ‖y - x‖ ^ 2) • (y - x) := by
      rw [div_eq_inv_mul, mul_smul, ← sub_eq_zero.1 h3, smul_smul, inv_mul_cancel₀ hq.ne', one_smul]
    apply hn
    rw [triNormal_sub, h4]
    unfold triNormal
    simp
  obtain ⟨r, h3, h4⟩ := hc.normalize ne
  refine ⟨r, ?_, ?_⟩
  · unfold inwardDir
    dsimp only
    rw [h1]
    exact h3
  · rw [e, unitOf_smul (by positivity)] at h4
    exact h4

/-! ### The loop over the faces -/
section
variable {m : Mesh XR} {p : Nat → E3} {c : CurvData}

/-- the accumulators hold `D` and `N` -/
def AccHolds (m : Mesh XR) (s : LineAcc XR) (D : Nat → E3) (N : Nat → ℝ) : Prop :=
  ∀ (i : Nat) v, m.vs[i]? = some v → (s.dir i).Is (D v) ∧ s.cnt i = .fin (N v)

theorem push_ok (w : m.WF) {s : LineAcc XR} {D : Nat → E3} {N : Nat → ℝ} (h : AccHolds m s D N) {v : Nat} (a : m.vAlive v = true)
    {d : Vec3 XR} {x : E3} (hd : d.Is x) : ∃ s', s.push m.vs.length v d m = .ok s' m ∧
      AccHolds m s' (fun u => D u + if u = v then x else 0) (fun u => N u + if u = v then 1 else 0) := by
  refine ⟨_, by
    unfold LineAcc.push
    rw [bind_apply, getVIdx_ok a]; dsimp only
    rw [bind_apply, inRange_ok w (le_refl _) a]; rfl, ?_⟩
  intro i u hi
  obtain ⟨h1, h2⟩ := h i u hi
  have hu := w.vDense.idx_of hi
  by_cases e : u = v
  · subst e
    rw [hu]
    simp only [Int.toNat_natCast, upd_same, if_true]
    refine ⟨h1.add hd, ?_⟩
    rw [h2, lit_int]
    simp
  · have ne : i ≠ (m.vIdx v).toNat := by
      intro ei
      obtain ⟨j, hj⟩ := w.vDense.exists_at a
      rw [w.vDense.idx_of hj, Int.toNat_natCast] at ei
      rw [ei, hj] at hi
      exact e (Option.some.inj hi).symm
    simp only [upd_ne _ _ ne, if_neg e, add_zero]
    exact ⟨h1, h2⟩

open Classical in
/-- what the half-edge `h` adds to the direction of `v` -/
noncomputable def Mesh.lineT (m : Mesh XR) (p : Nat → E3) (c : CurvData) (v h : Nat) : E3 :=
  if m.LineEdge p c h ∧ (m.hSrc h = v ∨ m.hSrc (m.hNext h) = v) then (m.faceKind p c (m.hFace (m.hRev h)) : ℝ) • m.inward p h else 0

open Classical in
/-- what the half-edge `h` adds to the counter of `v` -/
noncomputable def Mesh.lineU (m : Mesh XR) (p : Nat → E3) (c : CurvData) (v h : Nat) : ℝ :=
  if m.LineEdge p c h ∧ (m.hSrc h = v ∨ m.hSrc (m.hNext h) = v) then 1 else 0

theorem firstTo_ok (w : m.WF) {x : Nat} : ∀ hs : List Nat, (∀ h ∈ hs, m.hAlive h = true) → x ∈ hs →
    (∀ y ∈ hs, y ≠ x → m.hFace (m.hRev y) ≠ m.hFace (m.hRev x)) → firstTo (m.hFace (m.hRev x)) hs m = .ok (some x) m
  | [], _, hx, _ => by simp at hx
  | h :: hs, ha, hx, hy => by
    have a := ha h (by simp)
    unfold firstTo
    rw [bind_apply, getRev_ok a]; dsimp only
    rw [bind_apply, getFace_ok (w.rev_alive _ a)]; dsimp only
    by_cases e : h = x
    · rw [if_pos (by rw [e]), e]; rfl
    · rw [if_neg (hy h (by simp) e)]
      exact firstTo_ok w hs (fun z hz => ha z (by simp [hz])) ((List.mem_cons.1 hx).resolve_left fun h' => e h'.symm)
        fun z hz => hy z (by simp [hz])

theorem flag_at {flags : List Int} (w : m.WF) (hf : ∀ (i : Nat) f, m.fs[i]? = some f → flags[i]? = some (m.faceKind p c f)) {f : Nat}
    (a : m.fAlive f = true) : atIdx flags (m.fIdx f) m = .ok (m.faceKind p c f) m := by
  obtain ⟨i, hi⟩ := w.fDense.exists_at a
  rw [w.fDense.idx_of hi]
  exact atIdx_ok (hf i f hi)

theorem countMarked_cons {flags : List Int} (w : m.WF) (hf : ∀ (i : Nat) f, m.fs[i]? = some f → flags[i]? = some (m.faceKind p c f)) {g : Nat}
    (a : m.fAlive g = true) (gs : List Nat) (s : Nat × Int) : countMarked flags (g :: gs) s m =
      countMarked flags gs (if m.faceKind p c g ≠ 0 then (s.1 + 1, m.fIdx g) else s) m := by
  rw [countMarked, bind_apply, getFIdx_ok a]; dsimp only
  rw [bind_apply, flag_at w hf a]


theorem Mesh.Closed.inward_of {x : Nat} (C : m.Closed p) (a : m.hAlive x = true) {p0 p1 p2 : Vec3 XR} (h0 : p0.Is (p (m.hSrc x)))
    (h1 : p1.Is (p (m.hSrc (m.hNext x)))) (h2 : p2.Is (p (m.hSrc (m.hNext (m.hNext x))))) :
    ∃ r, inwardDir p0 p1 p2 = some r ∧ r.Is (m.inward p x) := inwardDir_ok h0 h1 h2 (C x a).2

/-- the outcome for one face: every half-edge of the face adds its part -/
theorem lineFace_ok (G : m.Good) (A : m.AtE p) (C : m.Closed p) {flags : List Int}
    (hf : ∀ (i : Nat) f, m.fs[i]? = some f → flags[i]? = some (m.faceKind p c f)) {i f : Nat} (hi : m.fs[i]? = some f)
    {s : LineAcc XR} {D : Nat → E3} {N : Nat → ℝ} (hs : AccHolds m s D N) :
    ∃ s', lineFace flags m.vs.length i s m = .ok s' m ∧ AccHolds m s'
      (fun v => D v + (m.lineT p c v (m.fHe f) + (m.lineT p c v (m.hNext (m.fHe f)) + m.lineT p c v (m.hNext (m.hNext (m.fHe f))))))
      (fun v => N v + (m.lineU p c v (m.fHe f) + (m.lineU p c v (m.hNext (m.fHe f)) + m.lineU p c v (m.hNext (m.hNext (m.fHe f)))))) := by
  have w := G.wf
  have af := w.fDense.alive_at hi
  obtain ⟨b0, e0⟩ := w.fHe_ok _ af
  have b1 := w.next_alive _ b0
  have b2 := w.next_alive _ b1
  have t := (C _ b0).1
  have e1 := (w.face_next _ b0).trans e0
  have e2 := (w.face_next _ b1).trans e1
  have orb := w.closed_orbit C b0
  have nd := w.permNext.nodup_orbit b0
  rw [orb] at nd
  generalize ha0 : m.fHe f = a0 at *
  generalize ha1 : m.hNext a0 = a1 at *
  generalize ha2 : m.hNext a1 = a2 at *
  have n01 : a0 ≠ a1 := by rintro rfl; simp at nd
  have n02 : a0 ≠ a2 := by rintro rfl; simp at nd
  have n12 : a1 ≠ a2 := by rintro rfl; simp at nd
  have three : ∀ x, m.hAlive x = true → m.hFace x = f → x = a0 ∨ x = a1 ∨ x = a2 := by
    intro x ax ex
    have := w.tri_face b0 t ax (ex.trans e0.symm)
    rw [ha1, ha2] at this
    exact this
  have start : ∀ k, m.faceKind p c f = k → (lineFace flags m.vs.length i s m = if k ≠ 0 then .ok s m else
      (countMarked flags [m.hFace (m.hRev a0), m.hFace (m.hRev a1), m.hFace (m.hRev a2)] (0, -1) >>= fun (count, opp) =>
        if count ≠ 1 then pure s else do
        let g ← faceAt opp
        let jg ← getFIdx g
        let kg ← atIdx flags jg
        M.assert (kg != 0)
        let hs ← faceList f
        let r ← firstTo g hs
        match r with
        | none => M.fail .abort
        | some h => do
          let v0 ← getSrc h
          let v1 ← getDst h
          let n ← getNext h
          let v2 ← getDst n
          let p0 ← getPos v0
          let p1 ← getPos v1
          let p2 ← getPos v2
          let d ← orThrowM (inwardDir p0 p1 p2)
          let x := d.smul (Scalar.lit kg 1)
          let s ← s.push m.vs.length v0 x
          s.push m.vs.length v1 x) m) := by
    intro k hk
    unfold lineFace
    rw [bind_apply, faceAt_get hi]; dsimp only
    rw [bind_apply, getFIdx_ok af]; dsimp only
    rw [bind_apply, flag_at w hf af, hk]; dsimp only
    by_cases z : k ≠ 0
    · rw [if_pos z, if_pos z]; rfl
    · rw [if_neg z, if_neg z, bind_apply, w.faceFaces_ok af, ha0, orb]
      rfl
  by_cases hk : m.faceKind p c f ≠ 0
  · refine ⟨s, by rw [start _ rfl, if_pos hk], ?_⟩
    have z : ∀ v x, m.hFace x = f → m.lineT p c v x = 0 ∧ m.lineU p c v x = 0 := by
      intro v x ex
      unfold Mesh.lineT Mesh.lineU
      have : ¬(m.LineEdge p c x ∧ (m.hSrc x = v ∨ m.hSrc (m.hNext x) = v)) := fun h => hk (ex ▸ h.1.plain)
      rw [if_neg this, if_neg this]
      exact ⟨rfl, rfl⟩
    intro j v hj
    simp only [(z v a0 e0).1, (z v a0 e0).2, (z v a1 e1).1, (z v a1 e1).2, (z v a2 e2).1, (z v a2 e2).2, add_zero]
    exact hs j v hj
  · have hk0 : m.faceKind p c f = 0 := not_not.1 hk
    have run := start _ hk0
    rw [if_neg (by simp)] at run
    have g0 := w.face_alive _ (w.rev_alive _ b0)
    have g1 := w.face_alive _ (w.rev_alive _ b1)
    have g2 := w.face_alive _ (w.rev_alive _ b2)
    -- the line half-edges of this face
    have iff : ∀ x ∈ [a0, a1, a2], m.LineEdge p c x ↔ (m.faceKind p c (m.hFace (m.hRev x)) ≠ 0 ∧
        ∀ y ∈ [a0, a1, a2], y ≠ x → m.faceKind p c (m.hFace (m.hRev y)) = 0) := by
      intro x hx
      have ax : m.hAlive x = true ∧ m.hFace x = f := by
        simp only [List.mem_cons, List.not_mem_nil, or_false] at hx
        rcases hx with rfl | rfl | rfl
        · exact ⟨b0, e0⟩
        · exact ⟨b1, e1⟩
        · exact ⟨b2, e2⟩
      constructor
      · intro h
        refine ⟨h.across, fun y hy ne => h.only y ?_ ?_ ne⟩
        · simp only [List.mem_cons, List.not_mem_nil, or_false] at hy
          rcases hy with rfl | rfl | rfl <;> assumption
        · rw [ax.2]
          simp only [List.mem_cons, List.not_mem_nil, or_false] at hy
          rcases hy with rfl | rfl | rfl <;> assumption
      · rintro ⟨h1, h2⟩
        refine ⟨ax.1, ax.2 ▸ hk0, h1, fun y ay ey ne => h2 y ?_ ne⟩
        have := three y ay (ey.trans ax.2)
        simpa using this
    have cm : ∃ count opp, countMarked flags [m.hFace (m.hRev a0), m.hFace (m.hRev a1), m.hFace (m.hRev a2)] (0, -1) m = .ok (count, opp) m ∧
        ((count = 1 ∧ ∃ x ∈ [a0, a1, a2], m.LineEdge p c x ∧ opp = m.fIdx (m.hFace (m.hRev x))) ∨
          (count ≠ 1 ∧ ∀ x ∈ [a0, a1, a2], ¬m.LineEdge p c x)) := by
      rw [countMarked_cons w hf g0, countMarked_cons w hf g1, countMarked_cons w hf g2]
      have l0 := iff a0 (by simp)
      have l1 := iff a1 (by simp)
      have l2 := iff a2 (by simp)
      simp only [List.mem_cons, List.not_mem_nil, or_false, forall_eq_or_imp, forall_eq, ne_eq, not_true, false_imp_iff, true_and,
        n01, n02, n12, n01.symm, n02.symm, n12.symm, not_false_eq_true, true_imp_iff, and_true] at l0 l1 l2
      by_cases k0 : m.faceKind p c (m.hFace (m.hRev a0)) = 0 <;> by_cases k1 : m.faceKind p c (m.hFace (m.hRev a1)) = 0 <;>
        by_cases k2 : m.faceKind p c (m.hFace (m.hRev a2)) = 0 <;>
        refine ⟨_, _, by simp only [k0, k1, k2, ne_eq, not_true, not_false_eq_true, if_true, if_false]; rfl, ?_⟩ <;>
        simp [l0, l1, l2, k0, k1, k2]
    obtain ⟨count, opp, hc, h⟩ := cm
    rw [run, bind_apply, hc]
    dsimp only
    rcases h with ⟨rfl, x, hx, L, rfl⟩ | ⟨nc, hn⟩
    · have ax := L.alive
      have gx := w.face_alive _ (w.rev_alive _ ax)
      have ax1 := w.next_alive _ ax
      have ax2 := w.next_alive _ ax1
      have kx := L.across
      rw [if_neg (by simp)]
      obtain ⟨ig, hig⟩ := w.fDense.exists_at gx
      rw [bind_apply, w.fDense.idx_of hig, faceAt_get hig]; dsimp only
      rw [bind_apply, getFIdx_ok gx]; dsimp only
      rw [bind_apply, flag_at w hf gx]; dsimp only
      rw [bind_apply, assert_true (by simpa using kx)]; dsimp only
      rw [bind_apply, w.faceList_ok af, ha0, orb]; dsimp only
      rw [bind_apply, firstTo_ok w [a0, a1, a2] (by simp [b0, b1, b2]) hx (fun y hy ne e => by
        have := ((iff x hx).1 L).2 y hy ne
        rw [e] at this
        exact kx this)]
      dsimp only
      obtain ⟨d, hd, id⟩ := C.inward_of ax (A _ (w.src_alive _ ax)) (A _ (w.src_alive _ ax1)) (A _ (w.src_alive _ ax2))
      have ix := id.smul (m.faceKind p c (m.hFace (m.hRev x)) : ℝ)
      obtain ⟨s1, r1, q1⟩ := push_ok w hs (w.src_alive _ ax) ix
      obtain ⟨s2, r2, q2⟩ := push_ok w q1 (w.src_alive _ ax1) ix
      refine ⟨s2, ?_, ?_⟩
      · rw [bind_apply, getSrc_ok ax]; dsimp only
        rw [bind_apply, getDst_ok ax ax1]; dsimp only
        rw [bind_apply, getNext_ok ax]; dsimp only
        rw [bind_apply, getDst_ok ax1 ax2]; dsimp only
        rw [bind_apply, getPos_ok (w.src_alive _ ax)]; dsimp only
        rw [bind_apply, getPos_ok (w.src_alive _ ax1)]; dsimp only
        rw [bind_apply, getPos_ok (w.src_alive _ ax2)]; dsimp only
        rw [bind_apply, hd]
        change (s.push _ _ (d.smul (Scalar.lit _ 1)) >>= _) m = _
        rw [lit_int, bind_apply, r1]
        exact r2
      · have ne : m.hSrc x ≠ m.hSrc (m.hNext x) := by
          intro e
          apply (C x ax).2
          rw [triNormal_sub, ← e, sub_self]
          have := triNormal_smul_left 0 0 (p (m.hSrc (m.hNext (m.hNext x))) - p (m.hSrc x))
          simpa using this
        have sT : ∀ v, m.lineT p c v a0 + (m.lineT p c v a1 + m.lineT p c v a2) = m.lineT p c v x ∧
            m.lineU p c v a0 + (m.lineU p c v a1 + m.lineU p c v a2) = m.lineU p c v x := by
          intro v
          have z : ∀ y ∈ [a0, a1, a2], y ≠ x → m.lineT p c v y = 0 ∧ m.lineU p c v y = 0 := by
            intro y hy ne
            have : ¬(m.LineEdge p c y ∧ (m.hSrc y = v ∨ m.hSrc (m.hNext y) = v)) := fun h => h.1.across (((iff x hx).1 L).2 y hy ne)
            unfold Mesh.lineT Mesh.lineU
            rw [if_neg this, if_neg this]
            exact ⟨rfl, rfl⟩
          simp only [List.mem_cons, List.not_mem_nil, or_false, forall_eq_or_imp, forall_eq] at hx z
          rcases hx with rfl | rfl | rfl
          · simp [z.2.1 n01.symm, z.2.2 n02.symm]
          · simp [z.1 n01, z.2.2 n12.symm]
          · simp [z.1 n02, z.2.1 n12]
        intro j v hj
        obtain ⟨h1, h2⟩ := q2 j v hj
        simp only [(sT v).1, (sT v).2]
        have hT : m.lineT p c v x = (if v = m.hSrc x then (m.faceKind p c (m.hFace (m.hRev x)) : ℝ) • m.inward p x else 0) +
            if v = m.hSrc (m.hNext x) then (m.faceKind p c (m.hFace (m.hRev x)) : ℝ) • m.inward p x else 0 := by
          unfold Mesh.lineT
          by_cases c0 : v = m.hSrc x
          · rw [if_pos ⟨L, .inl c0.symm⟩, if_pos c0, if_neg (c0 ▸ ne), add_zero]
          · by_cases c1 : v = m.hSrc (m.hNext x)
            · rw [if_pos ⟨L, .inr c1.symm⟩, if_neg c0, if_pos c1, zero_add]
            · rw [if_neg (fun h => h.2.elim (fun e => c0 e.symm) fun e => c1 e.symm), if_neg c0, if_neg c1, add_zero]
        have hU : m.lineU p c v x = (if v = m.hSrc x then 1 else 0) + if v = m.hSrc (m.hNext x) then 1 else 0 := by
          unfold Mesh.lineU
          by_cases c0 : v = m.hSrc x
          · rw [if_pos ⟨L, .inl c0.symm⟩, if_pos c0, if_neg (c0 ▸ ne), add_zero]
          · by_cases c1 : v = m.hSrc (m.hNext x)
            · rw [if_pos ⟨L, .inr c1.symm⟩, if_neg c0, if_pos c1, zero_add]
            · rw [if_neg (fun h => h.2.elim (fun e => c0 e.symm) fun e => c1 e.symm), if_neg c0, if_neg c1, add_zero]
        rw [hT, hU, ← add_assoc, ← add_assoc]
        exact ⟨h1, h2⟩
    · rw [if_pos nc]
      refine ⟨s, rfl, ?_⟩
      intro j v hj
      have z : ∀ x ∈ [a0, a1, a2], m.lineT p c v x = 0 ∧ m.lineU p c v x = 0 := by
        intro x hx
        unfold Mesh.lineT Mesh.lineU
        have := hn x hx
        simp [this]
      simp only [List.mem_cons, List.not_mem_nil, or_false, forall_eq_or_imp, forall_eq] at z
      simp only [z.1.1, z.1.2, z.2.1.1, z.2.1.2, z.2.2.1, z.2.2.2, add_zero]
      exact hs j v hj

/-- the sums over all faces -/
theorem lineFaces_ok (G : m.Good) (A : m.AtE p) (C : m.Closed p) {flags : List Int}
    (hf : ∀ (i : Nat) f, m.fs[i]? = some f → flags[i]? = some (m.faceKind p c f)) :
    ∃ s', foldAll (lineFace flags m.vs.length) (List.range m.fs.length) (⟨fun _ => Vec3.zero, fun _ => Scalar.lit 0 1⟩ : LineAcc XR) m = .ok s' m ∧
      AccHolds m s' (fun v => (m.hes.map (m.lineT p c v)).sum) (fun v => (m.hes.map (m.lineU p c v)).sum) := by
  obtain ⟨s', h1, h2⟩ := foldAll_range (m := m) (body := lineFace flags m.vs.length) (b := ⟨fun _ => Vec3.zero, fun _ => Scalar.lit 0 1⟩)
    (P := fun i s => AccHolds m s
      (fun v => ((m.fs.take i).map fun f => m.lineT p c v (m.fHe f) + (m.lineT p c v (m.hNext (m.fHe f)) +
        m.lineT p c v (m.hNext (m.hNext (m.fHe f))))).sum)
      (fun v => ((m.fs.take i).map fun f => m.lineU p c v (m.fHe f) + (m.lineU p c v (m.hNext (m.fHe f)) +
        m.lineU p c v (m.hNext (m.hNext (m.fHe f))))).sum)) m.fs.length
    (by intro j v _; exact ⟨by simpa using Vec3.Is.zero, by rw [lit_zero]; simp⟩)
    (fun i s hi hs => by
      have hfi : m.fs[i]? = some m.fs[i] := List.getElem?_eq_getElem hi
      obtain ⟨s', h1, h2⟩ := lineFace_ok G A C hf hfi hs
      refine ⟨s', h1, ?_⟩
      intro j v hj
      have := h2 j v hj
      dsimp only at this ⊢
      rw [List.take_succ_eq_append_getElem hi, List.map_append, List.sum_append, List.map_append, List.sum_append]
      simpa using this)
  refine ⟨s', h1, ?_⟩
  intro j v hj
  have := h2 j v hj
  rw [List.take_length] at this
  dsimp only at this ⊢
  rw [G.wf.sum_faces C, G.wf.sum_faces C]
  exact this

open Classical in
theorem lineT_sum (v : Nat) : (m.hes.map (m.lineT p c v)).sum =
    ((m.linesAt p c v).map fun h => (m.faceKind p c (m.hFace (m.hRev h)) : ℝ) • m.inward p h).sum := by
  unfold Mesh.linesAt
  generalize m.hes = l
  induction l with
  | nil => rfl
  | cons a l ih =>
    rw [List.map_cons, List.sum_cons, ih, List.filter_cons]
    unfold Mesh.lineT
    by_cases h : m.LineEdge p c a ∧ (m.hSrc a = v ∨ m.hSrc (m.hNext a) = v)
    · rw [if_pos h, if_pos (by simpa using h), List.map_cons, List.sum_cons]
    · rw [if_neg h, if_neg (by simpa using h), zero_add]

theorem lineU_sum (v : Nat) : (m.hes.map (m.lineU p c v)).sum = ((m.linesAt p c v).length : ℝ) := by
  unfold Mesh.linesAt
  generalize m.hes = l
  induction l with
  | nil => simp
  | cons a l ih =>
    rw [List.map_cons, List.sum_cons, ih, List.filter_cons]
    unfold Mesh.lineU
    by_cases h : m.LineEdge p c a ∧ (m.hSrc a = v ∨ m.hSrc (m.hNext a) = v)
    · rw [if_pos h, if_pos (by simpa using h), List.length_cons]
      push_cast; ring
    · rw [if_neg h, if_neg (by simpa using h), zero_add]

open Classical in
theorem linesAt_nil (w : m.WF) {v : Nat} : m.linesAt p c v = [] ↔ ¬m.OnLine p c v := by
  unfold Mesh.linesAt Mesh.OnLine
  rw [List.filter_eq_nil_iff]
  constructor
  · rintro h ⟨x, L, hx⟩
    exact h x ((w.hDense.mem x).2 L.alive) (by simpa using ⟨L, hx⟩)
  · intro h x hx hd
    have := (decide_eq_true_iff).1 hd
    exact h ⟨x, this.1, this.2⟩

open Classical in
/-- the directions and flags after the means are taken -/
theorem lineMeans_ok (w : m.WF) {s : LineAcc XR}
    (hs : AccHolds m s (fun v => (m.hes.map (m.lineT p c v)).sum) (fun v => (m.hes.map (m.lineU p c v)).sum)) :
    ∃ s', foldAll lineMean (List.range m.vs.length) s m = .ok s' m ∧
      AccHolds m s' (fun v => if m.OnLine p c v then m.lineDir p c v else 0) (fun v => if m.OnLine p c v then 1 else 0) := by
  obtain ⟨s', h1, h2⟩ := foldAll_range (m := m) (body := lineMean) (b := s)
    (P := fun k s' => (∀ (i : Nat) v, i < k → m.vs[i]? = some v → (s'.dir i).Is (if m.OnLine p c v then m.lineDir p c v else 0) ∧
        s'.cnt i = .fin (if m.OnLine p c v then 1 else 0)) ∧ ∀ i, k ≤ i → s'.dir i = s.dir i ∧ s'.cnt i = s.cnt i) m.vs.length
    ⟨by intro i v h; omega, fun _ _ => ⟨rfl, rfl⟩⟩
    (fun k t hk ⟨ht, hr⟩ => by
      have hv : m.vs[k]? = some m.vs[k] := List.getElem?_eq_getElem hk
      obtain ⟨q1, q2⟩ := hs k _ hv
      obtain ⟨r1, r2⟩ := hr k (le_refl _)
      dsimp only at q1 q2
      rw [lineT_sum] at q1
      rw [lineU_sum] at q2
      unfold lineMean
      rw [r1, r2, q2, lit_zero, X_eq_iff]
      by_cases on : m.OnLine p c m.vs[k]
      · have ne : ((m.linesAt p c m.vs[k]).length : ℝ) ≠ 0 := by
          rw [Nat.cast_ne_zero]
          intro h
          exact (linesAt_nil w).1 (List.length_eq_zero_iff.1 h) on
        rw [if_neg (by simpa using ne)]
        obtain ⟨d, hd, id⟩ := q1.div ne
        have id : d.Is (m.lineMeanDir p c m.vs[k]) := id
        have fin : ∃ d', (if Scalar.lt (Scalar.lit 1 (10 ^ 8)) d.length then d.normalize? else some d) = some d' ∧
            d'.Is (m.lineDir p c m.vs[k]) := by
          rw [id.length, lit_tiny, X_lt_iff]
          unfold Mesh.lineDir
          by_cases l : 1 / 10 ^ 8 < ‖m.lineMeanDir p c m.vs[k]‖
          · obtain ⟨d', e1, e2⟩ := id.normalize (norm_pos_iff.1 (lt_trans (by positivity) l))
            rw [if_pos (by simpa using l), if_pos l, e1]
            exact ⟨d', rfl, e2⟩
          · rw [if_neg (by simpa using l), if_neg l]
            exact ⟨d, rfl, id⟩
        obtain ⟨d', f1, f2⟩ := fin
        refine ⟨⟨upd t.dir k d', upd t.cnt k (Scalar.lit 1 1)⟩, ?_, ?_, ?_⟩
        · rw [bind_apply, hd]
          change (orThrowM (if Scalar.lt (Scalar.lit 1 (10 ^ 8)) d.length then d.normalize? else some d) >>= _) m = _
          rw [f1]
          rfl
        · intro i v hi hiv
          by_cases e : i = k
          · subst e
            rw [hv] at hiv; cases hiv
            simp only [upd_same, if_pos on]
            exact ⟨f2, by rw [lit_int]; norm_num⟩
          · simp only [upd_ne _ _ e]
            exact ht i v (by omega) hiv
        · intro i hi
          have e : i ≠ k := by omega
          simp only [upd_ne _ _ e]
          exact hr i (by omega)
      · have nil := (linesAt_nil w).2 on
        rw [nil] at q1 q2 ⊢
        rw [if_pos (by simp)]
        refine ⟨t, rfl, ?_, fun i hi => hr i (by omega)⟩
        intro i v hi hiv
        by_cases e : i = k
        · subst e
          rw [hv] at hiv; cases hiv
          rw [r1, r2, if_neg on, if_neg on]
          exact ⟨by simpa using q1, by simpa using q2⟩
        · exact ht i v (by omega) hiv)
  exact ⟨s', h1, fun i v hi => h2.1 i v (List.getElem?_eq_some_iff.1 hi).1 hi⟩

end
end TinyMesh
