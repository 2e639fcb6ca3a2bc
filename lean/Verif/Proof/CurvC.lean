import Verif.Proof.CurvB
/-
Areas, curvatures and normals of a vertex.
-/
namespace TinyMesh
open Orbit
variable {m : Mesh XR} {p : Nat → E3}

theorem vorArea_exact (w : m.WF) (A : m.AtE p) {v : Nat} (a : m.vAlive v = true) (t : m.TriRing v) :
    vorArea v m = .ok (.fin (m.mixedSum p v)) m := by
  unfold vorArea
  rw [bind_apply, w.ringPos_ok a]; dsimp only
  rw [bind_apply, getPos_ok a]; dsimp only
  have h := (sumPairs_exact w a (g := vorCorner (m.vPos v)) (G := fun y z => mixedArea (p v) (p y) (p z)) fun y z ay _ az _ =>
    vorCorner_exact (A v a) (A _ (w.src_alive _ (w.next_alive _ ay))) (A _ (w.src_alive _ (w.next_alive _ az)))).1
  rw [pure_apply, h]
  congr 2
  unfold Mesh.mixedSum
  rw [← w.corner_sum a t fun y z => mixedArea (p v) (p y) (p z)]
  congr 1
  exact List.map_congr_left fun y _ => mixedArea_comm _ _ _

theorem Mesh.mixedSum_pos (w : m.WF) {v : Nat} (a : m.vAlive v = true) (hf : ∀ h, m.hAlive h = true → m.hSrc h = v → m.Fat p h) :
    0 < m.mixedSum p v := by
  unfold Mesh.mixedSum
  apply List.sum_pos
  · intro x hx
    obtain ⟨h, hh, rfl⟩ := List.mem_map.1 hx
    obtain ⟨h1, h2⟩ := (w.mem_ring a).1 ((w.ring_perm a).mem_iff.2 hh)
    have := hf h h1 h2
    unfold Mesh.Fat at this
    rw [h2] at this
    exact mixedArea_pos this
  · intro e
    have := (w.mem_ring a).2 ⟨(w.vHe_ok v a).1, (w.vHe_ok v a).2⟩
    have := (w.ring_perm a).mem_iff.1 this
    rw [List.map_eq_nil_iff] at e
    change _ ∈ m.outs v at this
    rw [e] at this
    cases this

theorem Mesh.Fat.ne {F : Type} {m : Mesh F} {h : Nat} (f : m.Fat p h) : p (m.hSrc (m.hNext h)) ≠ p (m.hSrc h) ∧
    p (m.hSrc (m.hNext (m.hNext h))) ≠ p (m.hSrc h) := by
  unfold Mesh.Fat at f
  constructor
  · intro e; apply f; rw [e]; unfold triNormal; simp
  · intro e; apply f; rw [e]; unfold triNormal; simp

theorem gaussK_exact (w : m.WF) (A : m.AtE p) {v : Nat} (a : m.vAlive v = true) (t : m.TriRing v)
    (hf : ∀ h, m.hAlive h = true → m.hSrc h = v → m.Fat p h) :
    gaussK v m = .ok (.fin ((2 * Real.pi - m.angleSum p v) / m.mixedSum p v)) m := by
  have hn : ∀ y, m.hAlive y = true → m.hSrc y = v → p (m.hSrc (m.hNext y)) ≠ p v := fun y ay sy => by
    have := (hf y ay sy).ne.1; rwa [sy] at this
  unfold gaussK
  rw [bind_apply, w.ringPos_ok a]; dsimp only
  rw [bind_apply, getPos_ok a]; dsimp only
  have h1 := (sumPairs_exact w a (g := vorCorner (m.vPos v)) (G := fun y z => mixedArea (p v) (p y) (p z)) fun y z ay _ az _ =>
    vorCorner_exact (A v a) (A _ (w.src_alive _ (w.next_alive _ ay))) (A _ (w.src_alive _ (w.next_alive _ az)))).2
  have h2 := (sumPairs_exact w a (g := cornerAngle (m.vPos v)) (G := fun y z => EuclideanGeometry.angle (p y) (p v) (p z))
    fun y z ay sy az sz => cornerAngle_exact (A v a) (A _ (w.src_alive _ (w.next_alive _ ay)))
      (A _ (w.src_alive _ (w.next_alive _ az))) (hn y ay sy) (hn z az sz)).2
  rw [pure_apply, h1, h2, w.corner_sum a t fun y z => mixedArea (p v) (p y) (p z),
    w.corner_sum a t fun y z => EuclideanGeometry.angle (p y) (p v) (p z), X_lit, X_pi, X_mul, X_sub, R_lit, X_div]
  · congr 2
    congr 1
    · congr 1
      · norm_num
      · unfold Mesh.angleSum
        congr 1
        refine List.map_congr_left fun h hh => ?_
        obtain ⟨-, h2⟩ := (w.mem_ring a).1 ((w.ring_perm a).mem_iff.2 hh)
        unfold Mesh.cornerAng
        rw [h2]
  · exact (m.mixedSum_pos w a hf).ne'

/-! ### Normals -/

theorem maxTerm_exact {a b c : Vec3 XR} {x y z : E3} (ha : a.Is x) (hb : b.Is y) (hc : c.Is z) (h1 : y ≠ x) (h2 : z ≠ x) :
    ∃ n, maxTerm a b c = some n ∧ n.Is ((‖y - x‖ ^ 2 * ‖z - x‖ ^ 2)⁻¹ • triNormal x y z) := by
  unfold maxTerm
  dsimp only
  rw [(hb.sub ha).length, (hc.sub ha).length, X_mul, X_mul, X_mul]
  have n1 := norm_ne_zero_iff.2 (sub_ne_zero.2 h1)
  have n2 := norm_ne_zero_iff.2 (sub_ne_zero.2 h2)
  obtain ⟨n, e, hn⟩ := (ha.triNormal hb hc).div (s := ‖y - x‖ * ‖y - x‖ * ‖z - x‖ * ‖z - x‖) (by positivity)
  refine ⟨n, e, ?_⟩
  rw [show ‖y - x‖ ^ 2 * ‖z - x‖ ^ 2 = ‖y - x‖ * ‖y - x‖ * ‖z - x‖ * ‖z - x‖ by ring]
  exact hn

theorem maxTerm_none {a b c : Vec3 XR} {x y z : E3} (ha : a.Is x) (hb : b.Is y) (hc : c.Is z) (h : y = x ∨ z = x) :
    maxTerm a b c = none := by
  unfold maxTerm
  dsimp only
  rw [(hb.sub ha).length, (hc.sub ha).length, X_mul, X_mul, X_mul]
  have : ‖y - x‖ * ‖y - x‖ * ‖z - x‖ * ‖z - x‖ = 0 := by rcases h with h | h <;> subst h <;> simp
  rw [this]
  unfold Vec3.div?
  rw [if_pos]
  rw [lit_zero, X_eq, R_eq]

theorem foldPure_foldl {β : Type} (g : Nat → β → β) (l : List Nat) (b : β) :
    foldPure (fun x s => (false, g x s)) l b = l.foldl (fun s x => g x s) b := by
  induction l generalizing b with
  | nil => rfl
  | cons x xs ih => simp [foldPure, ih]

theorem Mesh.WF.permRing {F : Type} {m : Mesh F} (w : m.WF) (v : Nat) : Perm m.sig (fun x => m.HA x ∧ m.hSrc x = v) m.hFresh where
  maps := fun _ a => ⟨w.sig_alive a.1, (w.sig_src a.1).trans a.2⟩
  inj := fun x y hx hy h => w.permSig.inj x y hx.1 hy.1 h
  bound := fun x hx => w.permSig.bound x hx.1

/-- the direction of the sum of the weighted normals; no result when an edge has length zero or the sum vanishes -/
theorem vertNormal_exact (w : m.WF) (A : m.AtE p) {v : Nat} (a : m.vAlive v = true)
    (hd : ∀ h, m.hAlive h = true → m.hSrc h = v → p (m.hSrc (m.hNext h)) ≠ p v ∧ p (m.hSrc (m.hNext (m.hNext h))) ≠ p v) :
    (m.maxSum p v ≠ 0 → ∃ n, vertNormal v m = .ok n m ∧ n.Is (unitOf (m.maxSum p v))) ∧
    (m.maxSum p v = 0 → vertNormal v m = .err .throw) := by
  have hv := w.vHe_ok v a
  let tt : Nat → Vec3 XR := fun x => (maxTerm (m.vPos v) (m.vPos (m.hSrc (m.hNext x))) (m.vPos (m.hSrc (m.hNext (m.hNext x))))).getD Vec3.zero
  have ht : ∀ x, m.hAlive x = true → m.hSrc x = v →
      maxTerm (m.vPos v) (m.vPos (m.hSrc (m.hNext x))) (m.vPos (m.hSrc (m.hNext (m.hNext x)))) = some (tt x) ∧
      (tt x).Is ((‖p (m.hSrc (m.hNext x)) - p v‖ ^ 2 * ‖p (m.hSrc (m.hNext (m.hNext x))) - p v‖ ^ 2)⁻¹ •
        triNormal (p v) (p (m.hSrc (m.hNext x))) (p (m.hSrc (m.hNext (m.hNext x))))) := by
    intro x ax sx
    have a1 := w.next_alive _ ax
    have a2 := w.next_alive _ a1
    obtain ⟨n, e, hn⟩ := maxTerm_exact (A v a) (A _ (w.src_alive _ a1)) (A _ (w.src_alive _ a2)) (hd x ax sx).1 (hd x ax sx).2
    have : tt x = n := by simp only [tt, e, Option.getD_some]
    rw [this]
    exact ⟨e, hn⟩
  have hc := circ_pure (step := ringStep) (w.permRing v) hv (fun _ h => w.ne0 h.1) m (Nat.le_refl _) (fun _ h => w.ringStep_ok h.1)
    (body := fun x (s : Vec3 XR) => do
      let p0 ← getPos v
      let d ← getDst x
      let p1 ← getPos d
      let n ← getNext x
      let e ← getDst n
      let p2 ← getPos e
      let t ← orThrowM (maxTerm p0 p1 p2)
      pure (false, s.add t))
    (fun x s => (false, s.add (tt x))) (fun x hx b => by
      have a1 := w.next_alive _ hx.1
      have a2 := w.next_alive _ a1
      simp only [bind_apply, getPos_ok a, getDst_ok hx.1 a1, getPos_ok (w.src_alive _ a1), getNext_ok hx.1, getDst_ok a1 a2,
        getPos_ok (w.src_alive _ a2), (ht x hx.1 hx.2).1, orThrowM, pure_apply]) Vec3.zero
  rw [foldPure_foldl] at hc
  have hs : (List.foldl (fun s x => s.add (tt x)) Vec3.zero (orbit m.sig (m.vHe v))).Is (m.maxSum p v) := by
    have h := foldl_is tt (fun x => (‖p (m.hSrc (m.hNext x)) - p v‖ ^ 2 * ‖p (m.hSrc (m.hNext (m.hNext x))) - p v‖ ^ 2)⁻¹ •
        triNormal (p v) (p (m.hSrc (m.hNext x))) (p (m.hSrc (m.hNext (m.hNext x))))) (orbit m.sig (m.vHe v)) Vec3.zero 0 Vec3.Is.zero
      fun x hx => (ht x ((w.mem_ring a).1 hx).1 ((w.mem_ring a).1 hx).2).2
    rw [zero_add, ← w.outs_sum a] at h
    exact h
  have e : vertNormal v m = orThrowM (List.foldl (fun s x => s.add (tt x)) Vec3.zero (orbit m.sig (m.vHe v))).normalize? m := by
    unfold vertNormal
    rw [bind_apply, getVHe_ok a]; dsimp only
    rw [bind_apply, hc]
  constructor
  · intro h0
    obtain ⟨n, hn, h⟩ := hs.normalize h0
    exact ⟨n, by rw [e, hn]; rfl, h⟩
  · intro h0
    rw [e, show Vec3.normalize? _ = none from ?_]
    · rfl
    · unfold Vec3.normalize? Vec3.div?
      rw [hs.length, h0, norm_zero, if_pos]
      rw [lit_zero, X_eq, R_eq]

theorem foldList_throw {F β : Type} {body : Nat → β → M F (Bool × β)} {g : Nat → β → β} {bad : Nat → Prop} {m : Mesh F} :
    ∀ (l : List Nat) (b : β), (∀ x ∈ l, ∀ b, (¬ bad x → body x b m = .ok (false, g x b) m) ∧ (bad x → body x b m = .err .throw)) →
      (∃ x ∈ l, bad x) → foldList body l b m = .err .throw
  | [], _, _, h => by simp at h
  | x :: l, b, hb, h => by
    unfold foldList
    rw [bind_apply]
    by_cases hx : bad x
    · rw [(hb x (by simp) b).2 hx]
    · rw [(hb x (by simp) b).1 hx]
      dsimp only
      simp only [Bool.false_eq_true, if_false]
      refine foldList_throw l _ (fun y hy => hb y (by simp [hy])) ?_
      obtain ⟨y, hy, e⟩ := h
      rcases List.mem_cons.1 hy with rfl | hy
      · exact absurd e hx
      · exact ⟨y, hy, e⟩

/-- an edge of length zero at the vertex leads to an exception -/
theorem vertNormal_throws (w : m.WF) (A : m.AtE p) {v : Nat} (a : m.vAlive v = true) {h : Nat} (ah : m.hAlive h = true) (sh : m.hSrc h = v)
    (hz : p (m.hSrc (m.hNext h)) = p v ∨ p (m.hSrc (m.hNext (m.hNext h))) = p v) : vertNormal v m = .err .throw := by
  have hv := w.vHe_ok v a
  let tt : Nat → Vec3 XR := fun x => (maxTerm (m.vPos v) (m.vPos (m.hSrc (m.hNext x))) (m.vPos (m.hSrc (m.hNext (m.hNext x))))).getD Vec3.zero
  let bad : Nat → Prop := fun x => p (m.hSrc (m.hNext x)) = p v ∨ p (m.hSrc (m.hNext (m.hNext x))) = p v
  have hb : ∀ x, m.hAlive x = true ∧ m.hSrc x = v → ∀ s : Vec3 XR,
    let body : M XR (Bool × Vec3 XR) := do
      let p0 ← getPos v
      let d ← getDst x
      let p1 ← getPos d
      let n ← getNext x
      let e ← getDst n
      let p2 ← getPos e
      let t ← orThrowM (maxTerm p0 p1 p2)
      pure (false, s.add t)
    (¬ bad x → body m = .ok (false, s.add (tt x)) m) ∧ (bad x → body m = .err .throw) := by
    intro x hx s
    have a1 := w.next_alive _ hx.1
    have a2 := w.next_alive _ a1
    constructor
    · intro nb
      simp only [bad, not_or] at nb
      obtain ⟨n, e, hn⟩ := maxTerm_exact (A v a) (A _ (w.src_alive _ a1)) (A _ (w.src_alive _ a2)) nb.1 nb.2
      have et : tt x = n := by simp only [tt, e, Option.getD_some]
      simp only [bind_apply, getPos_ok a, getDst_ok hx.1 a1, getPos_ok (w.src_alive _ a1), getNext_ok hx.1, getDst_ok a1 a2,
        getPos_ok (w.src_alive _ a2), e, orThrowM, pure_apply, et]
    · intro b
      have e := maxTerm_none (A v a) (A _ (w.src_alive _ a1)) (A _ (w.src_alive _ a2)) b
      simp only [bind_apply, getPos_ok a, getDst_ok hx.1 a1, getPos_ok (w.src_alive _ a1), getNext_ok hx.1, getDst_ok a1 a2,
        getPos_ok (w.src_alive _ a2), e, orThrowM]
      rfl
  unfold vertNormal
  rw [bind_apply, getVHe_ok a]; dsimp only
  rw [bind_apply, circ_eq (w.permRing v) (fun m' => m' = m) hv (fun _ h => w.ne0 h.1) m (Nat.le_refl _) rfl
    (fun m' e x hx => by subst e; exact w.ringStep_ok hx.1)
    (fun m' e x hx b r m'' hr => by
      subst e
      by_cases hbad : bad x
      · rw [(hb x hx b).2 hbad] at hr; cases hr
      · rw [(hb x hx b).1 hbad] at hr; cases hr; rfl),
    foldList_throw (g := fun x s => s.add (tt x)) (bad := bad) _ _ (fun x hx b => hb x ((w.mem_ring a).1 hx) b) ⟨h, (w.mem_ring a).2 ⟨ah, sh⟩, hz⟩]

end TinyMesh
