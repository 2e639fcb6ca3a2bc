import Verif.Proof.FrontM
import Verif.Proof.SmoothB
import Verif.Proof.EditB
/-
What the parts of a round read, and what a round does.
-/
namespace TinyMesh
open Orbit
variable {F : Type} [Scalar F] {m0 m m' : Mesh F} {f : Nat}

/-- the value of `Face::normal`; `none` is an exception -/
noncomputable def Mesh.frontNormal? (m : Mesh F) (g : Nat) : Option (Vec3 F) :=
  let ps := ((orbit m.hNext (m.fHe g)).map m.hSrc).map m.vPos
  (normalSum ps (List.range ps.length) Vec3.zero).normalize?

theorem faceNormal_ok (w : m.WF) {g : Nat} (a : m.fAlive g = true) :
    faceNormal g m = match m.frontNormal? g with | some n => .ok n m | none => .err .throw := by
  have ps := getPosList_ok (m := m) ((orbit m.hNext (m.fHe g)).map m.hSrc) (by
    intro v hv
    obtain ⟨h, hh, e⟩ := List.mem_map.1 hv
    rw [← e]
    exact w.src_alive _ (((w.faceLoop a).mem h).1 hh).1)
  unfold faceNormal Mesh.frontNormal?
  rw [bind_apply, w.faceVerts_ok a]
  dsimp only
  rw [bind_apply, ps]
  dsimp only
  cases (normalSum (((orbit m.hNext (m.fHe g)).map m.hSrc).map m.vPos) (List.range (((orbit m.hNext (m.fHe g)).map m.hSrc).map m.vPos).length)
    Vec3.zero).normalize? <;> rfl

/-- the angle of the front between the sides `a` and `b`, where `q` follows; `none` is an exception -/
noncomputable def Mesh.frontAngle? (m : Mesh F) (a b q : Nat) : Option F :=
  match m.frontNormal? (m.hFace (m.hRev a)), m.frontNormal? (m.hFace (m.hRev b)) with
  | some n1, some n2 => (n1.add n2).normalize?.map fun n => frontTheta n (m.vPos (m.hSrc a)) (m.vPos (m.hSrc b)) (m.vPos (m.hSrc q))
  | _, _ => none

variable {hs : List Nat} {pp prev i next qq p a b q : Nat}

theorem boundaryAt_ok {vs : List Nat} {i v : Nat} (e : vs[i]? = some v) : boundaryAt vs i m = .ok v m := by
  unfold boundaryAt; rw [e]; rfl

theorem boundaryPos_eq {vs : List Nat} {i v : Nat} (e : vs[i]? = some v) (a : m.vAlive v = true) : boundaryPos vs i m = .ok (m.vPos v) m := by
  unfold boundaryPos; rw [bind_apply, boundaryAt_ok e]; exact getPos_ok a

theorem frontAngle_ok (w : m.WF) (C : Corner m f hs pp prev i next qq p a b q) :
    frontAngle (hs.map m.hSrc) (startMaps hs) i m = match m.frontAngle? a b q with | some t => .ok t m | none => .err .throw := by
  have e1 : (startMaps hs).he prev i = a := by unfold HeMaps.he; rw [C.la]; rfl
  have e2 : (startMaps hs).he i next = b := by unfold HeMaps.he; rw [C.lb]; rfl
  have ar := w.rev_alive _ C.aa
  have br := w.rev_alive _ C.ab
  have n1 := faceNormal_ok w (w.face_alive _ ar)
  have n2 := faceNormal_ok w (w.face_alive _ br)
  unfold frontAngle Mesh.frontAngle?
  simp only [List.length_map, C.hprev, C.hnext, e1, e2]
  rw [bind_apply, getRev_ok C.aa]; dsimp only
  rw [bind_apply, getFace_ok ar]; dsimp only
  rw [bind_apply, n1]
  cases m.frontNormal? (m.hFace (m.hRev a)) with
  | none => rfl
  | some x =>
    dsimp only
    rw [bind_apply, getRev_ok C.ab]; dsimp only
    rw [bind_apply, getFace_ok br]; dsimp only
    rw [bind_apply, n2]
    cases m.frontNormal? (m.hFace (m.hRev b)) with
    | none => rfl
    | some y =>
      dsimp only
      cases (x.add y).normalize? with
      | none => rfl
      | some n =>
        have o : orThrowM (F := F) (some n) m = .ok n m := rfl
        rw [bind_apply, o]; dsimp only
        rw [bind_apply, boundaryPos_eq C.va (w.src_alive _ C.aa)]; dsimp only
        rw [bind_apply, boundaryPos_eq C.vb (w.src_alive _ C.ab)]; dsimp only
        rw [bind_apply, boundaryPos_eq C.vq (w.src_alive _ C.aq)]
        rfl

/-- the angle at a position of the front -/
noncomputable def Mesh.angleAt (m : Mesh F) (hs : List Nat) (i : Nat) : Option F :=
  m.frontAngle? (hs.getD ((i + hs.length - 1) % hs.length) 0) (hs.getD i 0) (hs.getD ((i + 1) % hs.length) 0)

/-- the sides of a corner are those at its positions -/
theorem Corner.at (C : Corner m f hs pp prev i next qq p a b q) (nd : hs.Nodup) : hs[prev]? = some a ∧ hs[i]? = some b ∧ hs[next]? = some q := by
  have look := startMaps_ok nd
  refine ⟨((look.1 _ _).1 C.la).2, ((look.1 _ _).1 C.lb).2, ?_⟩
  have l := C.lq
  unfold HeMaps.he at l
  cases e : (startMaps hs).pair2he.lookup (next, qq) with
  | none =>
    have := (look.1 (next, qq) (hs[next]'C.lt.2.2)).2 ⟨C.hqq.symm, List.getElem?_eq_getElem C.lt.2.2⟩
    rw [this] at e
    exact absurd e (by simp)
  | some x =>
    rw [e] at l
    have := ((look.1 _ _).1 e).2
    rw [this]
    exact congrArg _ l

theorem Corner.angle (C : Corner m f hs pp prev i next qq p a b q) (nd : hs.Nodup) : m.angleAt hs i = m.frontAngle? a b q := by
  obtain ⟨e1, e2, e3⟩ := C.at nd
  unfold Mesh.angleAt
  rw [C.hprev, C.hnext]
  simp only [List.getD_eq_getElem?_getD, e1, e2, e3, Option.getD_some]

/-- the loop over the angles, as a function -/
def pickAngle (ang : Nat → Option F) : List Nat → F × Option Nat → Option (F × Option Nat)
  | [], r => some r
  | i :: is, r => (ang i).bind fun t => pickAngle ang is (if Scalar.lt t r.1 then (t, some i) else r)

theorem frontSearch_ok (w : m.WF) (af : m.fAlive f = true) (hl : FaceLoop m f hs) (n4 : 4 ≤ hs.length) :
    ∀ (is : List Nat) (r : F × Option Nat), (∀ i ∈ is, i < hs.length) →
    frontSearch (hs.map m.hSrc) (startMaps hs) is r m =
      match pickAngle (m.angleAt hs) is r with | some x => .ok x m | none => .err .throw
  | [], _, _ => rfl
  | i :: is, r, hi => by
    obtain ⟨pp, prev, next, qq, p, a, b, q, C⟩ := w.corner af hl n4 (hi i (by simp))
    have e := frontAngle_ok w C
    unfold frontSearch pickAngle
    rw [bind_apply, e, C.angle hl.nodup]
    cases m.frontAngle? a b q with
    | none => rfl
    | some t => exact frontSearch_ok w af hl n4 is _ fun x hx => hi x (by simp [hx])

/-- what the loop finds: the index of an angle no other angle is smaller than, or that no angle is small -/
theorem pickAngle_some {ang : Nat → Option F} : ∀ {is : List Nat} {r x : F × Option Nat}, pickAngle ang is r = some x →
    (x = r ∨ ∃ i ∈ is, ang i = some x.1 ∧ x.2 = some i ∧ ∃ y, Scalar.lt x.1 y = true) ∧ ∀ i ∈ is, ∃ t, ang i = some t
  | [], r, x, e => ⟨.inl (Option.some.inj e).symm, by simp⟩
  | i :: is, r, x, e => by
    unfold pickAngle at e
    cases h : ang i with
    | none => rw [h] at e; exact absurd e (by simp)
    | some t =>
      rw [h] at e
      obtain ⟨k1, k2⟩ := pickAngle_some (e : pickAngle ang is _ = some x)
      refine ⟨?_, ?_⟩
      · rcases k1 with k | ⟨j, hj, k⟩
        · split at k
          · next hlt => exact .inr ⟨i, by simp, by rw [k, h], by rw [k], ⟨r.1, by rw [k]; exact hlt⟩⟩
          · exact .inl k
        · exact .inr ⟨j, by simp [hj], k⟩
      · intro j hj
        rcases List.mem_cons.1 hj with rfl | hj
        · exact ⟨t, h⟩
        · exact k2 j hj

/-! ### The test for a merge -/

theorem frontClose_ok {avg : F} {v w : Nat} (av : m.vAlive v = true) (aw : m.vAlive w = true) :
    frontClose avg v w m = .ok (!m.vLock v && Scalar.lt (Vec3.length ((m.vPos v).sub (m.vPos w))) (Scalar.lit 1 2 * avg)) m := by
  unfold frontClose
  rw [bind_apply, getLock_ok av]; dsimp only
  cases e : m.vLock v
  · rw [if_neg (by simp), bind_apply, getLock_ok av]; dsimp only
    rw [e, if_neg (by simp), bind_apply, getPos_ok av]; dsimp only
    rw [bind_apply, getPos_ok aw]
    rfl
  · rw [if_pos rfl]; rfl

/-- two vertices of the front that follow each other are merged: the first is not locked and they are close -/
def Mesh.closeAt (m : Mesh F) (avg : F) (b q : Nat) : Bool :=
  !m.vLock (m.hSrc b) && Scalar.lt (Vec3.length ((m.vPos (m.hSrc b)).sub (m.vPos (m.hSrc q)))) (Scalar.lit 1 2 * avg)

/-- no two vertices of the front are merged -/
def Mesh.NoClose (m : Mesh F) (avg : F) (f : Nat) : Prop := ∀ b, m.hAlive b = true → m.hFace b = f → m.closeAt avg b (m.hNext b) = false

theorem frontMergeLoop_ok (w : m.WF) (af : m.fAlive f = true) (hl : FaceLoop m f hs) (n4 : 4 ≤ hs.length) (avg : F) :
    ∀ (is : List Nat), (∀ i ∈ is, i < hs.length) →
    ((∀ i ∈ is, ∀ pp prev next qq p a b q, Corner m f hs pp prev i next qq p a b q → m.closeAt avg b q = false) ∧
      frontMergeLoop f avg (hs.map m.hSrc) hs is m = .ok false m) ∨
    ∃ i ∈ is, ∃ pp prev next qq p a b q, Corner m f hs pp prev i next qq p a b q ∧ m.closeAt avg b q = true ∧
      frontMergeLoop f avg (hs.map m.hSrc) hs is m = (frontMerge f (m.hSrc b) (m.hSrc q) a b q >>= fun _ => pure true) m
  | [], _ => .inl ⟨by simp, rfl⟩
  | i :: is, hi => by
    obtain ⟨pp, prev, next, qq, p, a, b, q, C⟩ := w.corner af hl n4 (hi i (by simp))
    obtain ⟨g1, g2, g3⟩ := C.at hl.nodup
    have e : frontMergeLoop f avg (hs.map m.hSrc) hs (i :: is) m =
        if m.closeAt avg b q then (frontMerge f (m.hSrc b) (m.hSrc q) a b q >>= fun _ => pure true) m
        else frontMergeLoop f avg (hs.map m.hSrc) hs is m := by
      rw [frontMergeLoop]
      simp only [List.length_map, C.hprev, C.hnext]
      rw [bind_apply, boundaryAt_ok C.vb]; dsimp only
      rw [bind_apply, boundaryAt_ok C.vq]; dsimp only
      rw [bind_apply, frontClose_ok (w.src_alive _ C.ab) (w.src_alive _ C.aq)]; dsimp only
      change (if m.closeAt avg b q = true then _ else _ : M F Bool) m = _
      cases m.closeAt avg b q
      · rw [if_neg (by simp), if_neg (by simp)]
      · rw [if_pos rfl, if_pos rfl]
        rw [bind_apply, boundaryAt_ok g2]; dsimp only
        rw [bind_apply, boundaryAt_ok g1]; dsimp only
        rw [bind_apply, boundaryAt_ok g3]
    cases c : m.closeAt avg b q with
    | true => exact .inr ⟨i, by simp, pp, prev, next, qq, p, a, b, q, C, c, by rw [e, c]; rfl⟩
    | false =>
      rw [c, if_neg (by simp)] at e
      rcases frontMergeLoop_ok w af hl n4 avg is (fun x hx => hi x (by simp [hx])) with ⟨k1, k2⟩ | ⟨j, hj, k⟩
      · refine .inl ⟨?_, e.trans k2⟩
        intro j hj pp' prev' next' qq' p' a' b' q' C'
        rcases List.mem_cons.1 hj with rfl | hj
        · obtain ⟨h1, h2, h3⟩ := C'.at hl.nodup
          have eb : b' = b := Option.some.inj (h2.symm.trans g2)
          have en : next' = next := C'.hnext.symm.trans C.hnext
          rw [en] at h3
          have eq : q' = q := Option.some.inj (h3.symm.trans g3)
          rw [eb, eq]; exact c
        · exact k1 j hj _ _ _ _ _ _ _ _ C'
      · obtain ⟨pp', prev', next', qq', p', a', b', q', C', k3, k4⟩ := k
        exact .inr ⟨j, by simp [hj], pp', prev', next', qq', p', a', b', q', C', k3, e.trans k4⟩

/-! ### Locking, and the end -/

/-- the mesh after completion.cpp:236-239 -/
def Mesh.lockAll (m : Mesh F) (vs : List Nat) : Mesh F := { m with vLock := fun v => if v ∈ vs then true else m.vLock v }

/-- the mesh after completion.cpp:251-255 -/
def Mesh.clearAll (m : Mesh F) (hs : List Nat) : Mesh F := { m with hBd := fun h => if h ∈ hs then false else m.hBd h }

theorem lockFold : ∀ (l : List Nat) (m : Mesh F), (∀ x ∈ l, m.hAlive x = true ∧ m.vAlive (m.hSrc x) = true) →
    foldList (fun x (_ : Unit) => (do
      let v ← getSrc x
      setLock v true
      pure (false, ()) : M F (Bool × Unit))) l () m = .ok () (m.lockAll (l.map m.hSrc))
  | [], m, _ => by
    have : m.lockAll [] = m := by unfold Mesh.lockAll; simp
    rw [List.map_nil, this]; rfl
  | x :: l, m, h => by
    obtain ⟨h1, h2⟩ := h x (by simp)
    have e : (do
      let v ← getSrc x
      setLock v true
      pure (false, ()) : M F (Bool × Unit)) m = .ok (false, ()) { m with vLock := upd m.vLock (m.hSrc x) true } := by
      rw [bind_apply, getSrc_ok h1]; dsimp only
      simp [setLock, h2]
    unfold foldList
    rw [bind_apply, e]
    dsimp only
    have := lockFold l { m with vLock := upd m.vLock (m.hSrc x) true } (fun y hy => h y (by simp [hy]))
    refine this.trans ?_
    congr 1
    unfold Mesh.lockAll
    congr 1
    funext v
    by_cases e1 : v ∈ l.map m.hSrc
    · simp [e1]
    · by_cases e2 : v = m.hSrc x <;> simp [e1, e2, upd]

theorem frontLock_ok (w : m.WF) (af : m.fAlive f = true) :
    frontLock f m = .ok () (m.lockAll ((orbit m.hNext (m.fHe f)).map m.hSrc)) := by
  unfold frontLock
  rw [bind_apply, getFHe_ok af]
  dsimp only
  rw [circ_eq w.permNext (fun m' => ∃ l, m' = { m with vLock := l }) (w.fHe_ok f af).1 (fun _ h => w.ne0 h) m (Nat.le_refl _) ⟨_, rfl⟩ ?_ ?_]
  · exact lockFold _ m fun x hx => by
      have := ((w.faceLoop af).mem x).1 hx
      exact ⟨this.1, w.src_alive _ this.1⟩
  · rintro _ ⟨l, rfl⟩ x hx
    exact Mesh.WF.faceStep_ok (m := { m with vLock := l }) hx
  · rintro _ ⟨l, rfl⟩ x hx _ r m' e
    have hx : m.hAlive x = true := hx
    have hv := w.src_alive _ hx
    have : (Out.ok (false, ()) { m with vLock := upd l (m.hSrc x) true } : Out F (Bool × Unit)) = .ok r m' := by
      rw [← e]
      simp [getSrc, setLock, hx, hv]
    injection this with _ h2
    exact ⟨_, h2.symm⟩

theorem clearFold : ∀ (l : List Nat) (m : Mesh F), (∀ x ∈ l, m.hAlive x = true ∧ m.hAlive (m.hRev x) = true) →
    foldList (fun x (_ : Unit) => (do
      setBd x false
      let r ← getRev x
      setBd r false
      pure (false, ()) : M F (Bool × Unit))) l () m = .ok () (m.clearAll (l ++ l.map m.hRev))
  | [], m, _ => by
    have : m.clearAll [] = m := by unfold Mesh.clearAll; simp
    rw [List.map_nil, List.append_nil, this]; rfl
  | x :: l, m, h => by
    obtain ⟨h1, h2⟩ := h x (by simp)
    have e : (do
      setBd x false
      let r ← getRev x
      setBd r false
      pure (false, ()) : M F (Bool × Unit)) m = .ok (false, ()) { m with hBd := upd (upd m.hBd x false) (m.hRev x) false } := by
      simp [setBd, getRev, h1, h2]
    unfold foldList
    rw [bind_apply, e]
    dsimp only
    have := clearFold l { m with hBd := upd (upd m.hBd x false) (m.hRev x) false } (fun y hy => h y (by simp [hy]))
    refine this.trans ?_
    congr 1
    unfold Mesh.clearAll
    congr 1
    funext v
    simp only [List.mem_append, List.map_cons, List.mem_cons, List.cons_append, upd]
    by_cases e1 : v ∈ l <;> by_cases e2 : v ∈ l.map m.hRev <;> by_cases e3 : v = x <;> by_cases e4 : v = m.hRev x <;> simp [e1, e2, e3, e4]

theorem frontFinish_ok (w : m.WF) (af : m.fAlive f = true) :
    frontFinish f m = .ok () (m.clearAll (orbit m.hNext (m.fHe f) ++ (orbit m.hNext (m.fHe f)).map m.hRev)) := by
  unfold frontFinish
  rw [bind_apply, getFHe_ok af]
  dsimp only
  rw [circ_eq w.permNext (fun m' => ∃ l, m' = { m with hBd := l }) (w.fHe_ok f af).1 (fun _ h => w.ne0 h) m (Nat.le_refl _) ⟨_, rfl⟩ ?_ ?_]
  · exact clearFold _ m fun x hx => by
      have := ((w.faceLoop af).mem x).1 hx
      exact ⟨this.1, w.rev_alive _ this.1⟩
  · rintro _ ⟨l, rfl⟩ x hx
    exact Mesh.WF.faceStep_ok (m := { m with hBd := l }) hx
  · rintro _ ⟨l, rfl⟩ x hx _ r m' e
    have hx : m.hAlive x = true := hx
    have hv := w.rev_alive _ hx
    have : (Out.ok (false, ()) { m with hBd := upd (upd l x false) (m.hRev x) false } : Out F (Bool × Unit)) = .ok r m' := by
      rw [← e]
      simp [getRev, setBd, hx, hv]
    injection this with _ h2
    exact ⟨_, h2.symm⟩

/-! ### One round -/

/-- the thresholds of completion.cpp:357, 379 -/
def frontSmall : F := Scalar.pi * (Scalar.lit 75 1 / Scalar.lit 180 1)
def frontLarge : F := Scalar.pi * (Scalar.lit 135 1 / Scalar.lit 180 1)

/-- what a round with at least four sides can do -/
inductive FrontStep (avg : F) (m : Mesh F) (f : Nat) : Out F Bool → Prop
  | merge {hs : List Nat} {pp prev i next qq p a b q : Nat} {m' : Mesh F} (C : Corner m f hs pp prev i next qq p a b q) (c : m.closeAt avg b q = true)
      (s : (m.vPos (m.hSrc b)).eq (m.vPos (m.hSrc b)) = true)
      (R : MergeEnd m m' f a b q (m.hRev b) (m.hNext (m.hRev b)) (m.hNext (m.hNext (m.hRev b))) (m.hFace (m.hRev b))) : FrontStep avg m f (.ok false m')
  | mergeAbort {hs : List Nat} {pp prev i next qq p a b q : Nat} (C : Corner m f hs pp prev i next qq p a b q) (c : m.closeAt avg b q = true)
      (s : ¬ (m.vPos (m.hSrc b)).eq (m.vPos (m.hSrc b)) = true) : FrontStep avg m f (.err .abort)
  | angleThrow {hs : List Nat} (nc : m.NoClose avg f) (hl : FaceLoop m f hs) {i : Nat} (hi : i < hs.length) (e : m.angleAt hs i = none) : FrontStep avg m f (.err .throw)
  | noAngle {hs : List Nat} (nc : m.NoClose avg f) (hl : FaceLoop m f hs) (e : pickAngle (m.angleAt hs) (List.range hs.length) (Scalar.lit (10 ^ 20) 1, none) = some (Scalar.lit (10 ^ 20) 1, none)) :
      FrontStep avg m f (.err .ub)
  | ear {hs : List Nat} {pp prev i next qq p a b q : Nat} {t : F} (C : Corner m f hs pp prev i next qq p a b q) (nc : m.NoClose avg f) (hl : FaceLoop m f hs)
      (e : pickAngle (m.angleAt hs) (List.range hs.length) (Scalar.lit (10 ^ 20) 1, none) = some (t, some i)) (s : Scalar.le t frontSmall = true) :
      FrontStep avg m f (.ok false (m.earMesh f p a b q))
  | mid {hs : List Nat} {pp prev i next qq p a b q : Nat} {t : F} {x : Vec3 F} (C : Corner m f hs pp prev i next qq p a b q) (nc : m.NoClose avg f) (hl : FaceLoop m f hs)
      (e : pickAngle (m.angleAt hs) (List.range hs.length) (Scalar.lit (10 ^ 20) 1, none) = some (t, some i)) (s : Scalar.le t frontSmall = false)
      (l : Scalar.le t frontLarge = true) (ex : frontMid (m.vPos (m.hSrc a)) (m.vPos (m.hSrc b)) (m.vPos (m.hSrc q)) = some x) :
      FrontStep avg m f (.ok false (m.midMesh f p a b q x))
  | wide {hs : List Nat} {pp prev i next qq p a b q : Nat} {t : F} {x y : Vec3 F} (C : Corner m f hs pp prev i next qq p a b q) (nc : m.NoClose avg f) (hl : FaceLoop m f hs)
      (e : pickAngle (m.angleAt hs) (List.range hs.length) (Scalar.lit (10 ^ 20) 1, none) = some (t, some i)) (s : Scalar.le t frontSmall = false)
      (l : Scalar.le t frontLarge = false) (ex : frontThirds (m.vPos (m.hSrc a)) (m.vPos (m.hSrc b)) (m.vPos (m.hSrc q)) = some (x, y)) :
      FrontStep avg m f (.ok false (m.wideMesh f p a b q x y))
  | bisectorThrow {hs : List Nat} {pp prev i next qq p a b q : Nat} {t : F} (C : Corner m f hs pp prev i next qq p a b q) (nc : m.NoClose avg f) (hl : FaceLoop m f hs)
      (e : pickAngle (m.angleAt hs) (List.range hs.length) (Scalar.lit (10 ^ 20) 1, none) = some (t, some i)) (s : Scalar.le t frontSmall = false)
      (d : (Scalar.le t frontLarge = true ∧ frontMid (m.vPos (m.hSrc a)) (m.vPos (m.hSrc b)) (m.vPos (m.hSrc q)) = none) ∨
        (Scalar.le t frontLarge = false ∧ frontThirds (m.vPos (m.hSrc a)) (m.vPos (m.hSrc b)) (m.vPos (m.hSrc q)) = none)) : FrontStep avg m f (.err .throw)

theorem pickAngle_none {ang : Nat → Option F} : ∀ {is : List Nat} {r : F × Option Nat}, pickAngle ang is r = none → ∃ i ∈ is, ang i = none
  | [], r, e => by simp [pickAngle] at e
  | i :: is, r, e => by
    unfold pickAngle at e
    cases h : ang i with
    | none => exact ⟨i, by simp, h⟩
    | some t =>
      rw [h] at e
      obtain ⟨j, hj, k⟩ := pickAngle_none (e : pickAngle ang is _ = none)
      exact ⟨j, by simp [hj], k⟩

theorem frontRound_step (w : m.WF) (af : m.fAlive f = true) (n4 : 4 ≤ (orbit m.hNext (m.fHe f)).length)
    (beh : ∀ {hs : List Nat} {pp prev i next qq p a b q : Nat}, Corner m f hs pp prev i next qq p a b q → m.vLock (m.hSrc b) = false →
      Behind m f a b q (m.hRev b) (m.hNext (m.hRev b)) (m.hNext (m.hNext (m.hRev b))) (m.hFace (m.hRev b))) (avg : F) :
    FrontStep avg m f (frontRound f avg m) := by
  have hl := w.faceLoop af
  have e0 : frontRound f avg m = (do
      let merged ← frontMergeLoop f avg ((orbit m.hNext (m.fHe f)).map m.hSrc) (orbit m.hNext (m.fHe f)) (List.range (orbit m.hNext (m.fHe f)).length)
      if merged then do
        let _ ← verify
        pure false
      else do
        let hs ← faceList f
        let s := collectPairs (orbit m.hNext (m.fHe f)).length 0 hs ⟨[], []⟩
        let (angle, i) ← frontSearch ((orbit m.hNext (m.fHe f)).map m.hSrc) s (List.range (orbit m.hNext (m.fHe f)).length) (Scalar.lit (10 ^ 20) 1, none)
        let (gs, s) ← frontPut f ((orbit m.hNext (m.fHe f)).map m.hSrc) s angle i
        frontLink s gs
        pure false : M F Bool) m := by
    unfold frontRound
    rw [bind_apply, w.faceVerts_ok af]; dsimp only
    rw [bind_apply, w.faceList_ok af]; dsimp only
    rw [List.length_map, if_neg (by omega)]
  rw [e0]
  generalize ehs : orbit m.hNext (m.fHe f) = hs at *
  rcases frontMergeLoop_ok w af hl n4 avg (List.range hs.length) (fun i hi => List.mem_range.1 hi) with ⟨nc0, k⟩ | ⟨i, _, pp, prev, next, qq, p, a, b, q, C, c, k⟩
  · have nc : m.NoClose avg f := by
      intro x ax fx
      obtain ⟨i, hi, e⟩ := List.getElem_of_mem ((hl.mem x).2 ⟨ax, fx⟩)
      obtain ⟨pp, prev, next, qq, p, a, b, q, C⟩ := w.corner af hl n4 hi
      have eb : b = x := by
        have := (C.at hl.nodup).2.1
        rw [List.getElem?_eq_getElem hi, e] at this
        exact (Option.some.inj this).symm
      have := nc0 i (List.mem_range.2 hi) _ _ _ _ _ _ _ _ C
      rw [← C.nb, eb] at this
      exact this
    rw [bind_apply, k]; dsimp only
    rw [if_neg (by simp), bind_apply, w.faceList_ok af, ehs]; dsimp only
    have fs := frontSearch_ok w af hl n4 (List.range hs.length) (Scalar.lit (10 ^ 20) 1, none) (fun i hi => List.mem_range.1 hi)
    change FrontStep avg m f ((frontSearch (hs.map m.hSrc) (startMaps hs) (List.range hs.length) (Scalar.lit (10 ^ 20) 1, none) >>= _) m)
    rw [bind_apply, fs]
    cases e : pickAngle (m.angleAt hs) (List.range hs.length) (Scalar.lit (10 ^ 20) 1, none) with
    | none =>
      obtain ⟨i, hi, k⟩ := pickAngle_none e
      exact .angleThrow nc hl (List.mem_range.1 hi) k
    | some x =>
      obtain ⟨t, o⟩ := x
      dsimp only
      cases o with
      | none =>
        rcases (pickAngle_some e).1 with k | ⟨_, _, _, k, _⟩
        · rw [k] at e
          exact .noAngle nc hl e
        · exact absurd k (by simp)
      | some i =>
        have hi : i < hs.length := by
          rcases (pickAngle_some e).1 with k | ⟨j, hj, _, k, _⟩
          · exact absurd (congrArg Prod.snd k) (by simp)
          · have : i = j := Option.some.inj k
            rw [this]; exact List.mem_range.1 hj
        obtain ⟨pp, prev, next, qq, p, a, b, q, C⟩ := w.corner af hl n4 hi
        have join : ∀ (x : M F (List Nat × HeMaps)), (x >>= fun r => frontLink r.2 r.1 >>= fun _ => pure false) m =
            (match (x >>= fun r => frontLink r.2 r.1) m with | .ok _ m' => .ok false m' | .err e => .err e) := by
          intro x
          rw [bind_apply, bind_apply]
          cases x m with
          | err e => rfl
          | ok r m1 =>
            dsimp only
            rw [bind_apply]
            cases frontLink r.2 r.1 m1 <;> rfl
        change FrontStep avg m f ((frontPut f (hs.map m.hSrc) (startMaps hs) t (some i) >>= fun r => frontLink r.2 r.1 >>= fun _ => pure false) m)
        rw [join]
        have pe : frontPut f (hs.map m.hSrc) (startMaps hs) t (some i) =
            if Scalar.le t frontSmall then frontEar f (hs.map m.hSrc) (startMaps hs) i
            else if Scalar.le t frontLarge then frontMiddle f (hs.map m.hSrc) (startMaps hs) i else frontWide f (hs.map m.hSrc) (startMaps hs) i := rfl
        rw [pe]
        cases s : Scalar.le t frontSmall with
        | true =>
          rw [if_pos rfl, frontEar_eq w af C]
          exact .ear C nc hl e s
        | false =>
          rw [if_neg (by simp)]
          cases l : Scalar.le t frontLarge with
          | true =>
            rw [if_pos rfl, frontMiddle_eq w af C]
            cases ex : frontMid (m.vPos (m.hSrc a)) (m.vPos (m.hSrc b)) (m.vPos (m.hSrc q)) with
            | none => exact .bisectorThrow C nc hl e s (.inl ⟨l, ex⟩)
            | some x => exact .mid C nc hl e s l ex
          | false =>
            rw [if_neg (by simp), frontWide_eq w af C]
            cases ex : frontThirds (m.vPos (m.hSrc a)) (m.vPos (m.hSrc b)) (m.vPos (m.hSrc q)) with
            | none => exact .bisectorThrow C nc hl e s (.inr ⟨l, ex⟩)
            | some x => exact .wide C nc hl e s l ex
  · rw [bind_apply, k]
    have ul : m.vLock (m.hSrc b) = false := by
      unfold Mesh.closeAt at c
      cases h : m.vLock (m.hSrc b)
      · rfl
      · rw [h] at c; simp at c
    have B := beh C ul
    by_cases s : (m.vPos (m.hSrc b)).eq (m.vPos (m.hSrc b)) = true
    · obtain ⟨m', h1, R⟩ := (frontMerge_ok w B).1 s
      rw [bind_apply, h1]; dsimp only
      have w' := R.wf w B
      have v : (do let _ ← verify; pure false : M F Bool) m' = .ok false m' := by
        rw [bind_apply, w'.verify_ok]; rfl
      have : FrontStep avg m f (.ok false m') := .merge C c s R
      rw [← v] at this
      exact this
    · rw [bind_apply, (frontMerge_ok w B).2 s]
      exact .mergeAbort C c s

end TinyMesh
