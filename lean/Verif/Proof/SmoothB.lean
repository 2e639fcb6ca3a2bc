import Verif.Proof.SmoothA
import Verif.Spec.Smooth
/-
The outcome of one smoothing iteration on a consistent mesh.
-/
namespace TinyMesh
variable {F : Type}
open Orbit

/-- consistency does not depend on the positions -/
theorem Mesh.WF.setPos {m : Mesh F} (w : m.WF) (p : Nat → Vec3 F) : ({ m with vPos := p } : Mesh F).WF :=
  ⟨w.hDense, w.vDense, w.fDense, w.hBound, w.vBound, w.fBound, w.next_alive, w.rev_alive, w.src_alive, w.face_alive,
    w.rev_rev, w.rev_ne, w.src_rev, w.next_inj, w.face_next, w.fHe_ok, w.vHe_ok, w.face_conn, w.ring_conn⟩

theorem Mesh.Good.setPos {m : Mesh F} (g : m.Good) (p : Nat → Vec3 F) : ({ m with vPos := p } : Mesh F).Good :=
  ⟨g.wf.setPos p, ⟨g.tri.holds⟩, ⟨g.simple.no_loop, g.simple.no_dup⟩⟩

/-- the answer of `isPinned` -/
noncomputable def pinB (m : Mesh F) (v : Nat) : Bool := (orbit m.sig (m.vHe v)).any m.hBd || m.vLock v

theorem pinB_iff {m : Mesh F} (w : m.WF) {v : Nat} (a : m.vAlive v = true) : pinB m v = true ↔ m.Pinned v := by
  unfold pinB Mesh.Pinned Mesh.AtBoundary
  rw [Bool.or_eq_true, List.any_eq_true]
  constructor
  · rintro (⟨h, hm, hb⟩ | h)
    · obtain ⟨ha, hs⟩ := (w.mem_ring a).1 hm
      exact Or.inl ⟨h, ha, hs, hb⟩
    · exact Or.inr h
  · rintro (⟨h, ha, hs, hb⟩ | h)
    · exact Or.inl ⟨h, (w.mem_ring a).2 ⟨ha, hs⟩, hb⟩
    · exact Or.inr h

variable [Scalar F]

theorem isPinned_ok {m : Mesh F} (w : m.WF) {v : Nat} (a : m.vAlive v = true) : isPinned v m = .ok (pinB m v) m := by
  unfold isPinned pinB
  rw [bind_apply, w.vIsBoundary_ok a]
  dsimp only
  rcases Bool.eq_false_or_eq_true ((orbit m.sig (m.vHe v)).any m.hBd) with h | h
  · rw [h, if_pos rfl]; rfl
  · rw [h, if_neg (by simp), getLock_ok a]; rfl

theorem vertexAt_ok {m : Mesh F} {i v : Nat} (h : m.vs[i]? = some v) : vertexAt (i : Int) m = .ok v m := by
  unfold vertexAt arrayAt
  rw [if_neg (by omega)]
  simp [h]

theorem Dense.alive_at {al : Nat → Bool} {ix : Nat → Int} {l : List Nat} (d : Dense al ix l) {i v : Nat} (h : l[i]? = some v) :
    al v = true := (d.mem v).1 (List.mem_of_getElem? h)

/-! ### One loop body -/

/-- the outcome of the first loop body for vertex number `i` -/
def centOut (s : Loc → F) (i : Nat) : Option (Vec3 F) → Except Err (Unit × (Loc → F))
  | some c => .ok ((), setA s 0 i c)
  | none => .error .throw

/-- the weight of a half-edge -/
def lapWt (m : Mesh F) (cotan : Bool) (p : Nat → Vec3 F) (h : Nat) : F :=
  if cotan then cotW (p (m.hSrc h)) (p (m.hSrc (m.hNext h))) (p (m.hSrc (m.hNext (m.hNext h))))
    (p (m.hSrc (m.hNext (m.hNext (m.hRev h))))) else Scalar.lit 1 1

/-- weighted sum of the positions at the far ends, and sum of the weights -/
def lapAcc (m : Mesh F) (cotan : Bool) (p : Nat → Vec3 F) : List Nat → Vec3 F → F → Vec3 F × F
  | [], c, s => (c, s)
  | h :: hs, c, s => lapAcc m cotan p hs (c.add (Vec3.smul (lapWt m cotan p h) (p (m.hSrc (m.hNext h))))) (s + lapWt m cotan p h)

/-- the weighted centroid of the neighbours -/
noncomputable def lapC (m : Mesh F) (cotan : Bool) (p : Nat → Vec3 F) (v : Nat) : Option (Vec3 F) :=
  (lapAcc m cotan p (orbit m.sig (m.vHe v)) Vec3.zero (Scalar.lit 0 1)).1.div?
    (lapAcc m cotan p (orbit m.sig (m.vHe v)) Vec3.zero (Scalar.lit 0 1)).2

/-- the plain centroid of the neighbours -/
noncomputable def tauC (m : Mesh F) (p : Nat → Vec3 F) (v : Nat) : Option (Vec3 F) :=
  Vec3.div? (((orbit m.sig (m.vHe v)).map fun h => p (m.hSrc (m.hNext h))).foldl Vec3.add Vec3.zero)
    (Scalar.lit ((orbit m.sig (m.vHe v)).length : Nat) 1)

/-- where a vertex goes -/
def mv (eps : F) (pt c : Vec3 F) : Vec3 F :=
  Vec3.add (Vec3.smul (Scalar.lit 1 1 - eps) pt) (Vec3.smul eps (pt.add (c.sub pt)))

section
variable {m : Mesh F}

theorem cotVerts_ok (w : m.WF) {h : Nat} (a : m.hAlive h = true) : cotVerts h m =
    .ok (m.hSrc h, m.hSrc (m.hNext h), m.hSrc (m.hNext (m.hNext h)), m.hSrc (m.hNext (m.hNext (m.hRev h)))) m := by
  have a1 := w.next_alive h a
  have a2 := w.next_alive _ a1
  have b := w.rev_alive h a
  have b1 := w.next_alive _ b
  have b2 := w.next_alive _ b1
  unfold cotVerts
  simp only [bind_apply, getSrc_ok a, getDst_ok a a1, getNext_ok a, getDst_ok a1 a2, getRev_ok a, getNext_ok b,
    getDst_ok b1 b2, pure_apply]

theorem exec_cotP (w : m.WF) {h : Nat} (a : m.hAlive h = true) (s : Loc → F) :
    (cotP m h).exec s = .ok (lapWt m true (posOf s) h, s) := by
  have a1 := w.next_alive h a
  have a2 := w.next_alive _ a1
  have b := w.rev_alive h a
  have b1 := w.next_alive _ b
  have b2 := w.next_alive _ b1
  unfold cotP
  rw [Prog.exec_bind, Prog.exec_topo_ok (cotVerts_ok w a)]
  dsimp only
  rw [Prog.exec_bind, Prog.exec_loadPos (w.src_alive _ a)]; dsimp only
  rw [Prog.exec_bind, Prog.exec_loadPos (w.src_alive _ a1)]; dsimp only
  rw [Prog.exec_bind, Prog.exec_loadPos (w.src_alive _ a2)]; dsimp only
  rw [Prog.exec_bind, Prog.exec_loadPos (w.src_alive _ b2)]; rfl

theorem exec_lapSum (w : m.WF) (cotan : Bool) (s : Loc → F) : ∀ (hs : List Nat) (c : Vec3 F) (t : F),
    (∀ h ∈ hs, m.hAlive h = true) → (lapSum m cotan hs c t).exec s = .ok (lapAcc m cotan (posOf s) hs c t, s)
  | [], _, _, _ => rfl
  | h :: hs, c, t, ha => by
    have a := ha h (by simp)
    have a1 := w.next_alive h a
    have k : ∀ wt : F, ((Prog.topo m (getDst h) >>= fun d => Prog.loadPos m d >>= fun p =>
        lapSum m cotan hs (c.add (Vec3.smul wt p)) (t + wt)) : Prog Loc F _).exec s =
        .ok (lapAcc m cotan (posOf s) hs (c.add (Vec3.smul wt (posOf s (m.hSrc (m.hNext h))))) (t + wt), s) := by
      intro wt
      rw [Prog.exec_bind, Prog.exec_topo_ok (getDst_ok a a1)]; dsimp only
      rw [Prog.exec_bind, Prog.exec_loadPos (w.src_alive _ a1)]; dsimp only
      exact exec_lapSum w cotan s hs _ _ fun x hx => ha x (by simp [hx])
    unfold lapSum lapAcc
    dsimp only
    cases cotan
    · rw [if_neg (by simp)]
      exact (k _).trans (by simp [lapWt])
    · rw [if_pos rfl, Prog.exec_bind, exec_cotP w a]
      exact k _

theorem exec_orThrow {α : Type} (o : Option α) (s : Loc → F) : (Prog.orThrow o : Prog Loc F α).exec s =
    match o with
    | some a => .ok (a, s)
    | none => .error .throw := by
  cases o <;> rfl

theorem exec_lapCent (w : m.WF) (cotan : Bool) {i v : Nat} (hi : m.vs[i]? = some v) (s : Loc → F) :
    (lapCent m cotan i).exec s = centOut s i (lapC m cotan (posOf s) v) := by
  have a := w.vDense.alive_at hi
  unfold lapCent
  rw [Prog.exec_bind, Prog.exec_topo_ok (vertexAt_ok hi)]; dsimp only
  rw [Prog.exec_bind, Prog.exec_topo_ok (w.ringList_ok a)]; dsimp only
  rw [Prog.exec_bind, exec_lapSum w cotan s _ _ _ fun h hh => ((w.mem_ring a).1 hh).1]; dsimp only
  rw [Prog.exec_bind, exec_orThrow]
  unfold lapC
  cases (lapAcc m cotan (posOf s) (orbit m.sig (m.vHe v)) Vec3.zero (Scalar.lit 0 1)).1.div?
    (lapAcc m cotan (posOf s) (orbit m.sig (m.vHe v)) Vec3.zero (Scalar.lit 0 1)).2 with
  | none => rfl
  | some c => exact Prog.exec_storeArr 0 i c s

theorem exec_loadAll (s : Loc → F) : ∀ vs : List Nat, (∀ v ∈ vs, m.vAlive v = true) →
    (loadAll m vs).exec s = .ok (vs.map (posOf s), s)
  | [], _ => rfl
  | v :: vs, h => by
    unfold loadAll
    rw [Prog.exec_bind, Prog.exec_loadPos (h v (by simp))]; dsimp only
    rw [Prog.exec_bind, exec_loadAll s vs fun u hu => h u (by simp [hu])]
    rfl

theorem exec_tauCent (w : m.WF) {i v : Nat} (hi : m.vs[i]? = some v) (s : Loc → F) :
    (tauCent m i).exec s = centOut s i (tauC m (posOf s) v) := by
  have a := w.vDense.alive_at hi
  unfold tauCent
  rw [Prog.exec_bind, Prog.exec_topo_ok (vertexAt_ok hi)]; dsimp only
  rw [Prog.exec_bind, Prog.exec_topo_ok (w.ringVerts_ok a)]; dsimp only
  rw [Prog.exec_bind, exec_loadAll]
  · dsimp only
    rw [Prog.exec_bind, exec_orThrow]
    have e : Vec3.div? ((((orbit m.sig (m.vHe v)).map fun h => m.hSrc (m.hNext h)).map (posOf s)).foldl Vec3.add Vec3.zero)
        (Scalar.lit (((orbit m.sig (m.vHe v)).map fun h => m.hSrc (m.hNext h)).map (posOf s)).length 1) =
        tauC m (posOf s) v := by
      rw [List.map_map, List.length_map]; rfl
    rw [e]
    cases tauC m (posOf s) v with
    | none => rfl
    | some c => exact Prog.exec_storeArr 0 i c s
  · intro u hu
    obtain ⟨h, hh, rfl⟩ := List.mem_map.1 hu
    exact w.src_alive _ (w.next_alive _ ((w.mem_ring a).1 hh).1)

theorem exec_lapMove (w : m.WF) (eps : F) {i v : Nat} (hi : m.vs[i]? = some v) (s : Loc → F) :
    (lapMove m m.vs.length eps i).exec s = .ok ((), if pinB m v then s else setP s v (mv eps (posOf s v) (arrOf s 0 i))) := by
  have a := w.vDense.alive_at hi
  have hl : i < m.vs.length := (List.getElem?_eq_some_iff.1 hi).1
  unfold lapMove
  rw [Prog.exec_bind, Prog.exec_topo_ok (vertexAt_ok hi)]; dsimp only
  rw [Prog.exec_bind, Prog.exec_topo_ok (isPinned_ok w a)]; dsimp only
  split
  · rfl
  · rw [Prog.exec_bind, Prog.exec_loadPos a]; dsimp only
    rw [Prog.exec_bind, Prog.exec_loadArr hl]; dsimp only
    rw [Prog.exec_storePos a]; rfl

theorem exec_tauMove (w : m.WF) (eps : F) {i v : Nat} (hi : m.vs[i]? = some v) (s : Loc → F) :
    (tauMove m m.vs.length eps i).exec s = .ok ((), if pinB m v then s else setP s v (mv eps (posOf s v) (arrOf s 0 i))) := by
  have a := w.vDense.alive_at hi
  have hl : i < m.vs.length := (List.getElem?_eq_some_iff.1 hi).1
  unfold tauMove
  rw [Prog.exec_bind, Prog.exec_topo_ok (vertexAt_ok hi)]; dsimp only
  rw [Prog.exec_bind, Prog.exec_topo_ok (isPinned_ok w a)]; dsimp only
  split
  · rfl
  · rw [Prog.exec_bind, Prog.exec_loadPos a]; dsimp only
    rw [Prog.exec_bind, Prog.exec_loadArr hl]; dsimp only
    rw [Prog.exec_bind, Prog.exec_loadPos a]; dsimp only
    rw [Prog.exec_storePos a]; rfl

/-! ### Both loops -/

/-- positions after the second loop, when the first one computed the centroids `c` -/
noncomputable def moved (m : Mesh F) (eps : F) (c : Nat → Vec3 F) : Nat → Vec3 F :=
  fun v => if m.vAlive v = true ∧ pinB m v = false then mv eps (m.vPos v) (c v) else m.vPos v

theorem sweep_run (w : m.WF) {b1 b2 : Mesh F → Nat → Nat → Prog Loc F Unit} {C : (Nat → Vec3 F) → Nat → Option (Vec3 F)} {eps : F}
    (w1 : ∀ i, (b1 m m.vs.length i).Within IsPos (ArrAt 0 i))
    (w2 : ∀ i, (b2 m m.vs.length i).Within (fun l => PosAt m i l ∨ ArrAt 0 i l) (MovAt m i))
    (e1 : ∀ i v, m.vs[i]? = some v → ∀ s, (b1 m m.vs.length i).exec s = centOut s i (C (posOf s) v))
    (e2 : ∀ i v, m.vs[i]? = some v → ∀ s, (b2 m m.vs.length i).exec s =
      .ok ((), if pinB m v then s else setP s v (mv eps (posOf s v) (arrOf s 0 i)))) :
    (∃ c : Nat → Vec3 F, (∀ v, m.vAlive v = true → C m.vPos v = some (c v)) ∧
      sweep b1 b2 m = .ok () { m with vPos := moved m eps c }) ∨
    ((∃ v, m.vAlive v = true ∧ C m.vPos v = none) ∧ sweep b1 b2 m = .err .throw) := by
  have r1 := cent_raceFree (n := m.vs.length) w1
  have r2 := move_raceFree w.vDense.nodup (n := m.vs.length) w2
  have hp0 : posOf m.mem = m.vPos := rfl
  have at' : ∀ i < m.vs.length, ∃ v, m.vs[i]? = some v := fun i hi => ⟨_, List.getElem?_eq_getElem hi⟩
  unfold sweep
  dsimp only
  cases h1 : serial (b1 m m.vs.length) (List.range m.vs.length) m.mem with
  | error e =>
    obtain ⟨i, hi, he⟩ := r1.serial_error h1
    obtain ⟨v, hv⟩ := at' i hi
    rw [e1 i v hv, hp0] at he
    refine Or.inr ⟨⟨v, w.vDense.alive_at hv, ?_⟩, ?_⟩
    · cases hc : C m.vPos v with
      | none => rfl
      | some c => rw [hc] at he; simp [centOut] at he
    · cases hc : C m.vPos v with
      | none => rw [hc] at he; simp [centOut] at he; simp [← he]
      | some c => rw [hc] at he; simp [centOut] at he
  | ok s1 =>
    obtain ⟨k1, k2⟩ := r1.serial_ok h1
    have hp1 : posOf s1 = m.vPos := by
      rw [← hp0]
      funext v
      have : ∀ c, s1 (.pos v c) = m.mem (.pos v c) := fun c => k2 _ fun i _ h => h
      simp [posOf, this]
    have hc : ∀ i v, m.vs[i]? = some v → C m.vPos v = some (arrOf s1 0 i) := by
      intro i v hv
      obtain ⟨s', he, hl⟩ := k1 i (List.getElem?_eq_some_iff.1 hv).1
      rw [e1 i v hv, hp0] at he
      cases hc : C m.vPos v with
      | none => rw [hc] at he; simp [centOut] at he
      | some c =>
        rw [hc] at he
        simp only [centOut, Except.ok.injEq, Prod.mk.injEq, true_and] at he
        have : arrOf s1 0 i = arrOf (setA m.mem 0 i c) 0 i := by
          simp only [arrOf]
          rw [hl (.arr 0 i 0) ⟨rfl, rfl⟩, hl (.arr 0 i 1) ⟨rfl, rfl⟩, hl (.arr 0 i 2) ⟨rfl, rfl⟩, he]
        rw [this, arrOf_setA]
    have hidx : ∀ v, m.vAlive v = true → ∃ i, m.vs[i]? = some v := fun v a =>
      List.mem_iff_getElem?.1 ((w.vDense.mem v).2 a)
    choose! ix hix using hidx
    refine Or.inl ⟨fun v => arrOf s1 0 (ix v), fun v a => hc _ _ (hix v a), ?_⟩
    dsimp only
    cases h2 : serial (b2 m m.vs.length) (List.range m.vs.length) s1 with
    | error e =>
      obtain ⟨i, hi, he⟩ := r2.serial_error h2
      obtain ⟨v, hv⟩ := at' i hi
      rw [e2 i v hv] at he
      simp at he
    | ok s2 =>
      obtain ⟨l1, l2⟩ := r2.serial_ok h2
      dsimp only
      congr 1
      unfold Mesh.store
      congr 1
      funext v
      unfold moved
      split
      · next h =>
        obtain ⟨a, hb⟩ := h
        have hv := hix v a
        obtain ⟨s', he, hl⟩ := l1 (ix v) (List.getElem?_eq_some_iff.1 hv).1
        rw [e2 _ v hv, hb] at he
        simp only [Bool.false_eq_true, if_false, Except.ok.injEq, Prod.mk.injEq, true_and] at he
        have hm : ∀ c, MovAt m (ix v) (.pos v c) := fun c => ⟨hv, m, by rw [isPinned_ok w a, hb]⟩
        have : posOf s2 v = posOf s' v := by simp only [posOf]; rw [hl _ (hm 0), hl _ (hm 1), hl _ (hm 2)]
        rw [this, ← he, posOf_setP, hp1]
      · next h =>
        have hm : ∀ c, ∀ i < m.vs.length, ¬ MovAt m i (.pos v c) := by
          rintro c i hi ⟨hv, m', hb⟩
          have a := w.vDense.alive_at hv
          rw [isPinned_ok w a] at hb
          simp only [Out.ok.injEq] at hb
          exact h ⟨a, hb.1⟩
        have : posOf s2 v = posOf s1 v := by simp only [posOf]; rw [l2 _ (hm 0), l2 _ (hm 1), l2 _ (hm 2)]
        rw [this, hp1]

theorem lapSweep_run (w : m.WF) (eps : F) (cotan : Bool) :
    (∃ c : Nat → Vec3 F, (∀ v, m.vAlive v = true → lapC m cotan m.vPos v = some (c v)) ∧
      lapSweep eps cotan m = .ok () { m with vPos := moved m eps c }) ∨
    ((∃ v, m.vAlive v = true ∧ lapC m cotan m.vPos v = none) ∧ lapSweep eps cotan m = .err .throw) :=
  sweep_run w (b1 := fun m _ i => lapCent m cotan i) (b2 := fun m nv i => lapMove m nv eps i)
    (fun i => lapCent_within m cotan i) (fun i => lapMove_within m _ eps i) (fun _ _ h s => exec_lapCent w cotan h s)
    (fun _ _ h s => exec_lapMove w eps h s)

theorem tauSweep_run (w : m.WF) (eps : F) :
    (∃ c : Nat → Vec3 F, (∀ v, m.vAlive v = true → tauC m m.vPos v = some (c v)) ∧
      tauSweep eps m = .ok () { m with vPos := moved m eps c }) ∨
    ((∃ v, m.vAlive v = true ∧ tauC m m.vPos v = none) ∧ tauSweep eps m = .err .throw) :=
  sweep_run w (b1 := fun m _ i => tauCent m i) (b2 := fun m nv i => tauMove m nv eps i)
    (fun i => tauCent_within m i) (fun i => tauMove_within m _ eps i) (fun _ _ h s => exec_tauCent w h s)
    (fun _ _ h s => exec_tauMove w eps h s)

/-! ### Mean edge length -/

theorem meanEdgeLoop_ok (w : m.WF) : ∀ (hs seen : List Nat) (s : F), (∀ h ∈ hs, m.hAlive h = true) →
    ∃ r, meanEdgeLoop hs seen s m = .ok r m
  | [], seen, s, _ => ⟨_, rfl⟩
  | h :: hs, seen, s, ha => by
    have a := ha h (by simp)
    have a1 := w.next_alive h a
    have ih := fun seen s => meanEdgeLoop_ok w hs seen s fun x hx => ha x (by simp [hx])
    unfold meanEdgeLoop
    split
    · exact ih _ _
    · simp only [bind_apply, getRev_ok a]
      split
      · exact ih _ _
      · simp only [bind_apply, getSrc_ok a, getPos_ok (w.src_alive _ a), getDst_ok a a1, getPos_ok (w.src_alive _ a1)]
        exact ih _ _

theorem meanEdgeLength_ok (w : m.WF) : ∃ r, meanEdgeLength m = .ok r m := by
  obtain ⟨r, hr⟩ := meanEdgeLoop_ok w m.hes [] (Scalar.lit 0 1) fun h hh => (w.hDense.mem h).1 hh
  refine ⟨r.1 / Scalar.lit r.2 1, ?_⟩
  unfold meanEdgeLength
  rw [bind_apply, read_apply]
  dsimp only
  rw [bind_apply, hr]
  rfl

end
end TinyMesh
