import Verif.Spec.Handles
import Verif.Proof.Works
import Verif.Proof.Examples
import Verif.Props.Fill
/-
Pointers to vertices and faces.
-/
namespace TinyMesh
open Orbit
variable {F : Type} [ScalarX F] {m m' : Mesh F}

/-- the only other outcome is an exception -/
def OkOrThrow {α : Type} (m : Mesh F) (o : Out F α) : Prop := (∃ a, o = .ok a m) ∨ o = .err .throw

omit [ScalarX F] in
theorem foldList_any {β : Type} {body : Nat → β → M F (Bool × β)} : ∀ (l : List Nat) (b : β),
    (∀ x ∈ l, ∀ b, OkOrThrow m (body x b m)) → OkOrThrow m (foldList body l b m)
  | [], b, _ => .inl ⟨b, rfl⟩
  | x :: l, b, h => by
    unfold foldList
    rw [bind_apply]
    rcases h x (by simp) b with ⟨⟨st, b'⟩, e⟩ | e
    · rw [e]
      dsimp only
      split
      · exact .inl ⟨_, rfl⟩
      · exact foldList_any l b' fun y hy => h y (by simp [hy])
    · rw [e]
      exact .inr rfl

omit [ScalarX F] in
theorem orThrowM_any {α : Type} (o : Option α) : OkOrThrow m (orThrowM o m) := by
  cases o with
  | none => exact .inr rfl
  | some a => exact .inl ⟨a, rfl⟩

theorem vertNormal_any (w : m.WF) {v : Nat} (a : m.vAlive v = true) : OkOrThrow m (vertNormal v m) := by
  have hb : ∀ x, m.hAlive x = true → ∀ s : Vec3 F,
    let body : M F (Bool × Vec3 F) := do
      let p0 ← getPos v
      let d ← getDst x
      let p1 ← getPos d
      let n ← getNext x
      let e ← getDst n
      let p2 ← getPos e
      let t ← orThrowM (maxTerm p0 p1 p2)
      pure (false, s.add t)
    OkOrThrow m (body m) := by
    intro x hx s
    have a1 := w.next_alive _ hx
    have a2 := w.next_alive _ a1
    simp only [bind_apply, getPos_ok a, getDst_ok hx a1, getPos_ok (w.src_alive _ a1), getNext_ok hx, getDst_ok a1 a2,
      getPos_ok (w.src_alive _ a2)]
    rcases orThrowM_any (m := m) (maxTerm (m.vPos v) (m.vPos (m.hSrc (m.hNext x))) (m.vPos (m.hSrc (m.hNext (m.hNext x))))) with ⟨t, e⟩ | e
    · rw [e]; exact .inl ⟨_, rfl⟩
    · rw [e]; exact .inr rfl
  unfold vertNormal
  rw [bind_apply, getVHe_ok a]; dsimp only
  rw [bind_apply, circ_eq w.permSig (fun m' => m' = m) (w.vHe_ok v a).1 (fun _ h => w.ne0 h) m (Nat.le_refl _) rfl
    (fun m' e x hx => by subst e; exact w.ringStep_ok hx)
    (fun m' e x hx b r m'' hr => by
      subst e
      rcases hb x hx b with ⟨y, hy⟩ | hy
      · rw [hy] at hr; cases hr; rfl
      · rw [hy] at hr; cases hr)]
  rcases foldList_any (m := m) (orbit m.sig (m.vHe v)) Vec3.zero (fun x hx b => hb x (w.permSig.orbit_S (w.vHe_ok v a).1 hx) b) with ⟨s, e⟩ | e
  · rw [e]; exact orThrowM_any _
  · rw [e]; exact .inr rfl

omit [ScalarX F] in
theorem ringPos_any (w : m.WF) {v : Nat} (a : m.vAlive v = true) : ∃ l, ringPos v m = .ok l m := by
  unfold ringPos
  rw [bind_apply, w.ringVerts_ok a]; dsimp only
  rw [getPosList_ok]
  · exact ⟨_, rfl⟩
  · intro x hx
    obtain ⟨y, hy, rfl⟩ := List.mem_map.1 hx
    exact w.src_alive _ (w.next_alive _ (w.permSig.orbit_S (w.vHe_ok v a).1 hy))

theorem vuse_any (g : m.Good) {v : Nat} (a : m.vAlive v = true) (u : VUse F) :
    (∃ m', u.run v m = .ok () m' ∧ CallDone m m' ∧ m'.vs = m.vs ∧ m'.fs = m.fs) ∨ u.run v m = .err .throw := by
  have w := g.wf
  obtain ⟨ps, hps⟩ := ringPos_any w a
  have rd : ∀ {α : Type} {x : M F α}, OkOrThrow m (x m) →
      (∃ m', (do let _ ← x; pure () : M F Unit) m = .ok () m' ∧ CallDone m m' ∧ m'.vs = m.vs ∧ m'.fs = m.fs) ∨
        (do let _ ← x; pure () : M F Unit) m = .err .throw := by
    rintro α x (⟨y, e⟩ | e)
    · exact .inl ⟨m, by rw [bind_apply, e]; rfl, .refl g, rfl, rfl⟩
    · exact .inr (by rw [bind_apply, e])
  cases u with
  | pos => exact rd (.inl ⟨_, getPos_ok a⟩)
  | place x =>
    exact .inl ⟨{ m with vPos := upd m.vPos v x }, by simp [VUse.run, setPos, a], Mesh.SameButPos.callDone g rfl, rfl, rfl⟩
  | normal => exact rd (vertNormal_any w a)
  | gauss =>
    refine rd (.inl ?_)
    unfold gaussK
    rw [bind_apply, hps]; dsimp only
    rw [bind_apply, getPos_ok a]
    exact ⟨_, rfl⟩
  | mean =>
    refine rd ?_
    unfold meanH
    rw [bind_apply, hps]; dsimp only
    rw [bind_apply, getPos_ok a]; dsimp only
    rw [bind_apply]
    rcases vertNormal_any w a with ⟨n, e⟩ | e
    · rw [e]; exact .inl ⟨_, rfl⟩
    · rw [e]; exact .inr rfl
  | boundary => exact rd (.inl ⟨_, w.vIsBoundary_ok a⟩)
  | locked => exact rd (.inl ⟨m.vLock v, by simp [getLock, a]⟩)
  | lock b =>
    exact .inl ⟨{ m with vLock := upd m.vLock v b }, by simp [VUse.run, setLock, a], ⟨g.setLocks _, rfl, ⟨fun _ h _ => h, fun _ h _ => h, fun _ h _ => h, Nat.le_refl _,
      Nat.le_refl _, Nat.le_refl _⟩, .of_eq rfl rfl rfl rfl⟩, rfl, rfl⟩

theorem fuse_any (w : m.WF) {f : Nat} (a : m.fAlive f = true) (u : FUse) : u.run (F := F) f m = .ok () m := by
  cases u with
  | area =>
    simp only [FUse.run, faceArea]
    rw [bind_apply, bind_apply, w.faceVerts_ok a]; dsimp only
    rw [bind_apply, posList_ok]
    · rfl
    · intro v hv
      obtain ⟨x, hx, rfl⟩ := List.mem_map.1 hv
      exact w.src_alive _ (((w.faceLoop a).mem x).1 hx).1
  | boundary => simp only [FUse.run]; rw [bind_apply, w.fIsBoundary_ok a]; rfl
  | hole => simp only [FUse.run]; rw [bind_apply, w.fIsHole_ok a]; rfl
  | locked => simp only [FUse.run]; rw [bind_apply, w.fIsLocked_ok a]; rfl

/-- what a function that removes nothing does to the arrays -/
theorem work_keeps (g : m.Good) {c : Work F} (f : c.Fits m) (r : c.removes = false) (e : c.run m = .ok () m') :
    m.vs <+: m'.vs ∧ m.fs <+: m'.fs := by
  have same : m.SameButPos m' → m.vs <+: m'.vs ∧ m.fs <+: m'.fs := by
    intro s
    rw [s]
    exact ⟨List.prefix_rfl, List.prefix_rfl⟩
  have pinned : ∀ {o : Out F Unit}, KeepsPinned m o → o = .ok () m' → m.vs <+: m'.vs ∧ m.fs <+: m'.fs := by
    rintro o (h | ⟨m2, h, s, -⟩) e
    · rw [e] at h; cases h
    · rw [e] at h; cases h; exact same s
  cases c with
  | call c =>
    cases c with
    | collapse i => cases r
    | remesh => cases r
    | simplify => cases r
    | split i =>
      simp only [Work.run, Call.run] at e
      rw [bind_apply] at e
      rcases halfedgeAt_cases m i with ⟨e', n⟩ | ⟨h, e', mem, -⟩
      · rw [e'] at e; cases e
      rw [e'] at e; dsimp only at e
      rw [bind_apply] at e
      rcases splitHE_cases g ((g.wf.hDense.mem h).1 mem) with e2 | ⟨m2, he, S⟩
      · rw [e2] at e; cases e; exact ⟨List.prefix_rfl, List.prefix_rfl⟩
      · rw [S.run] at e; cases e
        rw [S.R.vs, S.R.fs]
        exact ⟨List.prefix_append _ _, List.prefix_append _ _⟩
    | flip i =>
      simp only [Work.run, Call.run] at e
      rw [bind_apply] at e
      rcases halfedgeAt_cases m i with ⟨e', n⟩ | ⟨h, e', mem, i0, ih⟩
      · rw [e'] at e; cases e
      rw [e'] at e; dsimp only at e
      rw [bind_apply] at e
      obtain ⟨t, t'⟩ := f h i0 ih
      rcases c13_flip g h ((g.wf.hDense.mem h).1 mem) t t' with e2 | ⟨m2, p, q, r, s, e2, -, -, -, -, d⟩
      · rw [e2] at e; cases e; exact ⟨List.prefix_rfl, List.prefix_rfl⟩
      · rw [e2] at e; cases e
        rw [d.vs, d.fs]
        exact ⟨List.prefix_rfl, List.prefix_rfl⟩
    | lock i b =>
      simp only [Work.run, Call.run] at e
      rw [bind_apply] at e
      rcases vertexAt_cases m i with ⟨e', n⟩ | ⟨v, e', mem⟩
      · rw [e'] at e; cases e
      rw [e'] at e; dsimp only at e
      rw [setLock, if_pos ((g.wf.vDense.mem v).1 mem)] at e
      cases e
      exact ⟨List.prefix_rfl, List.prefix_rfl⟩
    | place i x =>
      simp only [Work.run, Call.run] at e
      rw [bind_apply] at e
      rcases vertexAt_cases m i with ⟨e', n⟩ | ⟨v, e', mem⟩
      · rw [e'] at e; cases e
      rw [e'] at e; dsimp only at e
      rw [setPos, if_pos ((g.wf.vDense.mem v).1 mem)] at e
      cases e
      exact ⟨List.prefix_rfl, List.prefix_rfl⟩
    | laplacian eps cotan n => exact pinned (c27_laplacian eps cotan n g.wf) e
    | taubin s i n => exact pinned (c27_taubin s i f g.wf) e
  | fairing solve eps n =>
    obtain ⟨m2, e2, s⟩ := implicitFairing_any solve eps n g.wf
    simp only [Work.run] at e
    rw [e2] at e; cases e; exact same s
  | gaussian sg n =>
    simp only [Work.run] at e
    rcases gaussian_any g.wf sg n with ⟨m2, e2, s⟩ | e2 | ⟨e2, -⟩ <;> rw [e2] at e <;> cases e
    exact same s
  | bilateral sg sn n =>
    simp only [Work.run] at e
    rcases bilateral_any g.wf sg sn n with ⟨m2, e2, s⟩ | e2 | ⟨e2, -⟩ <;> rw [e2] at e <;> cases e
    exact same s
  | l0 solve order fuel al be =>
    simp only [Work.run] at e
    rcases denoiseL0_any g.wf solve f fuel al be with ⟨m2, e2, s⟩ | e2 | e2 <;> rw [e2] at e <;> cases e
    exact same s

/-- filling one hole through a pointer -/
theorem face_good {Small : F → Prop} {E : Prop} (cap : AngleCap m Small E) (g : m.Good) {f : Nat} (fi : m.Fillable f) (bound : F) :
    (∃ m' new, holeFillMinDihedral f bound m = .ok () m' ∧ FaceFilled m m' f new ∧ m'.Good ∧ m.fFresh ≤ m'.fFresh) ∨
      ¬ E ∧ holeFillMinDihedral f bound m = .err .ub := by
  have w := g.wf
  obtain ⟨fh, ch, alone⟩ := fi
  have af := ((mem_holeFaces w).1 fh).1
  rcases holeFill_ok (bound := bound) w cap af (by rw [w.loop_length af]; exact g.three_sides af) with ⟨n, h⟩ | ⟨m', tris, He, h, p, P⟩
  · exact .inr ⟨n, h⟩
  refine .inl ⟨m', _, h, P.filled w af p, ?_, by rw [P.fFr]; omega⟩
  have D := P.filled w af p
  refine ⟨D.consistent, ⟨fun x a => ?_⟩, (P.simple w p (w.faceLoop af) (rem := []) (by simp) (by simp) g.simple ch).1⟩
  have keepTri : ∀ y, m.hAlive y = true → m.hFace y ≠ f → m.OnTri y → m'.OnTri y := by
    intro y ay hy t
    have a1 := w.next_alive _ ay
    have a2 := w.next_alive _ a1
    have f1 : m.hFace (m.hNext y) ≠ f := by rw [w.face_next _ ay]; exact hy
    have f2 : m.hFace (m.hNext (m.hNext y)) ≠ f := by rw [w.face_next _ a1]; exact f1
    unfold Mesh.OnTri at t ⊢
    rw [(D.others y ay hy).1, (D.others _ a1 f1).1, (D.others _ a2 f2).1]
    exact t
  have l := w.faceLoop af
  rcases P.cases p l a with ⟨e, he, rfl⟩ | ⟨a0, h0⟩
  · exact .inl (P.onTri he)
  rcases g.tri.holds x a0 with t | t
  · exact .inl (keepTri x a0 h0 t)
  · refine .inr fun y ay fy => ?_
    have fx := (P.out x a0 h0).2.1
    have xh : m.hFace x ∈ m.holeFaces := (mem_holeFaces w).2 ⟨w.face_alive _ a0, fun z az fz => (t z az fz).1⟩
    rcases P.cases p l ay with ⟨e, he, rfl⟩ | ⟨b0, hy⟩
    · exfalso
      obtain ⟨j, -, -, -, fe⟩ := P.face_e he
      have := (w.fBound _ (w.face_alive _ a0)).2
      rw [fy, fx] at fe
      omega
    · have oy := P.out y b0 hy
      have k := t y b0 (by rw [← oy.2.1, fy, fx])
      have ar := w.rev_alive _ b0
      have nr : m.hFace (m.hRev y) ≠ f := fun hf => alone _ ar hf (by
        rw [w.rev_rev _ b0, ← oy.2.1, fy, fx]
        exact xh)
      rw [P.oldRev y b0, (P.out _ ar nr).2.2.1, oy.2.2.1]
      exact ⟨k.1, k.2.1, keepTri _ ar nr k.2.2⟩

/-- what may stop a step -/
def Step.Stops (t : Step F) (e : Err) : Prop := e = .abort ∨ e = .throw ∨ e = .diverge ∧ t.IsL0 ∨ e = .ub ∧ t.IsFill

theorem mem_of_prefix {l l' : List Nat} (h : l <+: l') {x : Nat} (hx : x ∈ l) : x ∈ l' := h.subset hx

theorem faceAt_cases (m : Mesh F) (i : Int) : faceAt i m = .err .abort ∨ ∃ f, faceAt i m = .ok f m ∧ f ∈ m.fs := by
  unfold faceAt arrayAt
  by_cases c : i < 0
  · rw [if_pos c]; exact .inl rfl
  · rw [if_neg c]
    cases e : m.fs[i.toNat]? with
    | none => exact .inl rfl
    | some h => exact .inr ⟨h, rfl, List.mem_of_getElem? e⟩

theorem step_any (g : m.Good) {p : Ptrs} {s : Marks} (H : m.Holds p s) {t : Step F} (f : t.Fits m p s) :
    (∃ p' m', t.run p m = .ok p' m' ∧ m'.Good ∧ m'.Holds p' (s.next t)) ∨ ∃ e, t.run p m = .err e ∧ t.Stops e := by
  have w := g.wf
  have up : ∀ {m' : Mesh F}, m'.Good → m.vs <+: m'.vs → m.fs <+: m'.fs → m'.Holds p s := fun {m'} g' hv hf =>
    ⟨H.nv, H.nf, fun k v h e => (g'.wf.vDense.mem v).1 (mem_of_prefix hv ((w.vDense.mem v).2 (H.v k v h e))),
      fun k v h e => (g'.wf.fDense.mem v).1 (mem_of_prefix hf ((w.fDense.mem v).2 (H.f k v h e)))⟩
  have noF : ∀ {m' : Mesh F}, m'.vAlive = m.vAlive → m'.Holds p { s with sf := s.nf } := fun {m'} e =>
    ⟨H.nv, H.nf, fun k v h e' => by rw [e]; exact H.v k v h e', fun k v h e' => by
      have := (List.getElem?_eq_some_iff.1 e').1
      have := H.nf
      dsimp only at h
      omega⟩
  cases t with
  | work c =>
    rcases work_any g f with ⟨m', e, d, -⟩ | ⟨x, hx, e⟩
    · refine .inl ⟨p, m', by simp only [Step.run]; rw [bind_apply, e]; rfl, d.good, ?_⟩
      cases r : c.removes with
      | false =>
        rw [show s.next (Step.work c) = s by simp [Marks.next, r]]
        exact up d.good (work_keeps g f r e).1 (work_keeps g f r e).2
      | true =>
        rw [show s.next (Step.work c) = { s with sv := s.nv, sf := s.nf } by simp [Marks.next, r]]
        refine ⟨H.nv, H.nf, fun k v h e' => ?_, fun k v h e' => ?_⟩
        · have := (List.getElem?_eq_some_iff.1 e').1
          have := H.nv
          dsimp only at h
          omega
        · have := (List.getElem?_eq_some_iff.1 e').1
          have := H.nf
          dsimp only at h
          omega
    · refine .inr ⟨x, by simp only [Step.run]; rw [bind_apply, e], ?_⟩
      rcases hx with h | h | h
      · exact .inl h
      · exact .inr (.inl h)
      · exact .inr (.inr (.inl h))
  | fill =>
    rcases c21_fill g with ⟨m', e, D⟩ | e
    · exact .inl ⟨p, m', by simp only [Step.run]; rw [bind_apply, e]; rfl, c55_simple_partial g f e, noF D.vAlive⟩
    · exact .inr ⟨.ub, by simp only [Step.run]; rw [bind_apply, e], .inr (.inr (.inr ⟨rfl, trivial⟩))⟩
  | vertex i =>
    rcases vertexAt_cases m i with ⟨e, -⟩ | ⟨v, e, mem⟩
    · exact .inr ⟨.abort, by simp only [Step.run]; rw [bind_apply, e], .inl rfl⟩
    · refine .inl ⟨⟨p.vs ++ [v], p.fs⟩, m, by simp only [Step.run]; rw [bind_apply, e]; rfl, g, ⟨by simp [Marks.next, H.nv], H.nf, fun k x h e' => ?_, H.f⟩⟩
      rw [List.getElem?_append] at e'
      split at e'
      · exact H.v k x h e'
      · have : x = v := by
          rw [List.getElem?_singleton] at e'
          split at e'
          · cases e'; rfl
          · cases e'
        rw [this]
        exact (w.vDense.mem v).1 mem
  | face i =>
    rcases faceAt_cases m i with e | ⟨v, e, mem⟩
    · exact .inr ⟨.abort, by simp only [Step.run]; rw [bind_apply, e], .inl rfl⟩
    · refine .inl ⟨⟨p.vs, p.fs ++ [v]⟩, m, by simp only [Step.run]; rw [bind_apply, e]; rfl, g, ⟨H.nv, by simp [Marks.next, H.nf], H.v, fun k x h e' => ?_⟩⟩
      rw [List.getElem?_append] at e'
      split at e'
      · exact H.f k x h e'
      · have : x = v := by
          rw [List.getElem?_singleton] at e'
          split at e'
          · cases e'; rfl
          · cases e'
        rw [this]
        exact (w.fDense.mem v).1 mem
  | useV k u =>
    have hk : k < p.vs.length := by rw [H.nv]; exact f.2
    have e : p.vs[k]? = some (p.vs.getD k 0) := by simp [hk]
    rcases vuse_any g (H.v k _ f.1 e) u with ⟨m', r, d, e1, e2⟩ | r
    · exact .inl ⟨p, m', by simp only [Step.run]; rw [bind_apply, r]; rfl, d.good,
        up d.good (by rw [e1]) (by rw [e2])⟩
    · exact .inr ⟨.throw, by simp only [Step.run]; rw [bind_apply, r], .inr (.inl rfl)⟩
  | useF k u =>
    have hk : k < p.fs.length := by rw [H.nf]; exact f.2
    have e : p.fs[k]? = some (p.fs.getD k 0) := by simp [hk]
    exact .inl ⟨p, m, by simp only [Step.run]; rw [bind_apply, fuse_any w (H.f k _ f.1 e) u]; rfl, g, H⟩
  | fillFace k bound =>
    have hk : k < p.fs.length := by rw [H.nf]; exact f.1.2
    have e : p.fs[k]? = some (p.fs.getD k 0) := by simp [hk]
    rcases face_good (AngleCap.any m) g (f.2 _ e) bound with ⟨m', new, r, D, g', -⟩ | ⟨-, r⟩
    · exact .inl ⟨p, m', by simp only [Step.run]; rw [bind_apply, r]; rfl, g', noF D.vAlive⟩
    · exact .inr ⟨.ub, by simp only [Step.run]; rw [bind_apply, r], .inr (.inr (.inr ⟨rfl, trivial⟩))⟩

/-- what a step that keeps vertices or faces does to the arrays -/
theorem step_keeps (g : m.Good) {p p' : Ptrs} {s : Marks} (H : m.Holds p s) {t : Step F} (f : t.Fits m p s) (e : t.run p m = .ok p' m') :
    (t.KeepsV → m.vs <+: m'.vs) ∧ (t.KeepsF → m.fs <+: m'.fs) := by
  cases t with
  | work c =>
    simp only [Step.run] at e
    rw [bind_apply] at e
    rcases work_any g f with ⟨m2, e2, d, -⟩ | ⟨x, hx, e2⟩
    · rw [e2] at e; cases e
      exact ⟨fun r => (work_keeps g f r e2).1, fun r => (work_keeps g f r e2).2⟩
    · rw [e2] at e; cases e
  | fill =>
    simp only [Step.run] at e
    rw [bind_apply] at e
    rcases c21_fill g with ⟨m2, e2, D⟩ | e2
    · rw [e2] at e; cases e
      exact ⟨fun _ => by rw [D.vs], fun h => h.elim⟩
    · rw [e2] at e; cases e
  | vertex i =>
    simp only [Step.run] at e
    rw [bind_apply] at e
    rcases vertexAt_cases m i with ⟨e2, -⟩ | ⟨v, e2, mem⟩ <;> rw [e2] at e <;> cases e
    exact ⟨fun _ => List.prefix_rfl, fun _ => List.prefix_rfl⟩
  | face i =>
    simp only [Step.run] at e
    rw [bind_apply] at e
    rcases faceAt_cases m i with e2 | ⟨v, e2, mem⟩ <;> rw [e2] at e <;> cases e
    exact ⟨fun _ => List.prefix_rfl, fun _ => List.prefix_rfl⟩
  | useV k u =>
    have hk : k < p.vs.length := by rw [H.nv]; exact f.2
    have e0 : p.vs[k]? = some (p.vs.getD k 0) := by simp [hk]
    simp only [Step.run] at e
    rw [bind_apply] at e
    rcases vuse_any g (H.v k _ f.1 e0) u with ⟨m2, r, d, e1, e2⟩ | r <;> rw [r] at e <;> cases e
    exact ⟨fun _ => by rw [e1], fun _ => by rw [e2]⟩
  | useF k u =>
    have hk : k < p.fs.length := by rw [H.nf]; exact f.2
    have e0 : p.fs[k]? = some (p.fs.getD k 0) := by simp [hk]
    simp only [Step.run] at e
    rw [bind_apply, fuse_any g.wf (H.f k _ f.1 e0) u] at e
    cases e
    exact ⟨fun _ => List.prefix_rfl, fun _ => List.prefix_rfl⟩
  | fillFace k bound =>
    have hk : k < p.fs.length := by rw [H.nf]; exact f.1.2
    have e0 : p.fs[k]? = some (p.fs.getD k 0) := by simp [hk]
    simp only [Step.run] at e
    rw [bind_apply] at e
    rcases face_good (AngleCap.any m) g (f.2 _ e0) bound with ⟨m2, new, r, D, g', -⟩ | ⟨-, r⟩ <;> rw [r] at e <;> cases e
    exact ⟨fun _ => by rw [D.vs], fun h => h.elim⟩

/-- exact arithmetic: a sound step succeeds -/
theorem step_exact {m : Mesh XR} (g : m.Good) (j : FinPos m) {p : Ptrs} {s : Marks} (H : m.Holds p s) {t : Step XR} (f : t.Fits m p s)
    (sd : t.Sound m) : ∃ p' m', t.run p m = .ok p' m' ∧ FinPos m' := by
  have w := g.wf
  obtain ⟨q, A⟩ := j
  have move : ∀ {m' : Mesh XR}, m'.vAlive = m.vAlive → m'.vPos = m.vPos → FinPos m' := fun {m'} e1 e2 =>
    ⟨q, fun v a => by rw [e2]; exact A v (by rw [← e1]; exact a)⟩
  cases t with
  | work c =>
    cases c with
    | call c =>
      obtain ⟨m', e, -, j'⟩ := call_exact g ⟨q, A⟩ f sd
      exact ⟨p, m', by simp only [Step.run, Work.run]; rw [bind_apply, e]; rfl, j'⟩
    | fairing => exact sd.elim
    | gaussian => exact sd.elim
    | bilateral => exact sd.elim
    | l0 => exact sd.elim
  | fill =>
    rcases fillHoles_ok w (fun f a => g.three_sides a)
      (fun h a => (g.tri.holds h a).imp_right fun t h' a' e => (t h' a' e).1) (AngleCap.exact ⟨q, A⟩) with ⟨e, -⟩ | ⟨m', h, I⟩
    · exact absurd trivial e
    · exact ⟨p, m', by simp only [Step.run]; rw [bind_apply, h]; rfl, move I.vAlive I.vPos⟩
  | vertex i =>
    rcases vertexAt_cases m i with ⟨e, n⟩ | ⟨v, e, -⟩
    · exact absurd sd n
    · exact ⟨⟨p.vs ++ [v], p.fs⟩, m, by simp only [Step.run]; rw [bind_apply, e]; rfl, q, A⟩
  | face i =>
    obtain ⟨k, rfl⟩ := Int.eq_ofNat_of_zero_le sd.1
    have hk : k < m.fs.length := by have := sd.2; omega
    exact ⟨⟨p.vs, p.fs ++ [m.fs[k]]⟩, m, by
      simp only [Step.run]; rw [bind_apply, faceAt_ok (List.getElem?_eq_getElem hk)]; rfl, q, A⟩
  | useV k u =>
    have hk : k < p.vs.length := by rw [H.nv]; exact f.2
    have e : p.vs[k]? = some (p.vs.getD k 0) := by simp [hk]
    have a := H.v k _ f.1 e
    have done : ∀ {m' : Mesh XR}, u.run (p.vs.getD k 0) m = .ok () m' → FinPos m' → ∃ p' m', (Step.useV k u).run p m = .ok p' m' ∧ FinPos m' :=
      fun {m'} r j => ⟨p, m', by simp only [Step.run]; rw [bind_apply, r]; rfl, j⟩
    generalize p.vs.getD k 0 = v at a done
    cases u with
    | pos => exact done (m' := m) (by simp only [VUse.run]; rw [bind_apply, getPos_ok a]; rfl) ⟨q, A⟩
    | place x =>
      obtain ⟨y, rfl⟩ := sd
      refine done (m' := { m with vPos := upd m.vPos v y.fin }) (by simp [VUse.run, setPos, a]) ⟨fun x => if x = v then y.E else q x, fun x ax => ?_⟩
      by_cases hx : x = v
      · exact ⟨y, by simp [upd, hx], by simp [hx]⟩
      · obtain ⟨z, h1, h2⟩ := A x ax
        exact ⟨z, by simp [upd, hx, h1], by simp [hx, h2]⟩
    | normal => exact sd.elim
    | gauss =>
      obtain ⟨ps, hps⟩ := ringPos_any w a
      refine done (m' := m) ?_ ⟨q, A⟩
      simp only [VUse.run, gaussK]
      rw [bind_apply, bind_apply, hps]; dsimp only
      rw [bind_apply, getPos_ok a]; rfl
    | mean => exact sd.elim
    | boundary => exact done (m' := m) (by simp only [VUse.run]; rw [bind_apply, w.vIsBoundary_ok a]; rfl) ⟨q, A⟩
    | locked => exact done (m' := m) (by simp [VUse.run, getLock, a]) ⟨q, A⟩
    | lock b => exact done (m' := { m with vLock := upd m.vLock v b }) (by simp [VUse.run, setLock, a]) ⟨q, A⟩
  | useF k u =>
    have hk : k < p.fs.length := by rw [H.nf]; exact f.2
    have e : p.fs[k]? = some (p.fs.getD k 0) := by simp [hk]
    exact ⟨p, m, by simp only [Step.run]; rw [bind_apply, fuse_any w (H.f k _ f.1 e) u]; rfl, q, A⟩
  | fillFace k bound =>
    have hk : k < p.fs.length := by rw [H.nf]; exact f.1.2
    have e : p.fs[k]? = some (p.fs.getD k 0) := by simp [hk]
    rcases face_good (AngleCap.exact ⟨q, A⟩) g (f.2 _ e) bound with ⟨m', new, r, D, g', -⟩ | ⟨n, -⟩
    · exact ⟨p, m', by simp only [Step.run]; rw [bind_apply, r]; rfl, move D.vAlive D.vPos⟩
    · exact absurd trivial n

/-- filling the holes that remain through pointers -/
theorem fillFaces_ok {m0 : Mesh F} {Small : F → Prop} {E : Prop} {H : List Nat} (h3 : ∀ g ∈ H, m0.fAlive g = true ∧ 3 ≤ m0.sides g)
    (w0 : m0.WF) (cap : AngleCap m0 Small E) : ∀ (rem : List (Nat × Nat)) (qs : List (Nat × F)) (m : Mesh F), FillInv m0 H rem m →
    qs.map Prod.fst = rem.map Prod.snd →
    (¬ E ∧ fillFaces qs m = .err .ub) ∨ ∃ m', fillFaces qs m = .ok () m' ∧ FillInv m0 H [] m' := by
  intro rem
  induction rem with
  | nil =>
    intro qs m I e
    rw [List.map_nil, List.map_eq_nil_iff] at e
    subst e
    exact .inr ⟨m, rfl, I⟩
  | cons q rem ih =>
    intro qs m I eq
    obtain ⟨i, g⟩ := q
    cases qs with
    | nil => cases eq
    | cons q qs =>
      obtain ⟨g', bound⟩ := q
      simp only [List.map_cons, List.cons.injEq] at eq
      obtain ⟨rfl, eq⟩ := eq
      have hi := I.slots (i, g') List.mem_cons_self
      have ag := I.wf.fDense.alive_at hi
      have gH : g' ∈ H := I.hole (i, g') List.mem_cons_self
      have sd : (orbit m.hNext (m.fHe g')).length = m0.sides g' := by
        rw [← w0.loop_length (h3 g' gH).1]
        have l1 := I.wf.faceLoop ag
        have l0 := w0.faceLoop (h3 g' gH).1
        refine List.Perm.length_eq ((List.perm_ext_iff_of_nodup l1.nodup l0.nodup).2 fun h => ?_)
        rw [l1.mem, l0.mem]
        exact I.same (i, g') List.mem_cons_self h
      unfold fillFaces
      rw [bind_apply]
      rcases holeFill_ok (bound := bound) I.wf (cap.congr I.vAlive I.vPos) ag (by rw [sd]; exact (h3 g' gH).2) with
        ⟨e, h⟩ | ⟨m', tris, He, h, p, P⟩
      · exact .inl ⟨e, by dsimp only; rw [h]⟩
      · dsimp only
        rw [h]
        exact ih qs m' (I.step ag sd p P) eq

end TinyMesh
