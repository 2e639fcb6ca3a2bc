import Verif.Proof.EditA
import Verif.Spec.History
/-
One call of a local edit, then sequences of calls; `verify`.
-/
namespace TinyMesh
open Orbit
variable {F : Type} [Scalar F] {m m' : Mesh F} {N : Vec3 F → Prop}

theorem SameElements.refl (m : Mesh F) : SameElements m m :=
  ⟨fun _ h _ => h, fun _ h _ => h, fun _ h _ => h, fun _ _ _ => rfl, fun _ _ _ => rfl, Nat.le_refl _, Nat.le_refl _,
    Nat.le_refl _⟩

theorem SameElements.trans {m1 m2 m3 : Mesh F} (w : m1.WF) (h : SameElements m1 m2) (h' : SameElements m2 m3) :
    SameElements m1 m3 := by
  have k : ∀ x, m1.vAlive x = true → m3.vAlive x = true → m2.vAlive x = true := fun x a c =>
    h'.v x c (Nat.lt_of_lt_of_le (w.vBound x a).2 h.vF)
  refine ⟨fun x a b => h.h x (h'.h x a (Nat.lt_of_lt_of_le b h.hF)) b,
    fun x a b => h.v x (h'.v x a (Nat.lt_of_lt_of_le b h.vF)) b,
    fun x a b => h.f x (h'.f x a (Nat.lt_of_lt_of_le b h.fF)) b, ?_, ?_,
    Nat.le_trans h.hF h'.hF, Nat.le_trans h.vF h'.vF, Nat.le_trans h.fF h'.fF⟩
  · intro x a c
    rw [h'.pos x (k x a c) c, h.pos x a (k x a c)]
  · intro x a c
    rw [h'.lock x (k x a c) c, h.lock x a (k x a c)]

/-- What every edit does. -/
structure StepDone (N : Vec3 F → Prop) (m m' : Mesh F) : Prop where
  good : m'.Good
  range : m'.InRange N
  same : SameElements m m'
  euler : 2 * (m'.vs.length : Int) - m'.hes.length + 2 * m'.fs.length = 2 * (m.vs.length : Int) - m.hes.length + 2 * m.fs.length

theorem StepDone.refl (g : m.Good) (r : m.InRange N) : StepDone N m m := ⟨g, r, .refl m, rfl⟩

theorem StepDone.trans {m1 m2 m3 : Mesh F} (w : m1.WF) (h : StepDone N m1 m2) (h' : StepDone N m2 m3) : StepDone N m1 m3 :=
  ⟨h'.good, h'.range, h.same.trans w h'.same, h'.euler.trans h.euler⟩

theorem edit_step (P : PosRange N) (g : m.Good) (r : m.InRange N) {e : Edit} (ok : e.okAt m) :
    ∃ b m', e.run m = .ok b m' ∧ StepDone N m m' := by
  cases e with
  | split h =>
    rcases splitHE_cases g ok with e | ⟨m', he, S⟩
    · exact ⟨_, _, e, .refl g r⟩
    · have d := S.done g
      refine ⟨_, _, S.run, d.good, ?_, ?_, ?_⟩
      · intro v av
        rcases d.only v av with h1 | rfl
        · rw [(d.keeps v h1).2.1]; exact r v h1
        · rw [d.pos]; exact P.mid _ _ (r _ (g.wf.src_alive _ S.D.a)) (r _ (g.wf.src_alive _ S.D.ar))
      · refine ⟨?_, ?_, ?_, fun x a _ => (d.keeps x a).2.1, fun x a _ => (d.keeps x a).2.2, by rw [S.R.hfr]; omega,
          by rw [S.R.vfr]; omega, by rw [S.R.ffr]; omega⟩
        · intro x a l
          rcases (S.R.hal x).1 a with h1 | h1
          · exact h1
          · omega
        · intro x a l
          rcases (S.R.val x).1 a with h1 | h1
          · exact h1
          · omega
        · intro x a l
          rcases (S.R.fal x).1 a with h1 | h1
          · exact h1
          · omega
      · rw [d.nv, d.nh, d.nf]; push_cast; omega
  | collapse h =>
    rcases collapseHE_outcome g ok with e | ⟨m', p, q, e, _, d, _, hf, vf, ff⟩ | ⟨_, v, av, hv⟩
    · exact ⟨_, _, e, .refl g r⟩
    · refine ⟨_, _, e, d.good, ?_, ?_, ?_⟩
      · intro v av
        rw [(d.keeps v av).1]; exact r v ((d.alive v).1 av).1
      · exact ⟨fun x a _ => d.hOld x a, fun x a _ => ((d.alive x).1 a).1, fun x a _ => d.fOld x a,
          fun x _ a => (d.keeps x a).1, fun x _ a => (d.keeps x a).2, by rw [hf], by rw [vf], by rw [ff]⟩
      · have := d.nv; have := d.nh; have := d.nf; omega
    · exact absurd (P.refl _ (r v av)) hv
  | flip h =>
    obtain ⟨a, t, t'⟩ := ok
    rcases flipHE_cases g a t t' with e | ⟨m', e, hm, d⟩
    · exact ⟨_, _, e, .refl g r⟩
    · refine ⟨_, _, e, d.good, ?_, ?_, ?_⟩
      · intro v av
        rw [d.vAlive] at av
        rw [d.pos]; exact r v av
      · subst hm
        exact ⟨fun x h _ => h, fun x h _ => h, fun x h _ => h, fun _ _ _ => rfl, fun _ _ _ => rfl, Nat.le_refl _,
          Nat.le_refl _, Nat.le_refl _⟩
      · rw [d.hes, d.vs, d.fs]

theorem edits_run (P : PosRange N) : ∀ (es : List Edit) (m : Mesh F), m.Good → m.InRange N → Allowed m es →
    ∃ bs m', runEdits es m = .ok bs m' ∧ bs.length = es.length ∧ StepDone N m m'
  | [], m, g, r, _ => ⟨[], m, rfl, rfl, .refl g r⟩
  | e :: es, m, g, r, ok => by
    obtain ⟨b, m1, e1, d1⟩ := edit_step P g r ok.1
    obtain ⟨bs, m2, e2, l2, d2⟩ := edits_run P es m1 d1.good d1.range (ok.2 b m1 e1)
    refine ⟨b :: bs, m2, ?_, by simp [l2], d1.trans g.wf d2⟩
    simp [runEdits, e1, e2]

/-! `verify` -/

theorem Mesh.WF.verifyVertex_ok (w : m.WF) {v : Nat} (a : m.vAlive v = true) :
    verifyVertex v m = .ok (m.vPos v).finite m := by
  unfold verifyVertex
  simp only [bind_apply, getVIdx_ok a, read_apply, getPos_ok a, getVHe_ok a]
  have : circ ringStep (m.vHe v) true (fun x b => do
      let s ← getSrc x
      pure (false, b && s == v)) m = .ok true m := by
    refine (w.circ_ring a (fun x b => (false, b && m.hSrc x == v)) (fun x hx b => by simp [getSrc_ok hx]) _).trans ?_
    have k : ∀ (l : List Nat), (∀ x ∈ l, m.hSrc x = v) → foldPure (fun x b => (false, b && m.hSrc x == v)) l true = true := by
      intro l
      induction l with
      | nil => intro _; rfl
      | cons x l ih =>
        intro h
        simp only [foldPure, h x List.mem_cons_self, beq_self_eq_true, Bool.and_self, Bool.false_eq_true, if_false]
        exact ih (fun y hy => h y (List.mem_cons_of_mem _ hy))
    rw [k _ (fun x hx => ((w.mem_ring a).1 hx).2)]
  rw [this]
  have := w.vDense.idx_lt a
  simp [this]

theorem Mesh.WF.verifyVs_ok (w : m.WF) : ∀ (l : List Nat) (i : Nat), (∀ v ∈ l, m.vAlive v = true) →
    (∀ (k v : Nat), l[k]? = some v → m.vIdx v = ((i + k : Nat) : Int)) →
    verifyVs i l m = .ok (l.all (fun v => (m.vPos v).finite)) m
  | [], _, _, _ => rfl
  | v :: l, i, h, hi => by
    have a := h v List.mem_cons_self
    have h0 := hi 0 v rfl
    have ih := w.verifyVs_ok l (i + 1) (fun x hx => h x (List.mem_cons_of_mem _ hx)) (fun k x hk => by
      have := hi (k + 1) x (by simpa using hk)
      rw [this]; congr 1; omega)
    simp [verifyVs, getVIdx_ok a, w.verifyVertex_ok a, ih, h0]

theorem verifyHs_ok : ∀ (l : List Nat) (i : Nat), (∀ v ∈ l, m.hAlive v = true) →
    (∀ (k v : Nat), l[k]? = some v → m.hIdx v = ((i + k : Nat) : Int)) → verifyHs i l m = .ok true m
  | [], _, _, _ => rfl
  | v :: l, i, h, hi => by
    have a := h v List.mem_cons_self
    have h0 := hi 0 v rfl
    have ih := verifyHs_ok l (i + 1) (fun x hx => h x (List.mem_cons_of_mem _ hx)) (fun k x hk => by
      have := hi (k + 1) x (by simpa using hk)
      rw [this]; congr 1; omega)
    simp [verifyHs, getHIdx_ok a, ih, h0]

theorem Mesh.WF.verifyFs_ok (w : m.WF) : ∀ (l : List Nat) (i : Nat), (∀ v ∈ l, m.fAlive v = true) →
    (∀ (k v : Nat), l[k]? = some v → m.fIdx v = ((i + k : Nat) : Int)) → verifyFs i l m = .ok true m
  | [], _, _, _ => rfl
  | v :: l, i, h, hi => by
    have a := h v List.mem_cons_self
    have h0 := hi 0 v rfl
    have ih := w.verifyFs_ok l (i + 1) (fun x hx => h x (List.mem_cons_of_mem _ hx)) (fun k x hk => by
      have := hi (k + 1) x (by simpa using hk)
      rw [this]; congr 1; omega)
    have := w.ne0 (w.fHe_ok v a).1
    simp [verifyFs, getFIdx_ok a, getFHe_ok a, ih, h0, this]

theorem Dense.idx_get {al : Nat → Bool} {ix : Nat → Int} {l : List Nat} (d : Dense al ix l) (k v : Nat)
    (h : l[k]? = some v) : ix v = ((0 + k : Nat) : Int) := by
  obtain ⟨hk, e⟩ := List.getElem?_eq_some_iff.1 h
  rw [← e, d.idx k hk]; simp

/-- On a consistent mesh `verify` reports exactly whether all positions are finite. -/
theorem Mesh.WF.verify_ok (w : m.WF) : verify m = .ok (m.vs.all (fun v => (m.vPos v).finite)) m := by
  have e1 := w.verifyVs_ok m.vs 0 (fun v hv => (w.vDense.mem v).1 hv) w.vDense.idx_get
  have e2 := verifyHs_ok (m := m) m.hes 0 (fun v hv => (w.hDense.mem v).1 hv) w.hDense.idx_get
  have e3 := w.verifyFs_ok m.fs 0 (fun v hv => (w.fDense.mem v).1 hv) w.fDense.idx_get
  simp [verify, e1, e2, e3]

end TinyMesh
