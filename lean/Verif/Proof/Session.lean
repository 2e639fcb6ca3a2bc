import Verif.Spec.Session
import Verif.Props.Pieces
/-
Programs that work on a mesh: what one call can do.
-/
namespace TinyMesh
variable {F : Type} [Scalar F] {m m' : Mesh F}

/-- what every call keeps -/
structure CallDone (m m' : Mesh F) : Prop where
  good : m'.Good
  euler : m'.euler2 = m.euler2
  reuse : NoReuse m m'
  pieces : Corresp m m'

theorem CallDone.refl (g : m.Good) : CallDone m m := ⟨g, rfl, .refl m, .refl m⟩

omit [Scalar F] in
theorem CallDone.trans {m1 m2 m3 : Mesh F} (h : CallDone m1 m2) (h' : CallDone m2 m3) : CallDone m1 m3 :=
  ⟨h'.good, h'.euler.trans h.euler, h.reuse.trans h'.reuse, h.pieces.trans h.reuse.vF h'.reuse.v h'.pieces⟩

theorem Mesh.SameButPos.callDone (g : m.Good) (s : m.SameButPos m') : CallDone m m' := ⟨s.good g, s.euler, s.noReuse, s.corresp⟩

theorem RemDone.callDone (g : m'.Good) (r : RemDone m m') : CallDone m m' := ⟨g, r.euler, r.reuse, r.pieces⟩

omit [Scalar F] in
theorem SimDone.callDone {k : Nat} (g : m'.Good) (d : SimDone k m m') : CallDone m m' := by
  refine ⟨g, ?_, d.reuse, d.pieces⟩
  have := d.num.fs; have := d.num.vs; have := d.num.hes
  unfold Mesh.euler2; omega

/-- the two cases of an index -/
theorem halfedgeAt_cases (m : Mesh F) (i : Int) : (halfedgeAt i m = .err .abort ∧ ¬ (0 ≤ i ∧ i < m.hes.length)) ∨
    ∃ h, halfedgeAt i m = .ok h m ∧ h ∈ m.hes ∧ 0 ≤ i ∧ m.hes[i.toNat]? = some h := by
  unfold halfedgeAt arrayAt
  by_cases c : i < 0
  · rw [if_pos c]; exact .inl ⟨rfl, by omega⟩
  · rw [if_neg c]
    cases e : m.hes[i.toNat]? with
    | none =>
      rw [List.getElem?_eq_none_iff] at e
      exact .inl ⟨rfl, by omega⟩
    | some h => exact .inr ⟨h, rfl, List.mem_of_getElem? e, by omega, rfl⟩

theorem vertexAt_cases (m : Mesh F) (i : Int) : (vertexAt i m = .err .abort ∧ ¬ (0 ≤ i ∧ i < m.vs.length)) ∨
    ∃ v, vertexAt i m = .ok v m ∧ v ∈ m.vs := by
  unfold vertexAt arrayAt
  by_cases c : i < 0
  · rw [if_pos c]; exact .inl ⟨rfl, by omega⟩
  · rw [if_neg c]
    cases e : m.vs[i.toNat]? with
    | none =>
      rw [List.getElem?_eq_none_iff] at e
      exact .inl ⟨rfl, by omega⟩
    | some h => exact .inr ⟨h, rfl, List.mem_of_getElem? e⟩

/-- the outcomes of a call that are allowed: success with the invariant, or an error of the kind `E` -/
def CallOut (J : Mesh F → Prop) (E : Err → Prop) (m : Mesh F) (o : Out F Unit) : Prop :=
  (∃ m', o = .ok () m' ∧ CallDone m m' ∧ J m') ∨ ∃ e, E e ∧ o = .err e

variable {J : Mesh F → Prop} {E : Err → Prop}

omit [Scalar F] in
theorem bindU {x : M F Bool} {b : Bool} (h : x m = .ok b m') : (do let _ ← x; pure () : M F Unit) m = .ok () m' := by
  rw [bind_apply, h]; rfl

theorem split_out (C : Caps J E) (g : m.Good) (j : J m) (i : Int) (hi : E .abort ∨ 0 ≤ i ∧ i < m.hes.length) :
    CallOut J E m ((Call.split i).run m) := by
  rcases halfedgeAt_cases m i with ⟨e, n⟩ | ⟨h, e, mem, -⟩
  · exact .inr ⟨.abort, hi.resolve_right n, by simp only [Call.run]; rw [bind_apply, e]⟩
  have a := (g.wf.hDense.mem h).1 mem
  have k : (Call.split i).run m = (do let _ ← splitHE h; pure () : M F Unit) m := by
    simp only [Call.run]; rw [bind_apply, e]
  rw [k]
  rcases splitHE_cases g a with e | ⟨m', he, S⟩
  · exact .inl ⟨m, bindU e, .refl g, j⟩
  · exact .inl ⟨m', bindU S.run, RemDone.callDone (S.remDone g).1 (S.remDone g).2, C.split g j S⟩

theorem collapse_out (C : Caps J E) (g : m.Good) (j : J m) (i : Int) (hi : E .abort ∨ 0 ≤ i ∧ i < m.hes.length) :
    CallOut J E m ((Call.collapse i).run m) := by
  rcases halfedgeAt_cases m i with ⟨e, n⟩ | ⟨h, e, mem, -⟩
  · exact .inr ⟨.abort, hi.resolve_right n, by simp only [Call.run]; rw [bind_apply, e]⟩
  have a := (g.wf.hDense.mem h).1 mem
  have k : (Call.collapse i).run m = (do let _ ← collapseHE h; pure () : M F Unit) m := by
    simp only [Call.run]; rw [bind_apply, e]
  rw [k]
  rcases collapse_step g a with e | ⟨m', p, q, e, S⟩ | ⟨e, v, av, hv⟩
  · exact .inl ⟨m, bindU e, .refl g, j⟩
  · have d := S.done
    refine .inl ⟨m', bindU e, ⟨d.good, ?_, S.noReuse, d.corresp g⟩, C.collapse j d⟩
    have := d.nv; have := d.nh; have := d.nf
    unfold Mesh.euler2; omega
  · refine .inr ⟨.abort, C.nan.resolve_right fun h => hv (h m j v av), ?_⟩
    rw [bind_apply, e]

theorem flip_out (C : Caps J E) (g : m.Good) (j : J m) (i : Int) (hi : E .abort ∨ 0 ≤ i ∧ i < m.hes.length) (f : (Call.flip i).Fits m) :
    CallOut J E m ((Call.flip i).run m) := by
  rcases halfedgeAt_cases m i with ⟨e, n⟩ | ⟨h, e, mem, i0, ih⟩
  · exact .inr ⟨.abort, hi.resolve_right n, by simp only [Call.run]; rw [bind_apply, e]⟩
  have a := (g.wf.hDense.mem h).1 mem
  have k : (Call.flip i).run m = (do let _ ← flipHE h; pure () : M F Unit) m := by
    simp only [Call.run]; rw [bind_apply, e]
  rw [k]
  obtain ⟨t, t'⟩ := f h i0 ih
  rcases c13_flip g h a t t' with e | ⟨m', p, q, r, s, e, -, -, t1, t2, d⟩
  · exact .inl ⟨m, bindU e, .refl g, j⟩
  · obtain ⟨_, c, n, _⟩ := edit_corresp (e := Edit.flip h) g ⟨a, t, t'⟩ e
    refine .inl ⟨m', bindU e, ⟨d.good, ?_, n, c⟩, C.flip j d.vAlive d.pos⟩
    unfold Mesh.euler2; rw [d.hes, d.vs, d.fs]

theorem lock_out (C : Caps J E) (g : m.Good) (j : J m) (i : Int) (b : Bool) (hi : E .abort ∨ 0 ≤ i ∧ i < m.vs.length) :
    CallOut J E m ((Call.lock i b).run m) := by
  rcases vertexAt_cases m i with ⟨e, n⟩ | ⟨v, e, mem⟩
  · exact .inr ⟨.abort, hi.resolve_right n, by simp only [Call.run]; rw [bind_apply, e]⟩
  have a := (g.wf.vDense.mem v).1 mem
  refine .inl ⟨{ m with vLock := upd m.vLock v b }, ?_, ⟨g.setLocks _, rfl, ⟨fun _ h _ => h, fun _ h _ => h, fun _ h _ => h, Nat.le_refl _,
    Nat.le_refl _, Nat.le_refl _⟩, .of_eq rfl rfl rfl rfl⟩, C.flip j rfl rfl⟩
  simp only [Call.run]
  rw [bind_apply, e]
  simp [setLock, a]

theorem place_out (g : m.Good) (j : J m) (i : Int) (x : Vec3 F) (hi : E .abort ∨ 0 ≤ i ∧ i < m.vs.length)
    (hx : ∀ v, J { m with vPos := upd m.vPos v x }) : CallOut J E m ((Call.place i x).run m) := by
  rcases vertexAt_cases m i with ⟨e, n⟩ | ⟨v, e, mem⟩
  · exact .inr ⟨.abort, hi.resolve_right n, by simp only [Call.run]; rw [bind_apply, e]⟩
  have a := (g.wf.vDense.mem v).1 mem
  refine .inl ⟨{ m with vPos := upd m.vPos v x }, ?_, Mesh.SameButPos.callDone g rfl, hx v⟩
  simp only [Call.run]
  rw [bind_apply, e]
  simp [setPos, a]

theorem remesh_out (C : Caps J E) (g : m.Good) (j : J m) (hf : E .abort ∨ ∀ v, m.vAlive v = true → (m.vPos v).finite = true)
    (sh : Nat → Bool → Nat → List Nat) (short long keep : F) (n : Nat) : CallOut J E m ((Call.remesh sh short long keep n).run m) := by
  rcases remesh_outcome C g j sh short long keep n with ⟨e, v, a, h⟩ | ⟨m1, -, ⟨m', e, i, r, -⟩ | ⟨x, h, e⟩⟩
  · exact .inr ⟨.abort, hf.resolve_right (fun k => by rw [k v a] at h; exact absurd h (by simp)), e⟩
  · exact .inl ⟨m', e, r.callDone i.1, i.2⟩
  · exact .inr ⟨x, h, e⟩

theorem simplify_out {S : Solver F} {V : Vec3 F → Prop} {Q : Mat4 F → Prop} (C : SimCaps S J V Q E) (g : m.Good) (j : J m)
    {ord : Nat → List (Nat × Vec3 F) → List (Nat × Vec3 F)} {target trials : Int} (f : (Call.simplify S ord target trials).Fits m)
    (ht : E .abort ∨ target ≠ 0) : CallOut J E m ((Call.simplify S ord target trials).run m) := by
  by_cases h0 : target = 0
  · refine .inr ⟨.abort, ht.resolve_right fun h => h h0, ?_⟩
    subst h0
    have := f.1
    exact c26_zero S ord trials (by omega)
  · rcases simplifyQEM_outcome C f.2 g j h0 trials f.1 with ⟨k, m', e, i, d, -⟩ | ⟨e, h, h'⟩
    · exact .inl ⟨m', e, d.callDone i.1, i.2⟩
    · exact .inr ⟨e, h, h'⟩

/-- a filter that throws or moves vertices -/
theorem filter_out (g : m.Good) {o : Out F Unit} (k : KeepsPinned m o) (h1 : E .throw ∨ o ≠ .err .throw) (h2 : ∀ m', o = .ok () m' → J m') :
    CallOut J E m o := by
  rcases k with k | ⟨m', e, s, -⟩
  · exact .inr ⟨.throw, h1.resolve_right fun h => h k, k⟩
  · exact .inl ⟨m', e, s.callDone g, h2 m' e⟩

/-- any arithmetic: every call returns a consistent mesh, or a check of the library stops it -/
theorem call_any (g : m.Good) {c : Call F} (f : c.Fits m) :
    CallOut (fun _ => True) (fun e => e = .abort ∨ e = .throw) m (c.run m) := by
  cases c with
  | split i => exact split_out caps_any g trivial i (.inl (.inl rfl))
  | collapse i => exact collapse_out caps_any g trivial i (.inl (.inl rfl))
  | flip i => exact flip_out caps_any g trivial i (.inl (.inl rfl)) f
  | lock i b => exact lock_out caps_any g trivial i b (.inl (.inl rfl))
  | place i x => exact place_out g trivial i x (.inl (.inl rfl)) fun _ => trivial
  | laplacian eps cotan n => exact filter_out g (c27_laplacian eps cotan n g.wf) (.inl (.inr rfl)) fun _ _ => trivial
  | taubin s i n => exact filter_out g (c27_taubin s i f g.wf) (.inl (.inr rfl)) fun _ _ => trivial
  | remesh sh s l k n => exact remesh_out caps_any g trivial (.inl (.inl rfl)) sh s l k n
  | simplify S ord t n => exact simplify_out (simCaps_any S) g trivial f (.inl (.inl rfl))

/-- exact arithmetic: nothing can fail -/
theorem call_exact {m : Mesh XR} (g : m.Good) (j : FinPos m) {c : Call XR} (f : c.Fits m) (s : c.Sound m) :
    ∃ m', c.run m = .ok () m' ∧ CallDone m m' ∧ FinPos m' := by
  have fin : ∀ v, m.vAlive v = true → (m.vPos v).finite = true := by
    obtain ⟨p, A⟩ := j
    intro v a
    obtain ⟨w, hw, -⟩ := A v a
    rw [hw]
    simp [Vec3.finite, Vec3.fin]
  have key : CallOut FinPos (fun _ => False) m (c.run m) := by
    cases c with
    | split i => exact split_out caps_exact g j i (.inr s)
    | collapse i => exact collapse_out caps_exact g j i (.inr s)
    | flip i => exact flip_out caps_exact g j i (.inr s) f
    | lock i b => exact lock_out caps_exact g j i b (.inr s)
    | place i x =>
      refine place_out g j i x (.inr s.1) fun v => ?_
      obtain ⟨w, rfl⟩ := s.2
      obtain ⟨p, A⟩ := j
      refine ⟨upd p v w.E, fun u au => ?_⟩
      by_cases h : u = v
      · subst h; simp only [upd, if_pos]; exact ⟨w, rfl, rfl⟩
      · simpa [upd, h] using A u au
    | laplacian eps cotan n =>
      obtain ⟨⟨r, rfl⟩, rfl⟩ := s
      obtain ⟨p, A⟩ := j
      obtain ⟨m', e, b, A'⟩ := c29_laplacian_formula g.wf A r n
      exact .inl ⟨m', e, b.callDone g, _, A'⟩
    | taubin a b n =>
      obtain ⟨⟨r, rfl⟩, r', rfl⟩ := s
      obtain ⟨p, A⟩ := j
      obtain ⟨m', e, b, A'⟩ := c29_taubin_formula g.wf A r r' f
      exact .inl ⟨m', e, b.callDone g, _, A'⟩
    | remesh sh a l k n => exact remesh_out caps_exact g j (.inr fin) sh a l k n
    | simplify S ord t n => exact simplify_out (simCaps_exact s.1) g j f (.inr s.2)
  rcases key with h | ⟨_, h, -⟩
  · exact h
  · exact h.elim

end TinyMesh
