import Verif.Spec.Examples
import Verif.Proof.FillG
import Verif.Proof.FrontO
import Verif.Proof.Count
/-
The loop of the example program that fills holes.
-/
namespace TinyMesh
open Orbit
variable {F : Type}

theorem FillInv.perm {m0 m : Mesh F} {H : List Nat} {rem rem' : List (Nat × Nat)} (I : FillInv m0 H rem m) (p : rem.Perm rem') :
    FillInv m0 H rem' m := by
  have e := fun q => p.mem_iff (a := q)
  have s : (rem.map (fun q => m0.sides q.2)).sum = (rem'.map (fun q => m0.sides q.2)).sum := (p.map _).sum_eq
  have l := p.length_eq
  refine ⟨I.wf, fun q hq => I.slots q ((e q).2 hq), (p.map _).nodup_iff.1 I.nodup, fun q hq => I.hole q ((e q).2 hq),
    fun q hq => I.same q ((e q).2 hq), fun h a hq => I.tri h a fun q h' => hq q ((e q).1 h'),
    fun f a hq => I.flag f a fun q h' => hq q ((e q).1 h'), I.kept, fun h a b => ?_, I.vAlive, I.vPos, I.vHe, I.vIdx, I.vLock, I.vs, ?_, ?_, I.linked⟩
  · obtain ⟨h1, h2, h3⟩ := I.clear h a b
    refine ⟨h1, h2, fun h' => ?_⟩
    obtain ⟨q, hq, x⟩ := h3 h'
    exact ⟨q, (e q).1 hq, x⟩
  · rw [← s, ← l]; exact I.hLen
  · rw [← s, ← l]; exact I.fLen

/-- before the step for the position `i`: the holes that remain are at later positions and still flagged -/
structure LoopInv (m0 : Mesh F) (i : Nat) (rem : List (Nat × Nat)) (m : Mesh F) : Prop where
  inv : FillInv m0 m0.holeFaces rem m
  later : ∀ q ∈ rem, i ≤ q.1
  range : i ≤ m.fs.length
  flagged : ∀ q ∈ rem, ∀ h, m.hAlive h = true → m.hFace h = q.2 → m.hBd h = true

theorem LoopInv.bound {m0 m : Mesh F} {i : Nat} {rem : List (Nat × Nat)} (L : LoopInv m0 i rem m) :
    m.fs.length ≤ m0.fs.length + (m0.holeFaces.map m0.sides).sum := by
  have h1 : rem.length ≤ m0.holeFaces.length := by
    have := (L.inv.nodup.subperm (l₂ := m0.holeFaces) (by
      intro x hx
      obtain ⟨q, hq, rfl⟩ := List.mem_map.1 hx
      exact L.inv.hole q hq)).length_le
    simpa using this
  have := L.inv.fLen
  omega

/-- a loop that closes after three steps has at most three half-edges -/
theorem sides_le_three {m : Mesh F} (w : m.WF) {g : Nat} (ag : m.fAlive g = true) (t : ∀ h, m.hAlive h = true → m.OnTri h) : m.sides g ≤ 3 := by
  obtain ⟨a, e⟩ := w.fHe_ok g ag
  have t0 := t _ a
  unfold Mesh.OnTri at t0
  have l := w.faceLoop ag
  rw [← w.loop_length ag]
  have := (l.nodup.subperm (l₂ := [m.fHe g, m.hNext (m.fHe g), m.hNext (m.hNext (m.fHe g))]) (by
    intro h hh
    obtain ⟨ah, eh⟩ := (l.mem h).1 hh
    obtain ⟨n, hn⟩ := w.face_conn _ h a ah (by rw [e, eh])
    have key : ∀ n, m.hNext^[n] (m.fHe g) ∈ [m.fHe g, m.hNext (m.fHe g), m.hNext (m.hNext (m.fHe g))] := by
      intro n
      induction n with
      | zero => simp
      | succ n ih =>
        rw [Function.iterate_succ_apply']
        simp only [List.mem_cons, List.not_mem_nil, or_false] at ih ⊢
        rcases ih with h | h | h <;> rw [h]
        · simp
        · simp
        · exact .inl t0
    rw [← hn]
    exact key n)).length_le
  simpa using this

theorem sum_split (s : Nat → Nat) (P : Nat → Bool) : ∀ l : List Nat, (∀ x ∈ l, P x = false → s x = 3) →
    (l.map s).sum + 3 * (l.filter P).length = ((l.filter P).map s).sum + 3 * l.length
  | [], _ => rfl
  | x :: l, h => by
    have ih := sum_split s P l fun y hy => h y (by simp [hy])
    rw [List.filter_cons]
    cases hp : P x
    · have := h x (by simp) hp
      simp only [List.map_cons, List.sum_cons, List.length_cons, Bool.false_eq_true, if_false]
      omega
    · simp only [List.map_cons, List.sum_cons, List.length_cons, if_true]
      omega

theorem all_three (s : Nat → Nat) : ∀ l : List Nat, (∀ x ∈ l, s x ≤ 3) → (l.map s).sum = 3 * l.length → ∀ x ∈ l, s x = 3
  | [], _, _ => by simp
  | x :: l, h, e => by
    have hx := h x (by simp)
    have hl : (l.map s).sum ≤ 3 * l.length := by
      have : ∀ l : List Nat, (∀ x ∈ l, s x ≤ 3) → (l.map s).sum ≤ 3 * l.length := by
        intro l
        induction l with
        | nil => simp
        | cons y l ih =>
          intro h
          have := h y (by simp)
          have := ih fun z hz => h z (by simp [hz])
          simp only [List.map_cons, List.sum_cons, List.length_cons]
          omega
      exact this l fun y hy => h y (by simp [hy])
    simp only [List.map_cons, List.sum_cons, List.length_cons] at e
    have ih := all_three s l (fun y hy => h y (by simp [hy])) (by omega)
    intro y hy
    rcases List.mem_cons.1 hy with rfl | hy
    · omega
    · exact ih y hy

variable [ScalarX F]

/-- after filling, all faces have three sides -/
theorem HolesFilled.three {m m' : Mesh F} (g : m.Good) (H : HolesFilled m m') {f : Nat} (a : m'.fAlive f = true) : m'.sides f = 3 := by
  have w := g.wf
  have w' := H.consistent
  refine all_three m'.sides m'.fs (fun x hx => sides_le_three w' ((w'.fDense.mem x).1 hx) H.triangles) ?_ f ((w'.fDense.mem f).2 a)
  have h1 := sum_split m.sides (fun f => m.hes.all fun h => m.hFace h != f || m.hBd h) m.fs (by
    intro x hx hp
    have ax := (w.fDense.mem x).1 hx
    refine sides_three w ax fun h ah fh => ?_
    refine ⟨(g.tri.holds h ah).resolve_right fun k => ?_, fun e => ?_⟩
    · rw [Bool.eq_false_iff] at hp
      refine hp (List.all_eq_true.2 fun y hy => ?_)
      by_cases e : m.hFace y = x
      · simp [(k y ((w.hDense.mem y).1 hy) (e.trans fh.symm)).1]
      · simp [e]
    · have := g.simple.no_loop h ah
      rw [e] at this
      exact this rfl)
  have h2 := H.faces
  have h3 := H.halfedges
  have h4 := w.sum_sides
  have h5 := w'.sum_sides
  unfold Mesh.holeFaces at h2 h3
  omega

theorem fillEach_ok {m0 : Mesh F} {Small : F → Prop} {E : Prop} (w0 : m0.WF) (h3 : ∀ g ∈ m0.holeFaces, m0.fAlive g = true ∧ 3 ≤ m0.sides g)
    (cap : AngleCap m0 Small E) (bound : F) : ∀ (fuel i : Nat) {rem : List (Nat × Nat)} {m : Mesh F}, LoopInv m0 i rem m →
    m0.fs.length + (m0.holeFaces.map m0.sides).sum < fuel + i →
    (¬ E ∧ fillEach bound fuel i m = .err .ub) ∨ ∃ m', fillEach bound fuel i m = .ok () m' ∧ FillInv m0 m0.holeFaces [] m' := by
  intro fuel
  induction fuel with
  | zero =>
    intro i rem m L h
    have := L.bound
    have := L.range
    omega
  | succ fuel ih =>
    intro i rem m L h
    have I := L.inv
    unfold fillEach
    rw [bind_apply, read_apply]
    dsimp only
    by_cases hi : i < m.fs.length
    · rw [if_pos hi]
      obtain ⟨f, hf⟩ : ∃ f, m.fs[i]? = some f := ⟨_, List.getElem?_eq_getElem hi⟩
      have af := I.wf.fDense.alive_at hf
      have atI : ∀ q ∈ rem, q.1 = i → q = (i, f) := by
        rintro ⟨j, g⟩ hq rfl
        have := I.slots _ hq
        rw [hf] at this
        cases this
        rfl
      rw [bind_apply, faceAt_ok hf]
      dsimp only
      rw [bind_apply, I.wf.fIsHole_ok af]
      dsimp only
      by_cases hq : (i, f) ∈ rem
      · have fl : ((orbit m.hNext (m.fHe f)).all m.hBd) = true := by
          rw [List.all_eq_true]
          intro x hx
          obtain ⟨ax, fx⟩ := (I.wf.mem_loop af).1 hx
          exact L.flagged _ hq x ax fx
        rw [if_pos fl]
        have pm := List.perm_cons_erase hq
        have I' := I.perm pm
        have gH := I.hole _ hq
        have sd : (orbit m.hNext (m.fHe f)).length = m0.sides f := by
          rw [← w0.loop_length (h3 f gH).1]
          have l1 := I.wf.faceLoop af
          have l0 := w0.faceLoop (h3 f gH).1
          refine List.Perm.length_eq ((List.perm_ext_iff_of_nodup l1.nodup l0.nodup).2 fun h => ?_)
          rw [l1.mem, l0.mem]
          exact I.same _ hq h
        rw [bind_apply]
        rcases holeFill_ok (bound := bound) I.wf (cap.congr I.vAlive I.vPos) af (by rw [sd]; exact (h3 f gH).2) with
          ⟨e, h⟩ | ⟨m', tris, He, h', p, P⟩
        · exact .inl ⟨e, by rw [h]⟩
        · rw [h']
          have l := I.wf.faceLoop af
          have nd := I'.nodup
          rw [List.map_cons, List.nodup_cons] at nd
          have qa : ∀ q ∈ rem.erase (i, f), m.fAlive q.2 = true := fun q hq =>
            I.wf.fDense.alive_at (I'.slots q (List.mem_cons_of_mem _ hq))
          refine ih (i + 1) (rem := rem.erase (i, f)) ⟨I'.step af sd p P, ?_, ?_, ?_⟩ (by omega)
          · intro q hq'
            have m1 := List.mem_of_mem_erase hq'
            have := L.later q m1
            rcases Nat.lt_or_ge i q.1 with h | h
            · exact h
            · have e := atI q m1 (by omega)
              exact absurd (List.mem_map.2 ⟨q, hq', by rw [e]⟩) nd.1
          · have := P.fLen
            have := (h3 f gH).2
            omega
          · intro q hq' x ax fx
            rcases P.cases p l ax with ⟨e, he, rfl⟩ | ⟨a0, h0⟩
            · obtain ⟨j, t, _, _, h⟩ := P.face_e he
              have := (I.wf.fBound _ (qa q hq')).2
              omega
            · have o := P.out x a0 h0
              rw [o.2.2.1]
              exact L.flagged q (List.mem_of_mem_erase hq') x a0 (by rw [← o.2.1, fx])
      · have fl : ¬ ((orbit m.hNext (m.fHe f)).all m.hBd) = true := by
          intro k
          rw [List.all_eq_true] at k
          obtain ⟨x, ax, fx, bx⟩ := I.flag f af (by
            intro q hq' e
            obtain ⟨j, g⟩ := q
            cases e
            have hj := I.slots _ hq'
            have : j = i := by
              obtain ⟨h1, h2⟩ := List.getElem?_eq_some_iff.1 hj
              obtain ⟨h3, h4⟩ := List.getElem?_eq_some_iff.1 hf
              exact (List.Nodup.getElem_inj_iff I.wf.fDense.nodup).1 (h2.trans h4.symm)
            subst this
            exact hq hq')
          rw [k x ((I.wf.mem_loop af).2 ⟨ax, fx⟩)] at bx
          cases bx
        rw [if_neg fl]
        refine ih (i + 1) (rem := rem) ⟨I, ?_, hi, L.flagged⟩ (by omega)
        intro q hq'
        have := L.later q hq'
        rcases Nat.lt_or_ge i q.1 with h | h
        · exact h
        · exact absurd (atI q hq' (by omega) ▸ hq') hq
    · rw [if_neg hi]
      refine .inr ⟨m, rfl, ?_⟩
      have : rem = [] := by
        rw [List.eq_nil_iff_forall_not_mem]
        intro q hq
        have := L.later q hq
        obtain ⟨h1, -⟩ := List.getElem?_eq_some_iff.1 (I.slots q hq)
        omega
      exact this ▸ I

end TinyMesh
