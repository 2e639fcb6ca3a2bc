import Verif.Proof.WholeB
import Verif.Spec.Whole
import Verif.Props.Start
/-
The context coherent completion as a whole (C118).
-/
namespace TinyMesh
variable {F : Type} [ScalarX F] {m m' : Mesh F}

theorem Mended.reworked (w : m.WF) (h : Mended m m') : m.Reworked m' := by
  refine ⟨h.shut, h.call.euler, h.call.pieces.pieces w, fun v a l => ?_, fun v a a' l => ?_⟩
  · rcases h.lk v a with ⟨-, k⟩ | ⟨k, -⟩
    · exact k
    · rw [l] at k; cases k
  · rcases h.lk v a' with ⟨k, -⟩ | ⟨-, k⟩
    · exact k
    · rw [k a] at l; cases l

/-- C118: whatever the libraries compute, if the iterations return, the mesh is again a closed mesh of triangles with the same pieces and
the same Euler characteristic, and no locked vertex has moved or become free. -/
theorem c118_rounds (s : m.Shut) {L : CohLib F} {radius : Int} {avgLen avgArea : F} {dims fuel iters : Nat} {hks : Nat → Option (List F)}
    (e : cohLoop L radius avgLen avgArea dims fuel iters hks m = .ok () m') : m.Reworked m' :=
  (Mends.cohLoop L radius avgLen avgArea dims fuel iters hks m () m' s e).reworked s.good.wf

/-- the second stage of the whole function -/
theorem contextCoherent_parts {L : CohLib F} (hh : OnlyReads L.heat) {fuel iters : Nat} (e : contextCoherent L fuel iters m = .ok () m') :
    ∃ l a m1 r dims hks, cohStart L.ordV L.solve fuel m = .ok (l, a) m1 ∧ cohLoop L r l a dims fuel iters hks m1 = .ok () m' := by
  unfold contextCoherent at e
  rw [bind_apply] at e
  split at e
  · next x m1 e1 =>
    obtain ⟨l, a⟩ := x
    dsimp only at e
    obtain ⟨r, -, e⟩ := OnlyReads.step (OnlyReads.patchRadiusM _) e
    obtain ⟨rows, -, e⟩ := OnlyReads.step hh e
    obtain ⟨hks, -, e⟩ := OnlyReads.step (OnlyReads.hksTable _) e
    exact ⟨l, a, m1, r, _, hks, e1, e⟩
  · cases e

theorem Mesh.ClosedUp.shut (C : m.ClosedUp m') (S : m'.Simple) : m'.Shut := by
  have t : ∀ h, m'.hAlive h = true → m'.OnTri h := by
    intro h a
    have af := C.wf.face_alive _ a
    have a0 := (C.wf.fHe_ok _ af).1
    have o := (C.wf.loop_length af).trans (C.tri _ af)
    have k : m'.hNext (m'.hNext (m'.hNext (m'.fHe (m'.hFace h)))) = m'.fHe (m'.hFace h) := by
      have := (C.wf.permNext.period_spec a0).2.1
      rw [← Orbit.length_orbit, o] at this
      exact this
    have mem := (C.wf.mem_loop af).2 ⟨a, rfl⟩
    rw [orbit_three o] at mem
    simp only [List.mem_cons, List.not_mem_nil, or_false] at mem
    unfold Mesh.OnTri
    rcases mem with e | e | e <;> rw [e, k]
  exact ⟨⟨C.wf, ⟨fun h a => .inl (t h a)⟩, S⟩, t, C.flag⟩

/-- C118: the whole function. If it returns, the first stage has returned a closed mesh of triangles in which just the vertices of the given
mesh are locked; if no edge of it is double, the result has the same pieces and the same Euler characteristic, its locked vertices are those
vertices of the given mesh that are left, and the ones that were not at a hole are where they were. -/
theorem c118_whole (H : m.Holed) {L : CohLib F} (ho : ∀ l, (L.ordV l).Perm l) (hh : OnlyReads L.heat) {fuel iters : Nat}
    (simple : ∀ l a m1, cohStart L.ordV L.solve fuel m = .ok (l, a) m1 → m1.Simple) (e : contextCoherent L fuel iters m = .ok () m') :
    ∃ l a m1, cohStart L.ordV L.solve fuel m = .ok (l, a) m1 ∧ m.ClosedUp m1 ∧ m1.Reworked m' ∧
      (∀ v, m'.vAlive v = true → (m'.vLock v = true ↔ m.vAlive v = true)) ∧
      ∀ v, m.vAlive v = true → m'.vAlive v = true → (∀ g, m.fAlive g = true → m.HoleFace g → ¬ m.CornerOf g v) → m'.vPos v = m.vPos v := by
  obtain ⟨l, a, m1, r, dims, hks, e1, e2⟩ := contextCoherent_parts hh e
  have C := c89_closed H ho e1
  have R := c118_rounds (C.shut (simple l a m1 e1)) e2
  refine ⟨l, a, m1, e1, C, R, fun v av => ⟨fun lk => ?_, fun av0 => ?_⟩, fun v av av' nc => ?_⟩
  · obtain ⟨a1, l1, -⟩ := R.still v av lk
    exact (C.lock v a1).1 l1
  · exact R.lock v (C.vert v av0) av ((C.lock v (C.vert v av0)).2 av0)
  · have l1 := R.lock v (C.vert v av) av' ((C.lock v (C.vert v av)).2 av)
    rw [(R.still v av' l1).2.2, C.still v av nc]

/-! ### Nothing to do -/

theorem stepTargets_nil (pos xx : Nat → Vec3 F) : stepTargets pos xx 0 [] = pure () := rfl

/-- C118: if all vertices are locked, an iteration that returns changes nothing. -/
theorem c118_locked (w : m.WF) (al : ∀ v, m.vAlive v = true → m.vLock v = true) {L : CohLib F} {radius : Int} {avgLen avgArea : F} {dims fuel : Nat} :
    ∀ {iters : Nat} {hks : Nat → Option (List F)}, cohLoop L radius avgLen avgArea dims fuel iters hks m = .ok () m' → m' = m
  | 0, _, e => by cases e; rfl
  | k + 1, hks, e => by
    unfold cohLoop at e
    rw [bind_apply] at e
    split at e
    · next h1 m1 e1 =>
      have : m1 = m := by
        unfold cohRound at e1
        obtain ⟨⟨ts, tgt⟩, k1, e1⟩ := OnlyReads.step (OnlyReads.targets _ _ _ _) e1
        have ht := targets_tgt w k1
        have : tgt = [] := List.eq_nil_iff_forall_not_mem.2 fun i hi => by
          obtain ⟨v, h1, h2⟩ := (ht i).1 hi
          rw [al v ((w.vDense.mem v).1 (List.mem_of_getElem? h1))] at h2
          cases h2
        subst this
        dsimp only at e1
        have r1 : OnlyReads (moveTargets L.solve ts []) := by
          unfold moveTargets
          exact .bind (.votes _) fun _ => .bind (.smoothOffsets _ _ _) fun _ => .pure _
        obtain ⟨_, -, e1⟩ := OnlyReads.step r1 e1
        have r2 : OnlyReads (repair avgLen avgArea fuel []) := by
          unfold repair
          exact .bind (.pure _) fun _ => .bind (.pure _) fun _ => .bind (.pure _) fun _ => .bind (.pure _) fun _ => .pure _
        obtain ⟨_, -, e1⟩ := OnlyReads.step r2 e1
        exact (OnlyReads.ite (.bind (.hksUpdate _ _) fun _ => .bind .verify fun _ => .pure _) (.bind (.pure _) fun _ => .bind .verify fun _ => .pure _)) m h1 m1 e1
      rw [this] at e
      exact c118_locked w al e
    · cases e

/-- C118: if the first stage adds no vertex, the rest of the function changes nothing. (That it adds none if all holes have three sides is
`c89_three`.) -/
theorem c118_idle (H : m.Holed) {L : CohLib F} (ho : ∀ l, (L.ordV l).Perm l) (hh : OnlyReads L.heat) {fuel iters : Nat}
    (none : ∀ l a m1, cohStart L.ordV L.solve fuel m = .ok (l, a) m1 → ∀ v, m1.vAlive v = true → m.vAlive v = true)
    (e : contextCoherent L fuel iters m = .ok () m') : m.ClosedUp m' ∧ (∀ v, m'.vAlive v = true → m'.vLock v = true) ∧ ∃ l a, cohStart L.ordV L.solve fuel m = .ok (l, a) m' := by
  obtain ⟨l, a, m1, r, dims, hks, e1, e2⟩ := contextCoherent_parts hh e
  have C := c89_closed H ho e1
  have al : ∀ v, m1.vAlive v = true → m1.vLock v = true := fun v av => (C.lock v av).2 (none l a m1 e1 v av)
  cases c118_locked C.wf al e2
  exact ⟨C, al, l, a, e1⟩

end TinyMesh
