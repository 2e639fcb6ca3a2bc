import Verif.Proof.EditB
/-
`flipHE` for an arbitrary half-edge, including edges of holes.
-/
namespace TinyMesh
open Orbit
variable {F : Type} [Scalar F] {m m' : Mesh F}

theorem flipHE_gen (w : m.WF) {he : Nat} (a : m.HA he) :
    flipHE he m = .ok false m ∨ flipHE he m = .ok true (flipState m he) := by
  have ar := w.rev_alive _ a
  have a0 := w.next_alive _ a
  have a1 := w.next_alive _ a0
  have a2 := w.next_alive _ ar
  have a3 := w.next_alive _ a2
  have hr0 : (m.hRev he != 0) = true := by simpa using w.ne0 ar
  obtain ⟨pa, apa, npa, epa⟩ := w.getPrev_ok a
  obtain ⟨pb, apb, npb, epb⟩ := w.getPrev_ok ar
  have hfound : circ ringStep (m.vHe (m.hSrc pa)) false (fun x _ => do
      let d ← getDst x
      pure (d == m.hSrc pb, d == m.hSrc pb)) m
      = .ok (m.adjB (m.hSrc pa) (m.hSrc pb)) m := by
    refine (w.circ_ring (w.src_alive _ apa) (fun x _ => (m.hSrc (m.hNext x) == m.hSrc pb,
        m.hSrc (m.hNext x) == m.hSrc pb))
      (fun x hx b => by simp [getDst_ok hx (w.next_alive _ hx)]) _).trans ?_
    rw [foldPure_any]; rfl
  have v0 := w.src_alive _ a0
  have v2 := w.src_alive _ a2
  have f0 := w.face_alive _ a
  have f1 := w.face_alive _ ar
  unfold flipHE
  simp only [bind_apply, getRev_ok a, assert_true hr0, getSrc_ok a, epa, getSrc_ok apa, getSrc_ok ar,
    epb, getSrc_ok apb, w.degree_ok (w.src_alive _ a)]
  by_cases h0 : m.outDeg (m.hSrc he) ≤ 4
  · simp [h0]
  simp only [h0, if_false, bind_apply, w.degree_ok (w.src_alive _ ar), false_or]
  by_cases h2 : m.outDeg (m.hSrc (m.hRev he)) ≤ 4
  · simp [h2]
  simp only [h2, if_false, bind_apply, getVHe_ok (w.src_alive _ apa), false_or]
  rw [hfound]
  by_cases h3 : m.adjB (m.hSrc pa) (m.hSrc pb) = true
  · simp [h3]
  right
  simp only [h3]
  simp [getNext_ok a, getNext_ok a0, getNext_ok ar, getNext_ok a2, getSrc_ok, getFace_ok, a, a0, a1, a2, a3, ar,
    setVHe, setSrc, setNext, setFHe, setFace, v0, v2, f0, f1, flipState]

theorem onTri_prev (w : m.WF) {h : Nat} (a : m.HA h) (t : m.OnTri (m.hNext h)) : m.OnTri h := by
  unfold Mesh.OnTri at *
  have a1 := w.next_alive _ a
  have a2 := w.next_alive _ a1
  exact w.next_inj _ _ (w.next_alive _ a2) a t

/-- A face loop that is not a triangle has at least four sides. -/
theorem not_onTri_two (g : m.Good) {h : Nat} (a : m.HA h) (t : ¬ m.OnTri h) (t' : m.OnTri (m.hRev h)) :
    m.hNext (m.hNext h) ≠ h := by
  intro e
  have w := g.wf
  have a1 := w.next_alive _ a
  have ar := w.rev_alive _ a
  -- the loop runs from an end to the other and back along a second edge
  have : m.hNext h = m.hRev h := g.simple.no_dup _ _ a1 ar (by rw [w.src_rev _ a]) (by
    rw [e, ← w.src_rev _ ar, w.rev_rev _ a])
  exact t (onTri_prev w a (by rw [this]; exact t'))

theorem flip_bad_rev (g : m.Good) {he : Nat} (a : m.HA he) (t : m.OnTri he) (t' : ¬ m.OnTri (m.hRev he)) :
    ¬ (flipState m he).WF := by
  intro w'
  have w := g.wf
  have ar := w.rev_alive _ a
  obtain ⟨q, aq, nq, -⟩ := w.getPrev_ok ar
  have tq : ¬ m.OnTri q := fun h => t' (by rw [← nq]; exact Mesh.WF.onTri_next h)
  have t0 := Mesh.WF.onTri_next t
  have t1 := Mesh.WF.onTri_next t0
  have c1 : q ≠ he := fun h => tq (h ▸ t)
  have c2 : q ≠ m.hNext he := fun h => tq (h ▸ t0)
  have c3 : q ≠ m.hNext (m.hNext he) := fun h => tq (h ▸ t1)
  have n2 := not_onTri_two g ar t' (by rw [w.rev_rev _ a]; exact t)
  have c4 : q ≠ m.hRev he := fun h => by
    rw [h] at nq; exact n2 (by rw [nq, nq])
  have c5 : q ≠ m.hNext (m.hRev he) := fun h => n2 (by rw [← h]; exact nq)
  have c6 : q ≠ m.hNext (m.hNext (m.hRev he)) := fun h => t' (by unfold Mesh.OnTri; rw [← h]; exact nq)
  have e1 : (flipState m he).hNext q = m.hRev he := by
    simp only [flipState, upd, c1, c2, c3, c4, c5, c6, if_false]; exact nq
  have e2 : (flipState m he).hNext (m.hNext he) = m.hRev he := by simp [flipState, upd]
  exact c2 (w'.next_inj _ _ aq (w.next_alive _ a) (e1.trans e2.symm))

theorem flip_bad_self (g : m.Good) {he : Nat} (a : m.HA he) (t : ¬ m.OnTri he) (t' : m.OnTri (m.hRev he)) :
    ¬ (flipState m he).WF := by
  intro w'
  have w := g.wf
  have ar := w.rev_alive _ a
  obtain ⟨q, aq, nq, -⟩ := w.getPrev_ok a
  have tq : ¬ m.OnTri q := fun h => t (by rw [← nq]; exact Mesh.WF.onTri_next h)
  have tq' : ¬ m.OnTri (m.hNext he) := fun h => t (onTri_prev w a h)
  have t0 := Mesh.WF.onTri_next t'
  have t1 := Mesh.WF.onTri_next t0
  have c1 : q ≠ m.hRev he := fun h => tq (h ▸ t')
  have c2 : q ≠ m.hNext (m.hRev he) := fun h => tq (h ▸ t0)
  have c3 : q ≠ m.hNext (m.hNext (m.hRev he)) := fun h => tq (h ▸ t1)
  have n2 := not_onTri_two g a t t'
  have c4 : q ≠ he := fun h => by
    rw [h] at nq; exact n2 (by rw [nq, nq])
  have c5 : q ≠ m.hNext he := fun h => n2 (by rw [← h]; exact nq)
  have c6 : q ≠ m.hNext (m.hNext he) := fun h => t (by unfold Mesh.OnTri; rw [← h]; exact nq)
  have e1 : (flipState m he).hNext q = he := by
    simp only [flipState, upd, c1, c2, c3, c4, c5, c6, if_false]; exact nq
  have l2 := g.simple.no_loop _ ar
  have l3 := g.simple.no_loop _ (w.next_alive _ ar)
  have d1 : m.hNext (m.hRev he) ≠ m.hNext he := fun h => tq' (h ▸ t0)
  have d2 : m.hNext (m.hRev he) ≠ m.hNext (m.hNext (m.hRev he)) := fun h => l3 (congrArg m.hSrc h)
  have d3 : m.hNext (m.hRev he) ≠ m.hRev he := fun h => l2 (congrArg m.hSrc h.symm)
  have e2 : (flipState m he).hNext (m.hNext (m.hRev he)) = he := by
    simp [flipState, upd, d1, d2, d3]
  exact c2 (w'.next_inj _ _ aq (w.next_alive _ ar) (e1.trans e2.symm))

/-- Flipping is sound exactly for edges with triangles on both sides. -/
theorem flipHE_exact (g : m.Good) {he : Nat} (a : m.HA he) :
    flipHE he m = .ok false m ∨ ∃ m', flipHE he m = .ok true m' ∧ (m'.WF ↔ m.OnTri he ∧ m.OnTri (m.hRev he)) ∧
      (m.OnTri he ∧ m.OnTri (m.hRev he) → m'.Good) := by
  by_cases t : m.OnTri he ∧ m.OnTri (m.hRev he)
  · rcases flipHE_cases g a t.1 t.2 with h | ⟨m', e, -, d⟩
    · exact Or.inl h
    · exact Or.inr ⟨m', e, ⟨fun _ => t, fun _ => d.good.wf⟩, fun _ => d.good⟩
  · rcases flipHE_gen g.wf a with h | h
    · exact Or.inl h
    · refine Or.inr ⟨_, h, ⟨fun w' => absurd w' ?_, fun h => absurd h t⟩, fun h => absurd h t⟩
      by_cases t1 : m.OnTri he
      · exact flip_bad_rev g a t1 (fun h => t ⟨t1, h⟩)
      · apply flip_bad_self g a t1
        rcases g.tri.holds he a with h1 | h1
        · exact absurd h1 t1
        · exact (h1 he a rfl).2.2

end TinyMesh
