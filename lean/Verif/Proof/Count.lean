import Verif.Proof.Query
/-
Counting half-edges: `numEdges` and the two handshake sums.
-/
namespace TinyMesh
variable {F : Type} {m : Mesh F}

/-- Counting list members by their key. -/
theorem sum_countP_key {f : Nat → Nat} {ks : List Nat} (nd : ks.Nodup) : ∀ (l : List Nat), (∀ x ∈ l, f x ∈ ks) →
    (ks.map (fun k => l.countP (fun x => f x == k))).sum = l.length
  | [], _ => by simp
  | x :: l, h => by
    have ih := sum_countP_key nd l (fun y hy => h y (List.mem_cons_of_mem _ hy))
    have hx := h x List.mem_cons_self
    have e : (ks.map (fun k => (x :: l).countP (fun x => f x == k))).sum =
        (ks.map (fun k => l.countP (fun x => f x == k))).sum + (ks.map (fun k => if f x == k then 1 else 0)).sum := by
      rw [← List.sum_map_add]
      congr 1
      apply List.map_congr_left
      intro k _
      rw [List.countP_cons]
    have e2 : (ks.map (fun k => if f x == k then 1 else 0)).sum = 1 := by
      clear e ih h
      induction ks with
      | nil => cases hx
      | cons a as ih =>
        rw [List.nodup_cons] at nd
        rw [List.map_cons, List.sum_cons]
        by_cases hxa : f x = a
        · have : ∀ k ∈ as, (if f x == k then 1 else 0) = 0 := by
            intro k hk
            have : f x ≠ k := fun h => nd.1 (hxa ▸ h ▸ hk)
            simp [this]
          have z : (as.map (fun k => if f x == k then 1 else 0)).sum = 0 := by
            rw [List.map_congr_left this]; simp
          rw [z]; simp [hxa]
        · rw [ih nd.2 (by rcases List.mem_cons.1 hx with h | h; exact absurd h hxa; exact h)]
          simp [hxa]
    rw [e, e2, ih]; rfl

theorem Mesh.WF.sum_outDeg (w : m.WF) : (m.vs.map m.outDeg).sum = m.hes.length :=
  sum_countP_key w.vDense.nodup _ (fun h hh => (w.vDense.mem _).2 (w.src_alive _ ((w.hDense.mem h).1 hh)))

theorem Mesh.WF.sum_sides (w : m.WF) : (m.fs.map m.sides).sum = m.hes.length :=
  sum_countP_key w.fDense.nodup _ (fun h hh => (w.fDense.mem _).2 (w.face_alive _ ((w.hDense.mem h).1 hh)))

theorem Mesh.WF.numEdgesLoop_ok (w : m.WF) : ∀ (l S : List Nat), (∀ h ∈ l, m.hAlive h = true) → S.Nodup →
    (∀ h ∈ S, m.hAlive h = true ∧ m.hRev h ∉ S) →
    ∃ S', numEdgesLoop l S m = .ok S' m ∧ S'.Nodup ∧ (∀ h ∈ S', m.hAlive h = true ∧ m.hRev h ∉ S') ∧
      (∀ h ∈ S, h ∈ S') ∧ ∀ h ∈ l, h ∈ S' ∨ m.hRev h ∈ S'
  | [], S, _, nd, hS => ⟨S, rfl, nd, hS, fun _ h => h, by simp⟩
  | h :: l, S, hl, nd, hS => by
    have ah := hl h List.mem_cons_self
    have hl' := fun x hx => hl x (List.mem_cons_of_mem _ hx)
    unfold numEdgesLoop
    simp only [bind_apply, getRev_ok ah]
    by_cases c : (S.contains h || S.contains (m.hRev h)) = true
    · rw [if_pos c]
      obtain ⟨S', e, n', p, q, r⟩ := w.numEdgesLoop_ok l S hl' nd hS
      refine ⟨S', e, n', p, q, ?_⟩
      intro x hx
      rcases List.mem_cons.1 hx with rfl | hx
      · simp only [Bool.or_eq_true, List.contains_iff_mem] at c
        exact c.imp (q _) (q _)
      · exact r x hx
    · rw [if_neg c]
      simp only [Bool.or_eq_true, List.contains_iff_mem, not_or] at c
      obtain ⟨S', e, n', p, q, r⟩ := w.numEdgesLoop_ok l (h :: S) hl' (List.nodup_cons.2 ⟨c.1, nd⟩) (by
        intro x hx
        rcases List.mem_cons.1 hx with rfl | hx
        · refine ⟨ah, fun hm => ?_⟩
          rcases List.mem_cons.1 hm with h1 | h1
          · exact w.rev_ne _ ah h1
          · exact c.2 h1
        · refine ⟨(hS x hx).1, fun hm => ?_⟩
          rcases List.mem_cons.1 hm with h1 | h1
          · apply c.2; rw [← h1, w.rev_rev _ (hS x hx).1]; exact hx
          · exact (hS x hx).2 h1)
      refine ⟨S', e, n', p, fun x hx => q x (List.mem_cons_of_mem _ hx), ?_⟩
      intro x hx
      rcases List.mem_cons.1 hx with rfl | hx
      · exact Or.inl (q _ List.mem_cons_self)
      · exact r x hx

theorem Mesh.WF.numEdges_ok (w : m.WF) : ∃ n, numEdges m = .ok n m ∧ 2 * n = m.hes.length := by
  obtain ⟨S, e, nd, p, _, r⟩ := w.numEdgesLoop_ok m.hes [] (fun h hh => (w.hDense.mem h).1 hh) List.nodup_nil (by simp)
  refine ⟨S.length, by simp [numEdges, e], ?_⟩
  have hp : m.hes.Perm (S ++ S.map m.hRev) := by
    rw [List.perm_ext_iff_of_nodup w.hDense.nodup]
    · intro x
      rw [List.mem_append, List.mem_map]
      constructor
      · intro hx
        rcases r x hx with h | h
        · exact Or.inl h
        · exact Or.inr ⟨_, h, w.rev_rev _ ((w.hDense.mem x).1 hx)⟩
      · rintro (h | ⟨y, hy, rfl⟩)
        · exact (w.hDense.mem x).2 (p x h).1
        · exact (w.hDense.mem _).2 (w.rev_alive _ (p y hy).1)
    · rw [List.nodup_append]
      refine ⟨nd, ?_, ?_⟩
      · rw [List.nodup_map_iff_inj_on nd]
        intro x hx y hy h
        rw [← w.rev_rev _ (p x hx).1, h, w.rev_rev _ (p y hy).1]
      · intro x hx y hy h
        obtain ⟨z, hz, rfl⟩ := List.mem_map.1 hy
        exact (p z hz).2 (h ▸ hx)
  rw [hp.length_eq, List.length_append, List.length_map]; omega

end TinyMesh
