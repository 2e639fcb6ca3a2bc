import Verif.Proof.Undo
import Verif.Props.Surface
/-
Taking an edit back (C116).
-/
set_option maxRecDepth 100000
namespace TinyMesh
open Sample
attribute [local instance] Sample.ratScalar

section
variable {F : Type} [Scalar F] {m m' m'' : Mesh F}

/-- C116: if an edge off the holes was flipped, flipping it again gives back the mesh that was, provided that the two corners beside the
edge had at least four neighbours. Otherwise the second flip is refused and changes nothing. -/
theorem c116_flip (g : m.Good) (h : Nat) (a : m.hAlive h = true) (n1 : m.hBd h = false) (n2 : m.hBd (m.hRev h) = false)
    (run : flipHE h m = .ok true m') {r s : Nat} (hr : m.HasTri (m.hSrc h) (m.hSrc (m.hNext h)) r)
    (hs : m.HasTri (m.hSrc (m.hNext h)) (m.hSrc h) s) :
    (flipHE h m' = .ok false m' ∧ (m.outDeg r < 4 ∨ m.outDeg s < 4)) ∨
    ∃ m'', flipHE h m' = .ok true m'' ∧ 4 ≤ m.outDeg r ∧ 4 ≤ m.outDeg s ∧ Restored m m'' := by
  have w := g.wf
  have T := tris_at g a n1 n2
  rw [← w.src_rev _ a] at hr hs
  obtain rfl := HasTri_unique g.simple T.1 hr
  obtain rfl := HasTri_unique g.simple T.2 hs
  rcases flip_again g a n1 n2 run with e | ⟨m2, e, d1, d2, D2, D, t⟩
  · exact Or.inl e
  · refine Or.inr ⟨m2, e, d1, d2, D.restored D2 (T.1.linked w).1 (fun _ _ => w.joined_symm) ?_ t⟩
    obtain ⟨-, -, c⟩ := (c13_flip_iff g h a (g.tri.onTri a n1) (g.tri.onTri (w.rev_alive _ a) n2)).1 ⟨_, run⟩
    rw [← w.src_rev _ a] at c
    exact c _ _ T.1 T.2

/-- C116: if an edge was split, and an edge from the new vertex `n` to one end `x` of it is collapsed, the mesh has as many elements as
before and the triangles that were, with the vertex `u` that stays in the place of `x`. All other vertices are where they were. If `x`
has more than four neighbours, `n` stays, and so the corner is now in the middle of the edge. -/
theorem c116_split (g : m.Good) (h : Nat) (a : m.hAlive h = true) (run : splitHE h m = .ok true m') {n x k : Nat}
    (fresh : m.vAlive n = false) (new : m'.vAlive n = true) (hx : x = m.hSrc h ∨ x = m.hSrc (m.hNext h)) (ak : m'.hAlive k = true)
    (ends : SamePair n x (m'.hSrc k) (m'.hSrc (m'.hNext k))) (run2 : collapseHE k m' = .ok true m'') :
    m''.Good ∧ m''.vs.length = m.vs.length ∧ m''.hes.length = m.hes.length ∧ m''.fs.length = m.fs.length ∧
    ∃ u, (u = n ∨ u = x) ∧ (∀ v, m''.vAlive v = true ↔ v = u ∨ (m.vAlive v = true ∧ v ≠ x)) ∧ (4 < m.outDeg x → u = n) ∧
      (∀ v, m.vAlive v = true → m''.vAlive v = true → m''.vPos v = m.vPos v ∧ m''.vLock v = m.vLock v) ∧
      (u = n → m''.vLock n = false ∧ ∃ p q, SamePair p q (m.hSrc h) (m.hSrc (m.hNext h)) ∧
        m''.vPos n = Vec3.smul (Scalar.lit 1 2) (Vec3.add (m.vPos p) (m.vPos q))) ∧
      ∀ (A : Type) (φ : Nat → Nat → Nat → A), Cyclic φ →
        m''.triVals φ = m.triVals (fun a b c => φ (renamed u x a) (renamed u x b) (renamed u x c)) := by
  have w := g.wf
  rcases splitHE_cases g a with e | ⟨m1, he, S⟩
  · rw [run] at e; cases e
  have e := S.run
  rw [run] at e
  cases e
  have d := S.done g
  obtain rfl : n = m.vFresh := by
    rcases d.only n new with e | e
    · rw [fresh] at e; cases e
    · exact e
  have P : SamePair (m.hSrc he) (m.hSrc (m.hRev he)) (m.hSrc h) (m.hSrc (m.hNext h)) := by
    rcases S.side with rfl | rfl
    · exact Or.inl ⟨rfl, w.src_rev _ a⟩
    · exact Or.inr ⟨w.src_rev _ a, by rw [w.rev_rev _ a]⟩
  have hx' : x = m.hSrc he ∨ x = m.hSrc (m.hRev he) := by
    rcases P with ⟨e1, e2⟩ | ⟨e1, e2⟩ <;> rw [e1, e2] <;> tauto
  have jj : m.Joined (m.hSrc he) (m.hSrc (m.hRev he)) := ⟨he, S.a, rfl, (w.src_rev _ S.a).symm⟩
  have ax : m.vAlive x = true := by
    rcases hx with rfl | rfl
    · exact w.src_alive _ a
    · exact w.src_alive _ (w.next_alive _ a)
  have deg : m'.outDeg x = m.outDeg x := by
    rcases hx' with rfl | rfl
    · exact d.deg_end g (Or.inl ⟨rfl, rfl⟩) jj
    · exact d.deg_end g (Or.inr ⟨rfl, rfl⟩) (w.joined_symm jj)
  have nx : m.vFresh ≠ x := by rintro rfl; rw [fresh] at ax; cases ax
  rcases collapse_step d.good ak with e | ⟨m2, u, v, e, C⟩ | ⟨e, -⟩ <;> rw [run2] at e <;> cases e
  have D := C.done
  have uv : (u = m.vFresh ∧ v = x) ∨ (u = x ∧ v = m.vFresh) := by
    have E := C.ends
    rw [d.good.wf.src_rev _ ak] at E
    rcases E with ⟨e1, e2⟩ | ⟨e1, e2⟩ <;> rcases ends with ⟨f1, f2⟩ | ⟨f1, f2⟩ <;> rw [e1, e2, f1, f2] <;> simp
  have al : ∀ y, m''.vAlive y = true ↔ y = u ∨ (m.vAlive y = true ∧ y ≠ x) := by
    intro y
    rw [D.alive]
    have h1 := d.only y
    have h2 := fun h => (d.keeps y h).1
    rcases uv with ⟨rfl, rfl⟩ | ⟨rfl, rfl⟩
    · constructor
      · rintro ⟨h3, h4⟩
        rcases h1 h3 with h5 | h5
        · exact Or.inr ⟨h5, h4⟩
        · exact Or.inl h5
      · rintro (rfl | ⟨h3, h4⟩)
        · exact ⟨new, nx⟩
        · exact ⟨h2 h3, h4⟩
    · constructor
      · rintro ⟨h3, h4⟩
        by_cases c : y = u
        · exact Or.inl c
        · exact Or.inr ⟨(h1 h3).resolve_right h4, c⟩
      · rintro (rfl | ⟨h3, h4⟩)
        · exact ⟨(d.keeps _ ax).1, nx.symm⟩
        · refine ⟨h2 h3, ?_⟩
          rintro rfl
          rw [fresh] at h3; cases h3
  refine ⟨D.good, ?_, ?_, ?_, u, ?_, al, ?_, ?_, ?_, fun A φ cy => S.back g hx' ak C uv cy⟩
  · have := D.nv; have := d.nv; omega
  · have := D.nh; have := d.nh; omega
  · have := D.nf; have := d.nf; omega
  · rcases uv with ⟨h, -⟩ | ⟨h, -⟩
    · exact Or.inl h
    · exact Or.inr h
  · intro h4
    rcases uv with ⟨h, -⟩ | ⟨e1, e2⟩
    · exact h
    · exfalso
      obtain ⟨p, q, sp, ap, aq, le⟩ := c15_collapse_keeps d.good k ak run2
      have dn := d.degree
      have pq : (p = m.vFresh ∧ q = x) ∨ (p = x ∧ q = m.vFresh) := by
        rcases sp with ⟨e1, e2⟩ | ⟨e1, e2⟩ <;> rcases ends with ⟨f1, f2⟩ | ⟨f1, f2⟩ <;> rw [e1, e2, f1, f2] <;> simp
      rcases pq with ⟨rfl, rfl⟩ | ⟨rfl, rfl⟩
      · exact ((D.alive _).1 ap).2 e2.symm
      · rw [dn, deg] at le; omega
  · intro y hy hy'
    obtain ⟨k1, k2⟩ := D.keeps y hy'
    obtain ⟨-, k3, k4⟩ := d.keeps y hy
    exact ⟨k1.trans k3, k2.trans k4⟩
  · rintro rfl
    obtain ⟨k1, k2⟩ := D.keeps _ ((al _).2 (Or.inl rfl))
    exact ⟨k2.trans d.unlocked, _, _, P, k1.trans d.pos⟩

end

/-- the first edge of an icosahedron, all of whose vertices have five neighbours, is flipped and flipped back -/
example : ∃ m m' m'' : Mesh Rat, construct icoV icoI fresh = .ok () m ∧ m.Good ∧ flipHE 1 m = .ok true m' ∧ flipHE 1 m' = .ok true m'' ∧
    Restored m m'' := by
  obtain ⟨_, m, b, m', h1, h2, h3⟩ := thenSt_iff (o := construct icoV icoI fresh) (f := flipHE 1)
    (p := fun m b _ => m.hAlive 1 && b && !m.hBd 1 && !m.hBd (m.hRev 1) && decide (4 ≤ m.outDeg (m.hSrc (m.hNext (m.hNext 1)))) &&
      decide (4 ≤ m.outDeg (m.hSrc (m.hNext (m.hNext (m.hRev 1)))))) (by decide +kernel)
  simp only [Bool.and_eq_true, Bool.not_eq_true', decide_eq_true_eq] at h3
  obtain ⟨⟨⟨⟨⟨ha, rfl⟩, n1⟩, n2⟩, d1⟩, d2⟩ := h3
  have g := c01_construct_consistent (Owned.empty dbl) h1
  have T := tris_at g ha n1 n2
  rw [g.wf.src_rev _ ha] at T
  rcases c116_flip g 1 ha n1 n2 h2 T.1 T.2 with ⟨-, k⟩ | ⟨m2, e, -, -, R⟩
  · omega
  · exact ⟨m, m', m2, h1, g, h2, e, R⟩

/-- an icosahedron with one triangle divided at a new vertex, which has three neighbours: an edge of the old triangle is flipped and cannot
be flipped back -/
example : ∃ m m' : Mesh Rat, construct (icoV ++ [pt 1 0 3]) ([0, 1, 12, 1, 8, 12, 8, 0, 12] ++ icoI.drop 3) fresh = .ok () m ∧ m.Good ∧
    flipHE 1 m = .ok true m' ∧ flipHE 1 m' = .ok false m' := by
  obtain ⟨_, m, b, m', h1, h2, h3⟩ := thenSt_iff (o := construct (icoV ++ [pt 1 0 3]) ([0, 1, 12, 1, 8, 12, 8, 0, 12] ++ icoI.drop 3) fresh)
    (f := flipHE 1) (p := fun m b _ => m.hAlive 1 && b && !m.hBd 1 && !m.hBd (m.hRev 1) &&
      decide (m.outDeg (m.hSrc (m.hNext (m.hNext 1))) = 3)) (by decide +kernel)
  simp only [Bool.and_eq_true, Bool.not_eq_true', decide_eq_true_eq] at h3
  obtain ⟨⟨⟨⟨ha, rfl⟩, n1⟩, n2⟩, d1⟩ := h3
  have g := c01_construct_consistent (Owned.empty dbl) h1
  have T := tris_at g ha n1 n2
  rw [g.wf.src_rev _ ha] at T
  rcases c116_flip g 1 ha n1 n2 h2 T.1 T.2 with ⟨e, -⟩ | ⟨m2, e, k, -, R⟩
  · exact ⟨m, m', h1, g, h2, e⟩
  · omega

/-- the first edge of an icosahedron is split and one half of it collapsed: the new vertex stays, an old one is gone -/
example : ∃ m m' m'' : Mesh Rat, construct icoV icoI fresh = .ok () m ∧ m.Good ∧ splitHE 1 m = .ok true m' ∧
    collapseHE 1 m' = .ok true m'' ∧ m''.vs.length = m.vs.length ∧ ∃ n x, m.vAlive n = false ∧ m''.vAlive n = true ∧ m.vAlive x = true ∧
      m''.vAlive x = false := by
  obtain ⟨_, m, b, m', h1, h2, h3⟩ := thenSt_iff (o := construct icoV icoI fresh) (f := splitHE 1)
    (p := fun m b m' => m.hAlive 1 && b && !m.vAlive m.vFresh && m'.vAlive m.vFresh && m'.hAlive 1 &&
      (match collapseHE 1 m' with
        | .ok c _ => c
        | _ => false) &&
      decide (4 < m.outDeg (m.hSrc 1)) && decide (4 < m.outDeg (m.hSrc (m.hNext 1))) &&
      (decide (m'.hSrc 1 = m.vFresh ∧ m'.hSrc (m'.hNext 1) = m.hSrc (m.hNext 1)) ||
        decide (m'.hSrc (m'.hNext 1) = m.vFresh ∧ m'.hSrc 1 = m.hSrc 1))) (by decide +kernel)
  simp only [Bool.and_eq_true, Bool.or_eq_true, Bool.not_eq_true', decide_eq_true_eq] at h3
  obtain ⟨⟨⟨⟨⟨⟨⟨⟨ha, rfl⟩, nf⟩, na⟩, hk⟩, hc⟩, d1⟩, d2⟩, he⟩ := h3
  have g := c01_construct_consistent (Owned.empty dbl) h1
  split at hc
  · rename_i c m2 e
    subst hc
    obtain ⟨x, hx, dx, ex⟩ : ∃ x, (x = m.hSrc 1 ∨ x = m.hSrc (m.hNext 1)) ∧ 4 < m.outDeg x ∧
        SamePair m.vFresh x (m'.hSrc 1) (m'.hSrc (m'.hNext 1)) := by
      rcases he with ⟨e1, e2⟩ | ⟨e1, e2⟩
      · exact ⟨_, Or.inr rfl, d2, Or.inl ⟨e1.symm, e2.symm⟩⟩
      · exact ⟨_, Or.inl rfl, d1, Or.inr ⟨e1.symm, e2.symm⟩⟩
    obtain ⟨-, k1, -, -, u, -, k2, k3, -⟩ := c116_split g 1 ha h2 nf na hx hk ex e
    have ax : m.vAlive x = true := by
      rcases hx with rfl | rfl
      · exact g.wf.src_alive _ ha
      · exact g.wf.src_alive _ (g.wf.next_alive _ ha)
    obtain rfl := k3 dx
    refine ⟨m, m', m2, h1, g, h2, e, k1, m.vFresh, x, nf, (k2 _).2 (Or.inl rfl), ax, ?_⟩
    cases hv : m2.vAlive x
    · rfl
    · rcases (k2 x).1 hv with rfl | ⟨-, h⟩
      · rw [nf] at ax; cases ax
      · exact absurd rfl h
  · cases hc

end TinyMesh
