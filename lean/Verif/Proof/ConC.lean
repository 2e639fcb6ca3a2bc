import Verif.Proof.ConB
import Verif.Spec.Build
/-
`construct`, first loop: all triangles.
-/
set_option linter.unusedSimpArgs false
namespace TinyMesh
open Orbit
variable {F : Type} {m m' : Mesh F}

theorem Tri.mem_edges (t : Tri) (a b : Nat) : (a, b) ∈ t.edges ↔ t.HasEdge a b := by
  simp [Tri.edges, Tri.HasEdge]

theorem capAfter_add (grow : Nat → Nat) : ∀ k n cap l, capAfter grow n cap (k + l) =
    capAfter grow (n + k) (capAfter grow n cap k) l := by
  intro k
  induction k with
  | zero => intro n cap l; simp [capAfter]
  | succ k ih =>
    intro n cap l
    rw [show k + 1 + l = (k + l) + 1 by omega]
    simp only [capAfter]
    rw [ih, show n + 1 + k = n + (k + 1) by omega]

/-- what the first loop does not change -/
structure AFrame (m m' : Mesh F) (k : Nat) : Prop where
  vAlive : m'.vAlive = m.vAlive
  vPos : m'.vPos = m.vPos
  vIdx : m'.vIdx = m.vIdx
  vLock : m'.vLock = m.vLock
  vs : m'.vs = m.vs
  vFresh : m'.vFresh = m.vFresh
  indices : m'.indices = m.indices
  grow : m'.grow = m.grow
  hCap : m'.hCap = capAfter m.grow m.hes.length m.hCap k
  hlen : m'.hes.length = m.hes.length + k

theorem AFrame.refl : AFrame m m 0 := by
  constructor <;> rfl

theorem AFrame.trans {m1 m2 m3 : Mesh F} {k l : Nat} (h : AFrame m1 m2 k) (h' : AFrame m2 m3 l) :
    AFrame m1 m3 (k + l) := by
  constructor
  · rw [h'.vAlive, h.vAlive]
  · rw [h'.vPos, h.vPos]
  · rw [h'.vIdx, h.vIdx]
  · rw [h'.vLock, h.vLock]
  · rw [h'.vs, h.vs]
  · rw [h'.vFresh, h.vFresh]
  · rw [h'.indices, h.indices]
  · rw [h'.grow, h.grow]
  · rw [h'.hCap, h.hCap, h.hlen, h.grow, capAfter_add]
  · rw [h'.hlen, h.hlen]; omega

theorem TriRel.frame {pd : PD} {t : Tri} {va vb vc : Nat} (R : TriRel m m' pd t va vb vc) : AFrame m m' 3 := by
  refine ⟨R.vAlive, R.vPos, R.vIdx, R.vLock, R.vs, R.vFresh, R.indices, R.grow, ?_, ?_⟩
  · rw [R.hCap]; rfl
  · rw [R.hes, List.length_append]; rfl

theorem keep_mem : ∀ (ts acc : List Tri) (t : Tri), t ∈ acc → t ∈ keepTris acc ts := by
  intro ts
  induction ts with
  | nil => intro acc t h; exact h
  | cons s ts ih =>
    intro acc t h
    simp only [keepTris]
    split
    · exact ih _ _ h
    · exact ih _ _ (by simp [h])

theorem addTri_range {t : Tri} {pd : PD} {acc : List Tri} (I : InvA m pd acc) (ht : t.degen = false)
    (h1 : pd.pair t.a t.b = 0) (h2 : pd.pair t.b t.c = 0) (h3 : pd.pair t.c t.a = 0)
    (hr : ¬ t.inRange m.vs.length) : addTri t pd m = .err .ub := by
  obtain ⟨n1, n2, n3⟩ := Tri.ne_of_degen ht
  have vmem : ∀ {i x : Nat}, m.vs[i]? = some x → m.vAlive x = true := fun h =>
    (I.vd.mem _).1 (List.mem_of_getElem? h)
  have hpd : ∀ a b, pd.pair a b ≠ 0 → m.hAlive (pd.pair a b) = true := fun a b h => (I.pair_ok a b h).1
  have hB := I.hB
  have hlt : ∀ a b, pd.pair a b < m.hFresh := by
    intro a b
    by_cases h : pd.pair a b = 0
    · have := I.h0; omega
    · exact (hB _ (hpd a b h)).2
  have bad : ∀ {m1 : Mesh F} {pd1 : PD} {f a b : Nat}, pd1.pair a b = 0 → m1.vs[a]? = none →
      addCorner f a b pd1 m1 = .err .ub := by
    intro m1 pd1 f a b hp hv
    have h1 : (pd1.incDeg a).pair a b = 0 := hp
    unfold addCorner
    simp only [h1, ne_eq, not_true_eq_false, if_false, bind_apply, newHalfedge]
    rw [addHalfedge_ok (by simp [upd])]
    simp only [bind_apply, vsAt, hv]
  unfold addTri
  simp only [h1, h2, h3, ne_eq, not_true_eq_false, or_self, if_false, bind_apply, newFace]
  obtain ⟨m1, hm1⟩ : ∃ m1 : Mesh F, m1 = { m with
    fAlive := upd m.fAlive m.fFresh true
    fHe := upd m.fHe m.fFresh 0
    fIdx := upd m.fIdx m.fFresh (-1)
    fFresh := m.fFresh + 1 } := ⟨_, rfl⟩
  rw [← hm1]
  cases hva : m.vs[t.a]? with
  | none => rw [bad h1 (by rw [hm1]; exact hva)]
  | some va =>
  obtain ⟨m2, e2, R2⟩ := addCorner_ok (m := m1) (f := m.fFresh) (a := t.a) (b := t.b) (va := va) (pd := pd)
    (by rw [hm1]; simp [upd]) (by rw [hm1]; exact hva) (by rw [hm1]; exact vmem hva) h1 n1
    (by rw [hm1]; exact (Nat.eq_zero_or_pos _).imp_right (fun h => hpd _ _ (by omega)))
    (by rw [hm1]; have := hlt t.b t.a; simp only; omega)
  rw [e2]
  simp only
  have hF1 : m1.hFresh = m.hFresh := by rw [hm1]
  rw [hF1]
  have p1 : ((pd.incDeg t.a).setPair t.a t.b m.hFresh).pair t.b t.c = 0 := by
    simp only [PD.setPair, PD.incDeg]; rw [if_neg (fun h => n1 h.1.symm)]; exact h2
  have p2 : ((pd.incDeg t.a).setPair t.a t.b m.hFresh).pair t.c t.b = pd.pair t.c t.b := by
    simp only [PD.setPair, PD.incDeg]; rw [if_neg (fun h => n3 h.1)]
  cases hvb : m.vs[t.b]? with
  | none => rw [bad p1 (by rw [R2.vs, hm1]; exact hvb)]
  | some vb =>
  obtain ⟨m3, e3, R3⟩ := addCorner_ok (m := m2) (f := m.fFresh) (a := t.b) (b := t.c) (va := vb)
    (pd := (pd.incDeg t.a).setPair t.a t.b m.hFresh)
    (by rw [R2.fAlive, hm1]; simp [upd]) (by rw [R2.vs, hm1]; exact hvb) (by rw [R2.vAlive, hm1]; exact vmem hvb) p1 n2
    (by rw [p2, R2.hAlive, hm1]; exact (Nat.eq_zero_or_pos _).imp_right (fun h => by
          have := hpd _ _ (show pd.pair t.c t.b ≠ 0 by omega)
          simp [upd, this]))
    (by rw [p2, R2.hFresh, hm1]; have := hlt t.c t.b; simp only; omega)
  rw [e3]
  simp only
  have hF2 : m2.hFresh = m.hFresh + 1 := by rw [R2.hFresh, hF1]
  rw [hF2]
  have q1 : ((((pd.incDeg t.a).setPair t.a t.b m.hFresh).incDeg t.b).setPair t.b t.c (m.hFresh + 1)).pair t.c t.a = 0 := by
    simp only [PD.setPair, PD.incDeg]
    rw [if_neg (fun h => n2 h.1.symm), if_neg (fun h => n3 h.1)]; exact h3
  cases hvc : m.vs[t.c]? with
  | none => rw [bad q1 (by rw [R3.vs, R2.vs, hm1]; exact hvc)]
  | some vc =>
    exfalso
    apply hr
    exact ⟨(List.getElem?_eq_some_iff.1 hva).1, (List.getElem?_eq_some_iff.1 hvb).1, (List.getElem?_eq_some_iff.1 hvc).1⟩

theorem addTris_spec : ∀ (ts : List Tri) (m : Mesh F) (pd : PD) (acc : List Tri), InvA m pd acc →
    (∀ t ∈ ts, t.degen = false) →
    (∃ m' pd', addTris ts pd m = .ok pd' m' ∧ InvA m' pd' (keepTris acc ts) ∧
      ∃ k, AFrame m m' k) ∨
    (addTris ts pd m = .err .ub ∧ ∃ t ∈ keepTris acc ts, ¬ t.inRange m.vs.length) := by
  intro ts
  induction ts with
  | nil => intro m pd acc I _; exact Or.inl ⟨m, pd, rfl, I, 0, AFrame.refl⟩
  | cons t ts ih =>
    intro m pd acc I hnd
    have ht := hnd t (by simp)
    have hts : ∀ s ∈ ts, s.degen = false := fun s hs => hnd s (by simp [hs])
    have hdup : (t.edges.any (fun e => acc.any (fun s => s.edges.contains e))) = true ↔
        (pd.pair t.a t.b ≠ 0 ∨ pd.pair t.b t.c ≠ 0 ∨ pd.pair t.c t.a ≠ 0) := by
      rw [I.pair_iff, I.pair_iff, I.pair_iff]
      simp only [← Tri.mem_edges]
      simp [Tri.edges]
    simp only [addTris, bind_apply, keepTris]
    by_cases hd : (t.edges.any (fun e => acc.any (fun s => s.edges.contains e))) = true
    · rw [if_pos hd, addTri_dup (hdup.1 hd)]
      exact ih m pd acc I hts
    · rw [if_neg hd]
      rw [hdup] at hd
      simp only [not_or, not_not] at hd
      obtain ⟨p1, p2, p3⟩ := hd
      by_cases hr : t.inRange m.vs.length
      · obtain ⟨r1, r2, r3⟩ := hr
        have vmem : ∀ {i x : Nat}, m.vs[i]? = some x → m.vAlive x = true := fun h =>
          (I.vd.mem _).1 (List.mem_of_getElem? h)
        have g1 := List.getElem?_eq_getElem r1
        have g2 := List.getElem?_eq_getElem r2
        have g3 := List.getElem?_eq_getElem r3
        obtain ⟨m1, e1, R1⟩ := addTri_ok ht g1 g2 g3 (vmem g1) (vmem g2) (vmem g3)
          (fun a b h => (I.pair_ok a b h).1) I.hB I.h0 p1 p2 p3
        rw [e1]
        have I1 := I.addTri ht g1 g2 g3 p1 p2 p3 R1
        rcases ih m1 _ _ I1 hts with ⟨m', pd', e, J, k, fr⟩ | ⟨e, s, hs, hs'⟩
        · exact Or.inl ⟨m', pd', e, J, _, R1.frame.trans fr⟩
        · exact Or.inr ⟨e, s, hs, by rw [← R1.vs]; exact hs'⟩
      · right
        rw [addTri_range I ht p1 p2 p3 hr]
        exact ⟨rfl, t, keep_mem _ _ _ (by simp), hr⟩

end TinyMesh
