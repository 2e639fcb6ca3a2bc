import Verif.Proof.Split
/-
`construct`, first loop: adding the triangles.
-/
set_option linter.unusedSimpArgs false
namespace TinyMesh
open Orbit
variable {F : Type} {m m' : Mesh F}

/-- links of a new half-edge `he` and its counterpart `rev` (`0`: none) -/
def linkRev (R : Nat → Nat) (he rev : Nat) : Nat → Nat :=
  fun x => if x = he then rev else if x = rev ∧ rev ≠ 0 then he else R x

/-- what `addCorner` changes -/
structure CornerRel (m m' : Mesh F) (f va rev : Nat) : Prop where
  hAlive : m'.hAlive = upd m.hAlive m.hFresh true
  hSrc : m'.hSrc = upd m.hSrc m.hFresh va
  hNext : m'.hNext = upd m.hNext m.hFresh 0
  hRev : m'.hRev = linkRev m.hRev m.hFresh rev
  hFace : m'.hFace = upd m.hFace m.hFresh f
  hIdx : m'.hIdx = upd m.hIdx m.hFresh (m.hes.length : Int)
  hBd : m'.hBd = upd m.hBd m.hFresh false
  hes : m'.hes = m.hes ++ [m.hFresh]
  hFresh : m'.hFresh = m.hFresh + 1
  vHe : m'.vHe = upd m.vHe va m.hFresh
  fHe : m'.fHe = upd m.fHe f m.hFresh
  vAlive : m'.vAlive = m.vAlive
  vPos : m'.vPos = m.vPos
  vIdx : m'.vIdx = m.vIdx
  vLock : m'.vLock = m.vLock
  vs : m'.vs = m.vs
  vFresh : m'.vFresh = m.vFresh
  fAlive : m'.fAlive = m.fAlive
  fIdx : m'.fIdx = m.fIdx
  fs : m'.fs = m.fs
  fFresh : m'.fFresh = m.fFresh
  indices : m'.indices = m.indices
  grow : m'.grow = m.grow
  hCap : m'.hCap = pushCap m.hes.length m.hCap m.grow

theorem addCorner_ok {f a b va : Nat} {pd : PD} (hf : m.fAlive f = true) (hv : m.vs[a]? = some va)
    (hva : m.vAlive va = true) (hp : pd.pair a b = 0) (hab : a ≠ b)
    (hr : pd.pair b a = 0 ∨ m.hAlive (pd.pair b a) = true) (hr' : pd.pair b a ≠ m.hFresh) :
    ∃ m', addCorner f a b pd m = .ok (m.hFresh, (pd.incDeg a).setPair a b m.hFresh) m' ∧
      CornerRel m m' f va (pd.pair b a) := by
  have h1 : (pd.incDeg a).pair a b = 0 := hp
  have h2 : ((pd.incDeg a).setPair a b m.hFresh).pair b a = pd.pair b a := by
    have : ¬ (b = a ∧ a = b) := fun h => hab h.2
    simp [PD.setPair, PD.incDeg, this]
  unfold addCorner
  simp only [h1, ne_eq, not_true_eq_false, if_false, bind_apply, newHalfedge, h2]
  rw [addHalfedge_ok (by simp [upd])]
  simp only [bind_apply, vsAt, hv, setVHe, hva, if_true, setSrc, upd_same, setFace, setFHe, hf]
  by_cases hz : pd.pair b a = 0
  · simp only [hz, not_true_eq_false, if_false, setRev, upd_same, if_true, pure_apply, bind_apply]
    refine ⟨_, rfl, ?_⟩
    constructor <;> (try rfl)
    all_goals (funext x; simp only [upd, linkRev]; by_cases h : x = m.hFresh <;> simp [h])
  · have hal := hr.resolve_left hz
    have hal2 : upd m.hAlive m.hFresh true (pd.pair b a) = true := by simp [upd, hal]
    simp only [hz, not_false_eq_true, if_true, setRev, upd_same, bind_apply, pure_apply, hal2]
    refine ⟨_, rfl, ?_⟩
    constructor <;> (try rfl)
    all_goals (
      funext x; simp only [upd, linkRev]
      by_cases h : x = m.hFresh
      · subst h
        simp [hr'.symm]
      · simp [h]
        try (by_cases h' : x = pd.pair b a <;> simp [h', hz]))

/-- the directed edges of a triangle -/
def Tri.HasEdge (t : Tri) (a b : Nat) : Prop := (a = t.a ∧ b = t.b) ∨ (a = t.b ∧ b = t.c) ∨ (a = t.c ∧ b = t.a)

theorem Tri.ne_of_degen {t : Tri} (h : t.degen = false) : t.a ≠ t.b ∧ t.b ≠ t.c ∧ t.c ≠ t.a := by
  simpa [Tri.degen, not_or, and_assoc] using h

/-- the table entries of one triangle added with the half-edges `H`, `H+1`, `H+2` -/
def PD.addTri (pd : PD) (t : Tri) (H : Nat) : PD :=
  ((((((pd.incDeg t.a).setPair t.a t.b H).incDeg t.b).setPair t.b t.c (H + 1)).incDeg t.c).setPair t.c t.a (H + 2))

/-- what adding one triangle changes -/
structure TriRel (m m' : Mesh F) (pd : PD) (t : Tri) (va vb vc : Nat) : Prop where
  hAlive : m'.hAlive = upd (upd (upd m.hAlive m.hFresh true) (m.hFresh + 1) true) (m.hFresh + 2) true
  hSrc : m'.hSrc = upd (upd (upd m.hSrc m.hFresh va) (m.hFresh + 1) vb) (m.hFresh + 2) vc
  N0 : m'.hNext m.hFresh = m.hFresh + 1
  N1 : m'.hNext (m.hFresh + 1) = m.hFresh + 2
  N2 : m'.hNext (m.hFresh + 2) = m.hFresh
  NO : ∀ h, h ≠ m.hFresh → h ≠ m.hFresh + 1 → h ≠ m.hFresh + 2 → m'.hNext h = m.hNext h
  hRev : m'.hRev = linkRev (linkRev (linkRev m.hRev m.hFresh (pd.pair t.b t.a)) (m.hFresh + 1) (pd.pair t.c t.b))
    (m.hFresh + 2) (pd.pair t.a t.c)
  hFace : m'.hFace = upd (upd (upd m.hFace m.hFresh m.fFresh) (m.hFresh + 1) m.fFresh) (m.hFresh + 2) m.fFresh
  hIdx : m'.hIdx = upd (upd (upd m.hIdx m.hFresh (m.hes.length : Int)) (m.hFresh + 1) (m.hes.length + 1 : Nat))
    (m.hFresh + 2) (m.hes.length + 2 : Nat)
  hBd : m'.hBd = upd (upd (upd m.hBd m.hFresh false) (m.hFresh + 1) false) (m.hFresh + 2) false
  hes : m'.hes = m.hes ++ [m.hFresh, m.hFresh + 1, m.hFresh + 2]
  hFresh : m'.hFresh = m.hFresh + 3
  vHe : m'.vHe = upd (upd (upd m.vHe va m.hFresh) vb (m.hFresh + 1)) vc (m.hFresh + 2)
  fHe0 : m'.fHe m.fFresh = m.hFresh + 2
  fHeO : ∀ f, f ≠ m.fFresh → m'.fHe f = m.fHe f
  vAlive : m'.vAlive = m.vAlive
  vPos : m'.vPos = m.vPos
  vIdx : m'.vIdx = m.vIdx
  vLock : m'.vLock = m.vLock
  vs : m'.vs = m.vs
  vFresh : m'.vFresh = m.vFresh
  fAlive : m'.fAlive = upd m.fAlive m.fFresh true
  fd : Dense m.fAlive m.fIdx m.fs → m.fAlive m.fFresh = false → Dense m'.fAlive m'.fIdx m'.fs
  fs : m'.fs = m.fs ++ [m.fFresh]
  fFresh : m'.fFresh = m.fFresh + 1
  indices : m'.indices = m.indices
  grow : m'.grow = m.grow
  hCap : m'.hCap = pushCap (m.hes.length + 2) (pushCap (m.hes.length + 1) (pushCap m.hes.length m.hCap m.grow) m.grow) m.grow

theorem addTri_dup {t : Tri} {pd : PD} (h : pd.pair t.a t.b ≠ 0 ∨ pd.pair t.b t.c ≠ 0 ∨ pd.pair t.c t.a ≠ 0) :
    addTri t pd m = .ok pd m := by
  unfold addTri
  simp [h]

theorem addTri_ok {t : Tri} {pd : PD} {va vb vc : Nat} (ht : t.degen = false)
    (hva : m.vs[t.a]? = some va) (hvb : m.vs[t.b]? = some vb) (hvc : m.vs[t.c]? = some vc)
    (aa : m.vAlive va = true) (ab : m.vAlive vb = true) (ac : m.vAlive vc = true)
    (hpd : ∀ a b, pd.pair a b ≠ 0 → m.hAlive (pd.pair a b) = true)
    (hB : ∀ h, m.hAlive h = true → 0 < h ∧ h < m.hFresh) (h0 : 0 < m.hFresh)
    (h1 : pd.pair t.a t.b = 0) (h2 : pd.pair t.b t.c = 0) (h3 : pd.pair t.c t.a = 0) :
    ∃ m', addTri t pd m = .ok (pd.addTri t m.hFresh) m' ∧ TriRel m m' pd t va vb vc := by
  obtain ⟨n1, n2, n3⟩ := Tri.ne_of_degen ht
  have hlt : ∀ a b, pd.pair a b < m.hFresh := by
    intro a b
    by_cases h : pd.pair a b = 0
    · omega
    · exact (hB _ (hpd a b h)).2
  unfold addTri
  simp only [h1, h2, h3, ne_eq, not_true_eq_false, or_self, if_false, bind_apply, newFace]
  obtain ⟨m1, hm1⟩ : ∃ m1 : Mesh F, m1 = { m with
    fAlive := upd m.fAlive m.fFresh true
    fHe := upd m.fHe m.fFresh 0
    fIdx := upd m.fIdx m.fFresh (-1)
    fFresh := m.fFresh + 1 } := ⟨_, rfl⟩
  rw [← hm1]
  obtain ⟨m2, e2, R2⟩ := addCorner_ok (m := m1) (f := m.fFresh) (a := t.a) (b := t.b) (va := va) (pd := pd)
    (by rw [hm1]; simp [upd]) (by rw [hm1]; exact hva) (by rw [hm1]; exact aa) h1 n1
    (by rw [hm1]; exact (Nat.eq_zero_or_pos _).imp_right (fun h => hpd _ _ (by omega)))
    (by rw [hm1]; have := hlt t.b t.a; simp only; omega)
  rw [e2]
  simp only
  have hF1 : m1.hFresh = m.hFresh := by rw [hm1]
  rw [hF1]
  have p1 : ((pd.incDeg t.a).setPair t.a t.b m.hFresh).pair t.b t.c = 0 := by
    simp only [PD.setPair, PD.incDeg]; rw [if_neg (fun h => n1 h.1.symm)]; exact h2
  have p2 : ((pd.incDeg t.a).setPair t.a t.b m.hFresh).pair t.c t.b = pd.pair t.c t.b := by
    simp only [PD.setPair, PD.incDeg]; rw [if_neg (fun h => n3 h.1)]
  obtain ⟨m3, e3, R3⟩ := addCorner_ok (m := m2) (f := m.fFresh) (a := t.b) (b := t.c) (va := vb)
    (pd := (pd.incDeg t.a).setPair t.a t.b m.hFresh)
    (by rw [R2.fAlive, hm1]; simp [upd]) (by rw [R2.vs, hm1]; exact hvb) (by rw [R2.vAlive, hm1]; exact ab) p1 n2
    (by rw [p2, R2.hAlive, hm1]; exact (Nat.eq_zero_or_pos _).imp_right (fun h => by
          have := hpd _ _ (show pd.pair t.c t.b ≠ 0 by omega)
          simp [upd, this]))
    (by rw [p2, R2.hFresh, hm1]; have := hlt t.c t.b; simp only; omega)
  rw [e3]
  simp only
  have hF2 : m2.hFresh = m.hFresh + 1 := by rw [R2.hFresh, hF1]
  rw [hF2]
  have q1 : ((((pd.incDeg t.a).setPair t.a t.b m.hFresh).incDeg t.b).setPair t.b t.c (m.hFresh + 1)).pair t.c t.a = 0 := by
    simp only [PD.setPair, PD.incDeg]
    rw [if_neg (fun h => n2 h.1.symm), if_neg (fun h => n3 h.1)]; exact h3
  have q2 : ((((pd.incDeg t.a).setPair t.a t.b m.hFresh).incDeg t.b).setPair t.b t.c (m.hFresh + 1)).pair t.a t.c = pd.pair t.a t.c := by
    simp only [PD.setPair, PD.incDeg]
    rw [if_neg (fun h => n1 h.1), if_neg (fun h => n2 h.2.symm)]
  obtain ⟨m4, e4, R4⟩ := addCorner_ok (m := m3) (f := m.fFresh) (a := t.c) (b := t.a) (va := vc)
    (pd := (((pd.incDeg t.a).setPair t.a t.b m.hFresh).incDeg t.b).setPair t.b t.c (m.hFresh + 1))
    (by rw [R3.fAlive, R2.fAlive, hm1]; simp [upd]) (by rw [R3.vs, R2.vs, hm1]; exact hvc)
    (by rw [R3.vAlive, R2.vAlive, hm1]; exact ac) q1 n3
    (by rw [q2, R3.hAlive, R2.hAlive, hm1]; exact (Nat.eq_zero_or_pos _).imp_right (fun h => by
          have := hpd _ _ (show pd.pair t.a t.c ≠ 0 by omega)
          simp [upd, this]))
    (by rw [q2, R3.hFresh, hF2]; have := hlt t.a t.c; omega)
  rw [e4]
  simp only
  have hF3 : m3.hFresh = m.hFresh + 2 := by rw [R3.hFresh, hF2]
  rw [hF3]
  have fal : m4.fAlive m.fFresh = true := by rw [R4.fAlive, R3.fAlive, R2.fAlive, hm1]; simp [upd]
  have al : m4.hAlive = upd (upd (upd m.hAlive m.hFresh true) (m.hFresh + 1) true) (m.hFresh + 2) true := by
    rw [R4.hAlive, R3.hAlive, R2.hAlive, hF3, hF2, hF1, hm1]
  have al0 : m4.hAlive m.hFresh = true := by rw [al]; simp [upd]
  have al1 : m4.hAlive (m.hFresh + 1) = true := by rw [al]; simp [upd]
  have al2 : m4.hAlive (m.hFresh + 2) = true := by rw [al]; simp [upd]
  rw [addFace_ok fal]
  simp only [setNext, al0, al1, al2, if_true, pure_apply]
  refine ⟨_, rfl, ?_⟩
  have hl1 : m1.hes.length = m.hes.length := by rw [hm1]
  have hl2 : m2.hes.length = m.hes.length + 1 := by rw [R2.hes, List.length_append, hl1]; rfl
  have hl3 : m3.hes.length = m.hes.length + 2 := by rw [R3.hes, List.length_append, hl2]; rfl
  constructor
  · exact al
  · simp only; rw [R4.hSrc, R3.hSrc, R2.hSrc, hF3, hF2, hF1, hm1]
  · simp [upd]
  · simp [upd]
  · simp [upd]
  · intro h k0 k1 k2
    simp only [upd, k0, k1, k2, if_false]
    rw [R4.hNext, R3.hNext, R2.hNext, hF3, hF2, hF1, hm1]
    simp only [upd, k0, k1, k2, if_false]
  · simp only; rw [R4.hRev, R3.hRev, R2.hRev, hF3, hF2, hF1, hm1, p2, q2]
  · simp only; rw [R4.hFace, R3.hFace, R2.hFace, hF3, hF2, hF1, hm1]
  · simp only; rw [R4.hIdx, R3.hIdx, R2.hIdx, hF3, hF2, hF1, hl3, hl2, hl1, hm1]
  · simp only; rw [R4.hBd, R3.hBd, R2.hBd, hF3, hF2, hF1, hm1]
  · simp only; rw [R4.hes, R3.hes, R2.hes, hF3, hF2, hF1, hm1]; simp
  · simp only; rw [R4.hFresh, hF3]
  · simp only; rw [R4.vHe, R3.vHe, R2.vHe, hF3, hF2, hF1, hm1]
  · simp only; rw [R4.fHe, hF3]; simp [upd]
  · intro f hf
    simp only; rw [R4.fHe, R3.fHe, R2.fHe, hm1]; simp [upd, hf]
  · simp only; rw [R4.vAlive, R3.vAlive, R2.vAlive, hm1]
  · simp only; rw [R4.vPos, R3.vPos, R2.vPos, hm1]
  · simp only; rw [R4.vIdx, R3.vIdx, R2.vIdx, hm1]
  · simp only; rw [R4.vLock, R3.vLock, R2.vLock, hm1]
  · simp only; rw [R4.vs, R3.vs, R2.vs, hm1]
  · simp only; rw [R4.vFresh, R3.vFresh, R2.vFresh, hm1]
  · simp only; rw [R4.fAlive, R3.fAlive, R2.fAlive, hm1]
  · intro d hd
    simp only
    rw [R4.fAlive, R3.fAlive, R2.fAlive, R4.fIdx, R3.fIdx, R2.fIdx, R4.fs, R3.fs, R2.fs, hm1]
    refine (d.push hd).congr (fun _ => rfl) ?_
    intro p _
    simp only [upd]
    by_cases h : p = m.fFresh <;> simp [h]
  · simp only; rw [R4.fs, R3.fs, R2.fs, hm1]
  · simp only; rw [R4.fFresh, R3.fFresh, R2.fFresh, hm1]
  · simp only; rw [R4.indices, R3.indices, R2.indices, hm1]
  · simp only; rw [R4.grow, R3.grow, R2.grow, hm1]
  · simp only; rw [R4.hCap, R3.hCap, R2.hCap, hl3, hl2, hl1, R3.grow, R2.grow, hm1]

end TinyMesh
