import Verif.Proof.ConK
/-
`getVertexIndices` on a constructed mesh.
-/
set_option linter.unusedSimpArgs false
namespace TinyMesh
open Orbit
variable {F : Type} {m m' m0 : Mesh F}

theorem vertexIndicesLoop_ok (w : m.WF) (r : Nat → Option (Int × Int × Int)) : ∀ fs : List Nat,
    (∀ f ∈ fs, m.fAlive f = true ∧
      ((r f = none ∧ ∀ x, m.HA x → m.hFace x = f → m.hBd x = true) ∨
       (m.OnTri (m.fHe f) ∧ (∃ x, m.HA x ∧ m.hFace x = f ∧ m.hBd x = false) ∧
        r f = some (m.vIdx (m.hSrc (m.fHe f)), m.vIdx (m.hSrc (m.hNext (m.fHe f))),
          m.vIdx (m.hSrc (m.hNext (m.hNext (m.fHe f)))))))) →
    vertexIndicesLoop fs m = .ok (fs.filterMap r) m := by
  intro fs
  induction fs with
  | nil => intro _; rfl
  | cons f fs ih =>
    intro h
    obtain ⟨af, hf⟩ := h f (by simp)
    have ih := ih (fun g hg => h g (by simp [hg]))
    obtain ⟨ah, hfa⟩ := w.fHe_ok f af
    simp only [vertexIndicesLoop, bind_apply, w.fIsHole_ok af]
    rcases hf with ⟨hr, hall⟩ | ⟨tr, ⟨x, ax, hx, hb⟩, hr⟩
    · have : (orbit m.hNext (m.fHe f)).all m.hBd = true := by
        rw [List.all_eq_true]
        intro x hx
        have := (w.mem_loop af).1 hx
        exact hall x this.1 this.2
      simp only [this, if_true, ih, List.filterMap_cons, hr]
    · have : (orbit m.hNext (m.fHe f)).all m.hBd = false := by
        rw [← Bool.not_eq_true, List.all_eq_true]
        intro hc
        have := hc x ((w.mem_loop af).2 ⟨ax, hx⟩)
        rw [hb] at this; cases this
      obtain ⟨q, aq, hq, eq⟩ := w.getPrev_ok ah
      have an := w.next_alive _ ah
      have ann := w.next_alive _ an
      have hqe : q = m.hNext (m.hNext (m.fHe f)) := w.next_inj _ _ aq ann (by rw [hq]; exact tr.symm)
      subst hqe
      simp only [this, if_false, Bool.false_eq_true, bind_apply, getFHe_ok af, getSrc_ok ah,
        getVIdx_ok (w.src_alive _ ah), getNext_ok ah, getSrc_ok an, getVIdx_ok (w.src_alive _ an), eq, getSrc_ok aq,
        getVIdx_ok (w.src_alive _ aq), ih, pure_apply, List.filterMap_cons, hr]

/-- which triple a triangle is reported as -/
def Tri.report (K : List Tri) (t : Tri) : Option (Int × Int × Int) :=
  if t.isolated K then none else some ((t.c : Int), (t.a : Int), (t.b : Int))

theorem Built.report {ts K : List Tri} (B : Built m ts K m') :
    getVertexIndices m' = .ok (K.filterMap (Tri.report K)) m' := by
  obtain ⟨mA, pd, V0, g, mC, V, I, hvs, C, rfl⟩ := B.phases
  have w := B.good.wf
  have hfs : mC.fs = mA.fs ++ List.range' mA.fFresh (mC.fFresh - mA.fFresh) := C.fs
  have wB : ∀ h, mA.HA h → mC.HA h := fun h a => C.alT a
  -- flags
  have bdp : ∀ a b, pd.pair a b ≠ 0 → (mC.hBd (pd.pair a b) = true ↔ pd.pair b a = 0) := by
    intro a b hp
    have al := (I.pair_ok a b hp).1
    have hr := I.rev_pair hp
    constructor
    · intro hb
      by_contra h
      have := (C.rT _ al (by show mA.hRev _ ≠ 0; rw [hr]; exact h)).2
      rw [this] at hb; cases hb
    · intro h
      exact (C.bnd_rev ⟨al, by show mA.hRev _ = 0; rw [hr, h]⟩).2.2.2
  have opp : ∀ a b, (K.any fun s => s.edges.contains (b, a)) = true ↔ pd.pair b a ≠ 0 := by
    intro a b
    rw [I.pair_iff]
    simp [← Tri.mem_edges]
  have idx : ∀ a b, pd.pair a b ≠ 0 → mC.vIdx (mC.hSrc (pd.pair a b)) = (a : Int) := by
    intro a b hp
    obtain ⟨al, hs, _⟩ := I.pair_ok a b hp
    rw [C.sT _ al, C.vIdx]
    obtain ⟨hlt, e⟩ := List.getElem?_eq_some_iff.1 hs
    have := I.vd.idx a hlt
    rw [e] at this
    exact this
  let r : Nat → Option (Int × Int × Int) := fun f =>
    if f < mA.fFresh then (K[(mC.fIdx f).toNat]?).bind (Tri.report K) else none
  have hidx : ∀ i (hi : i < mA.fs.length), mC.fIdx mA.fs[i] = (i : Int) := by
    intro i hi
    have hlen : i < mC.fs.length := by rw [hfs, List.length_append]; omega
    have := C.fd.idx i hlen
    have e : mC.fs[i] = mA.fs[i] := by
      have h1 : mC.fs[i]? = mA.fs[i]? := by rw [hfs, List.getElem?_append_left hi]
      rw [List.getElem?_eq_getElem hlen, List.getElem?_eq_getElem hi] at h1
      exact Option.some.inj h1
    rw [e] at this
    exact this
  have hrA : ∀ i (hi : i < mA.fs.length), r mA.fs[i] = (K[i]?).bind (Tri.report K) := by
    intro i hi
    have := (I.fB _ ((I.fd.mem _).1 (List.getElem_mem hi))).2
    simp only [r, if_pos this, hidx i hi, Int.toNat_natCast]
  have hloop := vertexIndicesLoop_ok (m := { mC with vHe := V }) w r mC.fs (by
    intro f hf
    have af : mC.fAlive f = true := (C.fd.mem f).1 hf
    refine ⟨af, ?_⟩
    rw [hfs, List.mem_append] at hf
    rcases hf with hf | hf
    · obtain ⟨i, hi, e⟩ := List.getElem_of_mem hf
      have hiK : i < K.length := by rw [← I.len]; exact hi
      obtain ⟨t, htK⟩ : ∃ t, K[i] = t := ⟨_, rfl⟩
      have htm : t ∈ K := htK ▸ List.getElem_mem hiK
      have hKi : K[i]? = some t := by rw [List.getElem?_eq_getElem hiK, htK]
      obtain ⟨g1, g2, g3⟩ := I.faces i hi t hKi
      have afA : mA.fAlive f = true := by rw [← e]; exact (I.fd.mem _).1 (List.getElem_mem hi)
      have hfe : mC.fHe f = pd.pair t.c t.a := by rw [C.fOld f afA, ← g1, ← e]
      have p1 := I.pair_edge htm (Or.inl ⟨rfl, rfl⟩)
      have p2 := I.pair_edge htm (Or.inr (Or.inl ⟨rfl, rfl⟩))
      have p3 := I.pair_edge htm (Or.inr (Or.inr ⟨rfl, rfl⟩))
      have a1 := (I.pair_ok _ _ p1).1
      have a2 := (I.pair_ok _ _ p2).1
      have a3 := (I.pair_ok _ _ p3).1
      have n3 : mC.hNext (pd.pair t.c t.a) = pd.pair t.a t.b := by rw [C.nT _ a3]; exact g2
      have n1 : mC.hNext (pd.pair t.a t.b) = pd.pair t.b t.c := by rw [C.nT _ a1]; exact g3
      have n2 : mC.hNext (pd.pair t.b t.c) = pd.pair t.c t.a := by
        rw [C.nT _ a2]
        exact I.next_pair htm (Or.inr (Or.inl ⟨rfl, rfl⟩)) (Or.inr (Or.inr ⟨rfl, rfl⟩))
      have tr : mC.hNext (mC.hNext (mC.hNext (mC.fHe f))) = mC.fHe f := by rw [hfe, n3, n1, n2]
      have hfHe := (w.fHe_ok f af).2
      have hfHe : mC.hFace (mC.fHe f) = f := hfHe
      have loop : ∀ x, mC.HA x → mC.hFace x = f → x = pd.pair t.c t.a ∨ x = pd.pair t.a t.b ∨ x = pd.pair t.b t.c := by
        intro x ax hx
        have := w.tri_face (h := mC.fHe f) (w.fHe_ok f af).1 tr ax (by show mC.hFace x = mC.hFace _; rw [hfHe, hx])
        have this : x = mC.fHe f ∨ x = mC.hNext (mC.fHe f) ∨ x = mC.hNext (mC.hNext (mC.fHe f)) := this
        rw [hfe, n3, n1] at this
        exact this
      have fc3 : mC.hFace (pd.pair t.c t.a) = f := by rw [← hfe]; exact hfHe
      have fc1 : mC.hFace (pd.pair t.a t.b) = f := by
        rw [← n3]; exact (w.face_next _ (wB _ a3)).trans fc3
      have fc2 : mC.hFace (pd.pair t.b t.c) = f := by
        rw [← n1]; exact (w.face_next _ (wB _ a1)).trans fc1
      have hrf : r f = Tri.report K t := by rw [← e, hrA i hi, hKi]; rfl
      have iso : t.isolated K = true ↔ pd.pair t.b t.a = 0 ∧ pd.pair t.c t.b = 0 ∧ pd.pair t.a t.c = 0 := by
        have e1 := opp t.a t.b
        have e2 := opp t.b t.c
        have e3 := opp t.c t.a
        simp only [Tri.isolated, Tri.edges, List.all_cons, List.all_nil, Bool.and_true, Bool.and_eq_true, Bool.not_eq_true',
          ← Bool.not_eq_true]
        rw [show (K.any fun s => [(s.a, s.b), (s.b, s.c), (s.c, s.a)].contains (t.b, t.a)) = (K.any fun s => s.edges.contains (t.b, t.a)) from rfl,
          show (K.any fun s => [(s.a, s.b), (s.b, s.c), (s.c, s.a)].contains (t.c, t.b)) = (K.any fun s => s.edges.contains (t.c, t.b)) from rfl,
          show (K.any fun s => [(s.a, s.b), (s.b, s.c), (s.c, s.a)].contains (t.a, t.c)) = (K.any fun s => s.edges.contains (t.a, t.c)) from rfl,
          e1, e2, e3, not_not, not_not, not_not]
      cases hiso : t.isolated K with
      | true =>
        left
        obtain ⟨i1, i2, i3⟩ := iso.1 hiso
        refine ⟨by rw [hrf]; simp [Tri.report, hiso], ?_⟩
        intro x ax hx
        show mC.hBd x = true
        rcases loop x ax hx with rfl | rfl | rfl
        · exact (bdp _ _ p3).2 i3
        · exact (bdp _ _ p1).2 i1
        · exact (bdp _ _ p2).2 i2
      | false =>
        right
        refine ⟨tr, ?_, ?_⟩
        · have hno : ¬ (pd.pair t.b t.a = 0 ∧ pd.pair t.c t.b = 0 ∧ pd.pair t.a t.c = 0) := by
            rw [← iso, hiso]; simp
          have nb : ∀ x y, pd.pair x y ≠ 0 → pd.pair y x ≠ 0 → mC.hBd (pd.pair x y) = false := by
            intro x y h1 h2
            rw [← Bool.not_eq_true, bdp x y h1]; exact h2
          by_cases c1 : pd.pair t.b t.a = 0
          · by_cases c2 : pd.pair t.c t.b = 0
            · have c3 : pd.pair t.a t.c ≠ 0 := fun h => hno ⟨c1, c2, h⟩
              exact ⟨_, wB _ a3, fc3, nb _ _ p3 c3⟩
            · exact ⟨_, wB _ a2, fc2, nb _ _ p2 c2⟩
          · exact ⟨_, wB _ a1, fc1, nb _ _ p1 c1⟩
        · show r f = some (mC.vIdx (mC.hSrc (mC.fHe f)), mC.vIdx (mC.hSrc (mC.hNext (mC.fHe f))),
            mC.vIdx (mC.hSrc (mC.hNext (mC.hNext (mC.fHe f)))))
          rw [hrf, hfe, n3, n1, idx _ _ p3, idx _ _ p1, idx _ _ p2]
          simp [Tri.report, hiso]
    · left
      rw [List.mem_range'_1] at hf
      refine ⟨by simp only [r]; rw [if_neg (by omega)], ?_⟩
      intro x ax hx
      show mC.hBd x = true
      have hx : mC.hFace x = f := hx
      rcases (C.hal x).1 ax with h1 | h1
      · have := (C.T.fB _ (C.T.face_alive x h1)).2
        rw [C.fT x h1] at hx
        have h2 : mA.hFace x = f := hx
        have h3 : mA.hFace x < mA.fFresh := this
        omega
      · exact (C.holeRev x h1.1 h1.2).2.2.1)
  have hfin : mC.fs.filterMap r = K.filterMap (Tri.report K) := by
    rw [hfs, List.filterMap_append]
    have e2 : (List.range' mA.fFresh (mC.fFresh - mA.fFresh)).filterMap r = [] := by
      rw [List.filterMap_eq_nil_iff]
      intro f hf
      rw [List.mem_range'_1] at hf
      simp only [r]; rw [if_neg (by omega)]
    rw [e2, List.append_nil]
    have e1 : mA.fs.map r = K.map (Tri.report K) := by
      apply List.ext_getElem
      · simp [I.len]
      · intro i h1 h2
        simp only [List.getElem_map]
        have hi : i < mA.fs.length := by simpa using h1
        have hi' : i < K.length := by simpa using h2
        rw [hrA i hi, List.getElem?_eq_getElem hi']; rfl
    have : ∀ {α β : Type} (f : α → Option β) (l : List α), l.filterMap f = (l.map f).filterMap id := by
      intro α β f l; rw [List.filterMap_map]; rfl
    rw [this r, e1, ← this]
  unfold getVertexIndices
  simp only [bind_apply, read_apply]
  show vertexIndicesLoop mC.fs { mC with vHe := V } = _
  rw [hloop, hfin]

end TinyMesh
