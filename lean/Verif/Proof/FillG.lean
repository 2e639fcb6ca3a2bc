import Verif.Proof.FillF
import Verif.Proof.Pieces
/-
`fillHoles`: the loop over the holes.
-/
set_option linter.unusedSimpArgs false
namespace TinyMesh
open Orbit
variable {F : Type}

theorem faceAt_ok {m : Mesh F} {i f : Nat} (h : m.fs[i]? = some f) : faceAt (i : Int) m = .ok f m := by
  unfold faceAt arrayAt
  rw [if_neg (by omega)]
  simp [h]

/-- faces have at least three sides -/
theorem Mesh.Good.three_sides {m : Mesh F} (g : m.Good) {f : Nat} (a : m.fAlive f = true) : 3 ≤ m.sides f := by
  have w := g.wf
  obtain ⟨ah, hf⟩ := w.fHe_ok f a
  have an := w.next_alive _ ah
  have mem : ∀ x, m.hAlive x = true → m.hFace x = f → x ∈ orbit m.hNext (m.fHe f) := fun x h1 h2 => (w.mem_loop a).2 ⟨h1, h2⟩
  have fn := (w.face_next _ ah).trans hf
  have ann := w.next_alive _ an
  have fnn := (w.face_next _ an).trans fn
  have n1 : m.fHe f ≠ m.hNext (m.fHe f) := by
    intro e
    have := g.simple.no_loop _ ah
    rw [← e] at this
    exact this rfl
  have n2 : m.hNext (m.fHe f) ≠ m.hNext (m.hNext (m.fHe f)) := by
    intro e
    have := g.simple.no_loop _ an
    rw [← e] at this
    exact this rfl
  have n3 : m.fHe f ≠ m.hNext (m.hNext (m.fHe f)) := by
    intro e
    rcases g.tri.holds _ ah with t | t
    · unfold Mesh.OnTri at t
      rw [← e] at t
      exact n1 t.symm
    · have ar := w.rev_alive _ ah
      have e1 : m.hRev (m.fHe f) = m.hNext (m.fHe f) := by
        refine g.simple.no_dup _ _ ar an (w.src_rev _ ah) ?_
        have := w.src_rev _ ar
        rw [w.rev_rev _ ah] at this
        rw [← this, ← e]
      have t := (t _ ah rfl).2.2
      rw [e1] at t
      unfold Mesh.OnTri at t
      rw [← e] at t
      exact n2 t.symm
  rw [← w.loop_length a]
  have nd : [m.fHe f, m.hNext (m.fHe f), m.hNext (m.hNext (m.fHe f))].Nodup := by simp [n1, n2, n3]
  have := (nd.subperm (l₂ := orbit m.hNext (m.fHe f)) (by
    intro x hx
    simp only [List.mem_cons, List.not_mem_nil, or_false] at hx
    rcases hx with rfl | rfl | rfl
    · exact mem _ ah hf
    · exact mem _ an fn
    · exact mem _ ann fnn)).length_le
  simpa using this

/-- after some of the holes `H` of `m0` have been filled; `rem` are the remaining ones with their positions in the array of faces -/
structure FillInv (m0 : Mesh F) (H : List Nat) (rem : List (Nat × Nat)) (m : Mesh F) : Prop where
  wf : m.WF
  slots : ∀ q ∈ rem, m.fs[q.1]? = some q.2
  nodup : (rem.map Prod.snd).Nodup
  hole : ∀ q ∈ rem, q.2 ∈ H
  same : ∀ q ∈ rem, ∀ h, (m.hAlive h = true ∧ m.hFace h = q.2) ↔ (m0.hAlive h = true ∧ m0.hFace h = q.2)
  tri : ∀ h, m.hAlive h = true → (∀ q ∈ rem, m.hFace h ≠ q.2) → m.OnTri h
  flag : ∀ f, m.fAlive f = true → (∀ q ∈ rem, f ≠ q.2) → ∃ h, m.hAlive h = true ∧ m.hFace h = f ∧ m.hBd h = false
  kept : ∀ h, m0.hAlive h = true → m.hAlive h = true ∧ m.hSrc h = m0.hSrc h ∧ m.hRev h = m0.hRev h ∧
    (m0.hFace h ∉ H → m.hNext h = m0.hNext h ∧ m.hFace h = m0.hFace h ∧ m.hBd h = m0.hBd h)
  clear : ∀ h, m.hAlive h = true → m.hBd h = true → m0.hAlive h = true ∧ m0.hBd h = true ∧
    (m0.hFace h ∈ H → ∃ q ∈ rem, m0.hFace h = q.2)
  vAlive : m.vAlive = m0.vAlive
  vPos : m.vPos = m0.vPos
  vHe : m.vHe = m0.vHe
  vIdx : m.vIdx = m0.vIdx
  vLock : m.vLock = m0.vLock
  vs : m.vs = m0.vs
  hLen : m.hes.length + 2 * (rem.map (fun q => m0.sides q.2)).sum + 6 * H.length =
    m0.hes.length + 2 * (H.map m0.sides).sum + 6 * rem.length
  fLen : m.fs.length + (rem.map (fun q => m0.sides q.2)).sum + 3 * H.length =
    m0.fs.length + (H.map m0.sides).sum + 3 * rem.length
  linked : ∀ h, m.hAlive h = true → m0.Together (m.hSrc h) (m.hSrc (m.hNext h))

section
variable [ScalarX F]

theorem AngleCap.congr {m m' : Mesh F} {Small : F → Prop} {E : Prop} (c : AngleCap m Small E) (h1 : m'.vAlive = m.vAlive)
    (h2 : m'.vPos = m.vPos) : AngleCap m' Small E := by
  have : ∀ x, PosIn m' x → PosIn m x := by
    rintro x ⟨v, a, e⟩
    rw [h1] at a; rw [h2] at e
    exact ⟨v, a, e⟩
  exact ⟨c.zero, fun a b x d e h1 h2 h3 h4 h5 => c.ang a b x d e (this _ h1) (this _ h2) (this _ h3) (this _ h4) (this _ h5),
    c.max, c.lt⟩

theorem FillInv.step {m0 m m' : Mesh F} {H : List Nat} {i g : Nat} {rem : List (Nat × Nat)} (I : FillInv m0 H ((i, g) :: rem) m)
    {tris : List Tri3} {He : Nat × Nat → Nat} (ag : m.fAlive g = true) (sd : (orbit m.hNext (m.fHe g)).length = m0.sides g)
    (p : Poly (orbit m.hNext (m.fHe g)).length tris) (P : Patched m m' g (orbit m.hNext (m.fHe g)) tris He) :
    FillInv m0 H rem m' := by
  have l := I.wf.faceLoop ag
  have nd := I.nodup
  rw [List.map_cons, List.nodup_cons] at nd
  have gne : ∀ q ∈ rem, q.2 ≠ g := fun q hq e => nd.1 (List.mem_map.2 ⟨q, hq, e⟩)
  have gH : g ∈ H := I.hole (i, g) List.mem_cons_self
  have faceLt : ∀ f, m.fAlive f = true → f < m.fFresh := fun f a => (I.wf.fBound f a).2
  have qAlive : ∀ q ∈ rem, m.fAlive q.2 = true := fun q hq =>
    I.wf.fDense.alive_at (I.slots q (List.mem_cons_of_mem _ hq))
  have newFace : ∀ e ∈ allDirs tris, m.fFresh ≤ m'.hFace (He e) := by
    intro e he
    obtain ⟨j, t, _, _, h⟩ := P.face_e he
    omega
  refine ⟨P.wf I.wf p l, ?_, nd.2, fun q hq => I.hole q (List.mem_cons_of_mem _ hq), ?_, ?_, ?_, ?_, ?_, P.vAlive.trans I.vAlive,
    P.vPos.trans I.vPos, P.vHe.trans I.vHe, P.vIdx.trans I.vIdx, P.vLock.trans I.vLock, P.vs.trans I.vs, ?_, ?_, ?_⟩
  · intro q hq
    exact P.slots _ _ (I.slots q (List.mem_cons_of_mem _ hq)) (gne q hq)
  · intro q hq h
    rw [← I.same q (List.mem_cons_of_mem _ hq) h]
    constructor
    · rintro ⟨a, hf⟩
      rcases P.cases p l a with ⟨e, he, rfl⟩ | ⟨a0, h0⟩
      · have := newFace e he
        have := faceLt _ (qAlive q hq)
        omega
      · exact ⟨a0, by rw [← hf, (P.out h a0 h0).2.1]⟩
    · rintro ⟨a, hf⟩
      exact ⟨(P.hal h).2 (.inl a), by rw [(P.out h a (by rw [hf]; exact gne q hq)).2.1, hf]⟩
  · intro h a hq
    rcases P.cases p l a with ⟨e, he, rfl⟩ | ⟨a0, h0⟩
    · exact P.onTri he
    · have o1 := P.out h a0 h0
      have an := I.wf.next_alive h a0
      have fn := I.wf.face_next h a0
      have o2 := P.out _ an (by rw [fn]; exact h0)
      have o3 := P.out _ (I.wf.next_alive _ an) (by rw [I.wf.face_next _ an, fn]; exact h0)
      unfold Mesh.OnTri
      rw [o1.1, o2.1, o3.1]
      refine I.tri h a0 ?_
      intro q hq'
      rcases List.mem_cons.1 hq' with rfl | hq'
      · exact h0
      · have := hq q hq'
        rwa [o1.2.1] at this
  · intro f a hq
    rcases (P.fal f).1 a with ⟨a0, h0⟩ | ⟨j, hj, rfl⟩
    · obtain ⟨h, ah, hf, hb⟩ := I.flag f a0 (by
        intro q hq'
        rcases List.mem_cons.1 hq' with rfl | hq'
        · exact h0
        · exact hq q hq')
      have o := P.out h ah (by rw [hf]; exact h0)
      exact ⟨h, (P.hal h).2 (.inl ah), by rw [o.2.1, hf], by rw [o.2.2.1, hb]⟩
    · have ht := List.getElem?_eq_getElem hj
      have he : (tris[j].1, tris[j].2.1) ∈ allDirs tris := mem_allDirs.2 ⟨_, List.getElem_mem hj, by simp [dirs]⟩
      exact ⟨_, P.alive_e l he, (P.tri j _ ht).2.2.2.1 _ (by simp [dirs]), P.bd _ he⟩
  · intro h a0
    obtain ⟨a, hs, hr, hk⟩ := I.kept h a0
    refine ⟨(P.hal h).2 (.inl a), (P.src_old p l a).trans hs, (P.oldRev h a).trans hr, fun hH => ?_⟩
    obtain ⟨k1, k2, k3⟩ := hk hH
    have o := P.out h a (by rw [k2]; rintro e; exact hH (e ▸ gH))
    exact ⟨o.1.trans k1, o.2.1.trans k2, o.2.2.1.trans k3⟩
  · intro h a hb
    rcases P.cases p l a with ⟨e, he, rfl⟩ | ⟨a0, h0⟩
    · rw [P.bd e he] at hb; cases hb
    · have o := P.out h a0 h0
      rw [o.2.2.1] at hb
      obtain ⟨c1, c2, c3⟩ := I.clear h a0 hb
      refine ⟨c1, c2, fun hH => ?_⟩
      obtain ⟨q, hq, hqf⟩ := c3 hH
      rcases List.mem_cons.1 hq with rfl | hq
      · exact absurd ((I.same _ List.mem_cons_self h).2 ⟨c1, hqf⟩).2 h0
      · exact ⟨q, hq, hqf⟩
  · have h1 := I.hLen
    have h2 := P.hLen
    rw [sd] at h2
    simp only [List.map_cons, List.sum_cons, List.length_cons] at h1
    omega
  · have h1 := I.fLen
    have h2 := P.fLen
    rw [sd] at h2
    simp only [List.map_cons, List.sum_cons, List.length_cons] at h1
    omega
  · intro h a
    have up : ∀ {u v}, m.Together u v → m0.Together u v := fun k => k.map id fun a b j => by
      obtain ⟨x, ax, rfl, rfl⟩ := j; exact I.linked x ax
    rcases P.cases p l a with ⟨e, he, rfl⟩ | ⟨a0, h0⟩
    · obtain ⟨e', k⟩ := exists_foll he
      rw [P.next k]
      obtain ⟨x, hx, ax, sx⟩ := P.src_e p l he
      obtain ⟨y, hy, ay, sy⟩ := P.src_e p l k.mem.2.1
      rw [sx, sy]
      exact up (I.wf.linked_face ax ay (((l.mem _).1 (List.mem_of_getElem? hx)).2.trans ((l.mem _).1 (List.mem_of_getElem? hy)).2.symm))
    · have o1 := P.out h a0 h0
      have an := I.wf.next_alive h a0
      have o2 := P.out _ an (by rw [I.wf.face_next h a0]; exact h0)
      rw [o1.1, o1.2.2.2, o2.2.2.2]
      exact I.linked h a0

theorem fillAt_ok {m0 : Mesh F} {Small : F → Prop} {E : Prop} {H : List Nat} (h3 : ∀ g ∈ H, m0.fAlive g = true ∧ 3 ≤ m0.sides g)
    (w0 : m0.WF) (cap : AngleCap m0 Small E) : ∀ (rem : List (Nat × Nat)) (m : Mesh F), FillInv m0 H rem m →
    (¬ E ∧ fillAt (rem.map Prod.fst) m = .err .ub) ∨
      ∃ m', fillAt (rem.map Prod.fst) m = .ok () m' ∧ FillInv m0 H [] m' := by
  intro rem
  induction rem with
  | nil => exact fun m I => .inr ⟨m, rfl, I⟩
  | cons q rem ih =>
    intro m I
    obtain ⟨i, g⟩ := q
    have hi := I.slots (i, g) List.mem_cons_self
    have ag := I.wf.fDense.alive_at hi
    have gH : g ∈ H := I.hole (i, g) List.mem_cons_self
    have sd : (orbit m.hNext (m.fHe g)).length = m0.sides g := by
      rw [← w0.loop_length (h3 g gH).1]
      have l1 := I.wf.faceLoop ag
      have l0 := w0.faceLoop (h3 g gH).1
      refine List.Perm.length_eq ((List.perm_ext_iff_of_nodup l1.nodup l0.nodup).2 fun h => ?_)
      rw [l1.mem, l0.mem]
      exact I.same (i, g) List.mem_cons_self h
    simp only [List.map_cons, fillAt]
    rw [bind_apply, faceAt_ok hi]
    dsimp only
    rw [bind_apply]
    unfold triangulate
    rcases holeFill_ok (bound := Scalar.pi) I.wf (cap.congr I.vAlive I.vPos) ag (by rw [sd]; exact (h3 g gH).2) with
      ⟨e, h⟩ | ⟨m', tris, He, h, p, P⟩
    · exact .inl ⟨e, by rw [h]⟩
    · rw [h]
      exact ih m' (I.step ag sd p P)

/-- the positions of the faces that are holes -/
theorem holePositions_ok {m : Mesh F} (w : m.WF) : ∀ (is acc : List Nat), (∀ i ∈ is, i < m.fs.length) →
    holePositions is acc m = .ok (acc ++ is.filter (fun i => (orbit m.hNext (m.fHe (m.fs.getD i 0))).all m.hBd)) m := by
  intro is
  induction is with
  | nil => intro acc _; simp [holePositions]
  | cons i is ih =>
    intro acc hi
    have lt := hi i List.mem_cons_self
    have ht : m.fs[i]? = some (m.fs.getD i 0) := by simp [lt]
    have a := w.fDense.alive_at ht
    simp only [holePositions]
    rw [bind_apply, faceAt_ok ht]
    dsimp only
    rw [bind_apply, w.fIsHole_ok a]
    dsimp only
    rw [ih _ (fun j hj => hi j (List.mem_cons_of_mem _ hj))]
    rw [List.filter_cons]
    split <;> simp

/-- the start of `fillHoles`, for a mesh all of whose faces are triangles or flagged as holes -/
theorem fillHoles_start {m : Mesh F} (w : m.WF)
    (ht : ∀ h, m.hAlive h = true → m.OnTri h ∨ ∀ h', m.hAlive h' = true → m.hFace h' = m.hFace h → m.hBd h' = true) :
    ∃ rem : List (Nat × Nat), fillHoles m = fillAt (rem.map Prod.fst) m ∧
      rem.map Prod.snd = m.fs.filter (fun f => (orbit m.hNext (m.fHe f)).all m.hBd) ∧
      FillInv m (m.fs.filter (fun f => (orbit m.hNext (m.fHe f)).all m.hBd)) rem m := by
  unfold fillHoles
  rw [bind_apply, read_apply]
  dsimp only
  rw [bind_apply, holePositions_ok w _ _ (fun i hi => List.mem_range.1 hi)]
  dsimp only
  rw [List.nil_append]
  generalize hL : (List.range m.fs.length).filter (fun i => (orbit m.hNext (m.fHe (m.fs.getD i 0))).all m.hBd) = L
  have eH : L.map (fun i => m.fs.getD i 0) = m.fs.filter (fun f => (orbit m.hNext (m.fHe f)).all m.hBd) := by
    have e : (List.range m.fs.length).map (fun i => m.fs.getD i 0) = m.fs := by
      apply List.ext_getElem
      · simp
      · intro i h1 h2
        simp [h2]
    rw [← hL]
    conv_rhs => rw [← e]
    rw [List.filter_map]
    rfl
  have eL : L = (L.map (fun i => (i, m.fs.getD i 0))).map Prod.fst := by
    rw [List.map_map]; simp [Function.comp_def]
  have I0 : FillInv m (m.fs.filter (fun f => (orbit m.hNext (m.fHe f)).all m.hBd)) (L.map (fun i => (i, m.fs.getD i 0))) m := by
    have inL : ∀ f, m.fAlive f = true → (∀ q ∈ L.map (fun i => (i, m.fs.getD i 0)), f ≠ q.2) →
        ∃ h, m.hAlive h = true ∧ m.hFace h = f ∧ m.hBd h = false := by
      intro f a hq
      by_contra hn
      push Not at hn
      have : f ∈ m.fs.filter (fun f => (orbit m.hNext (m.fHe f)).all m.hBd) := by
        rw [List.mem_filter, List.all_eq_true]
        refine ⟨(w.fDense.mem f).2 a, fun h hh => ?_⟩
        obtain ⟨h1, h2⟩ := (w.mem_loop a).1 hh
        simpa using hn h h1 h2
      rw [← eH, List.mem_map] at this
      obtain ⟨i, hi, rfl⟩ := this
      exact hq (i, m.fs.getD i 0) (List.mem_map.2 ⟨i, hi, rfl⟩) rfl
    refine ⟨w, ?_, ?_, ?_, fun _ _ _ => Iff.rfl, ?_, inL, fun h a => ⟨a, rfl, rfl, fun _ => ⟨rfl, rfl, rfl⟩⟩, ?_, rfl, rfl, rfl, rfl, rfl,
      rfl, ?_, ?_, fun h a => Mesh.Joined.linked ⟨h, a, rfl, rfl⟩⟩
    · intro q hq
      obtain ⟨i, hi, rfl⟩ := List.mem_map.1 hq
      rw [← hL, List.mem_filter, List.mem_range] at hi
      simp [hi.1]
    · rw [List.map_map]
      change (L.map (fun i => m.fs.getD i 0)).Nodup
      rw [eH]
      exact w.fDense.nodup.filter _
    · intro q hq
      obtain ⟨i, hi, rfl⟩ := List.mem_map.1 hq
      rw [← eH]
      exact List.mem_map.2 ⟨i, hi, rfl⟩
    · intro h a hq
      rcases ht h a with t | t
      · exact t
      · obtain ⟨x, h1, h2, h4⟩ := inL _ (w.face_alive h a) hq
        rw [t x h1 h2] at h4
        cases h4
    · intro h a hb
      refine ⟨a, hb, fun hH => ?_⟩
      rw [← eH, List.mem_map] at hH
      obtain ⟨i, hi, e⟩ := hH
      exact ⟨_, List.mem_map.2 ⟨i, hi, rfl⟩, e.symm⟩
    · rw [← eH, List.map_map, List.map_map, List.length_map, List.length_map]; rfl
    · rw [← eH, List.map_map, List.map_map, List.length_map, List.length_map]; rfl
  refine ⟨L.map (fun i => (i, m.fs.getD i 0)), by rw [← eL], ?_, I0⟩
  rw [List.map_map]
  exact eH

/-- `fillHoles`, for a mesh all of whose faces are triangles or flagged as holes -/
theorem fillHoles_ok {m : Mesh F} (w : m.WF) (h3 : ∀ f, m.fAlive f = true → 3 ≤ m.sides f)
    (ht : ∀ h, m.hAlive h = true → m.OnTri h ∨ ∀ h', m.hAlive h' = true → m.hFace h' = m.hFace h → m.hBd h' = true)
    {Small : F → Prop} {E : Prop} (cap : AngleCap m Small E) :
    (¬ E ∧ fillHoles m = .err .ub) ∨
      ∃ m', fillHoles m = .ok () m' ∧ FillInv m (m.fs.filter (fun f => (orbit m.hNext (m.fHe f)).all m.hBd)) [] m' := by
  obtain ⟨rem, e, _, I⟩ := fillHoles_start w ht
  rw [e]
  refine fillAt_ok (fun g hg => ?_) w cap rem m I
  have a := (w.fDense.mem g).1 (List.mem_filter.1 hg).1
  exact ⟨a, h3 g a⟩

end
end TinyMesh
