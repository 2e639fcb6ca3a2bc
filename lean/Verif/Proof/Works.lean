import Verif.Spec.Works
import Verif.Proof.Session
import Verif.Props.L0
import Verif.Props.Denoise
/-
The outcomes of the filters for any arithmetic and any solver.
-/
namespace TinyMesh
open Orbit

/-! ### implicit fairing -/

section
variable {F : Type} [Scalar F] {m : Mesh F}

theorem ofTriplets_any {n : Nat} {ts : List (Triplet F)} (h : ∀ t ∈ ts, 0 ≤ t.1 ∧ t.1 < n ∧ 0 ≤ t.2.1 ∧ t.2.1 < n) :
    ∃ L, ofTriplets n ts m = .ok L m := by
  unfold ofTriplets
  rw [if_pos]
  · exact ⟨_, rfl⟩
  · rw [List.all_eq_true]
    intro t ht
    exact decide_eq_true (h t ht)

omit [Scalar F] in
theorem Mesh.WF.vIdx_range (w : m.WF) {v : Nat} (a : m.vAlive v = true) : 0 ≤ m.vIdx v ∧ m.vIdx v < m.vs.length := by
  obtain ⟨k, hk⟩ := w.vDense.exists_at a
  have := (List.getElem?_eq_some_iff.1 hk).1
  rw [w.vDense.idx_of hk]
  omega

theorem cotWeight_any (w : m.WF) {h : Nat} (a : m.hAlive h = true) : ∃ x, cotWeight h m = .ok x m := by
  have a1 := w.next_alive _ a
  have a2 := w.next_alive _ a1
  have b2 := w.next_alive _ (w.next_alive _ (w.rev_alive _ a))
  unfold cotWeight
  rw [bind_apply, cotVerts_ok w a]; dsimp only
  rw [bind_apply, getPos_ok (w.src_alive _ a)]; dsimp only
  rw [bind_apply, getPos_ok (w.src_alive _ a1)]; dsimp only
  rw [bind_apply, getPos_ok (w.src_alive _ a2)]; dsimp only
  rw [bind_apply, getPos_ok (w.src_alive _ b2)]
  exact ⟨_, rfl⟩

theorem fairLoop_any (w : m.WF) : ∀ (hs : List Nat) (s : F), (∀ h ∈ hs, m.hAlive h = true) →
    ∃ ts s', fairLoop hs s m = .ok (ts, s') m ∧ ∀ t ∈ ts, 0 ≤ t.1 ∧ t.1 < m.vs.length
  | [], s, _ => ⟨[], s, rfl, by simp⟩
  | h :: hs, s, ha => by
    have a := ha h (by simp)
    have a1 := w.next_alive _ a
    obtain ⟨x, hx⟩ := cotWeight_any w a
    obtain ⟨ts, s', e, k⟩ := fairLoop_any w hs (s + x) fun y hy => ha y (by simp [hy])
    refine ⟨(m.vIdx (m.hSrc (m.hNext h)), x) :: ts, s', ?_, ?_⟩
    · unfold fairLoop
      rw [bind_apply, hx]; dsimp only
      rw [bind_apply, getDst_ok a a1]; dsimp only
      rw [bind_apply, getVIdx_ok (w.src_alive _ a1)]; dsimp only
      rw [bind_apply, e]; rfl
    · intro t ht
      rcases List.mem_cons.1 ht with rfl | ht
      · exact w.vIdx_range (w.src_alive _ a1)
      · exact k t ht

theorem fairRow_any (w : m.WF) {i : Nat} (hi : i < m.vs.length) :
    ∃ ts, fairRow i m = .ok ts m ∧ ∀ t ∈ ts, 0 ≤ t.1 ∧ t.1 < m.vs.length ∧ 0 ≤ t.2.1 ∧ t.2.1 < m.vs.length := by
  have hv := List.getElem?_eq_getElem hi
  have a := w.vDense.alive_at hv
  obtain ⟨ts, s', e, k⟩ := fairLoop_any w _ (Scalar.lit 0 1) fun h hh => ((w.mem_ring a).1 hh).1
  refine ⟨ts.map (fun t => ((i : Int), t.1, t.2 / s')) ++ [((i : Int), (i : Int), Scalar.lit (-1) 1)], ?_, ?_⟩
  · unfold fairRow
    rw [bind_apply, vertexAt_ok hv]; dsimp only
    rw [bind_apply, w.ringList_ok a]; dsimp only
    rw [bind_apply, e]; dsimp only
    rw [bind_apply, getPos_ok a]
    rfl
  · intro t ht
    rcases List.mem_append.1 ht with h | h
    · obtain ⟨x, hx, rfl⟩ := List.mem_map.1 h
      have := k x hx
      refine ⟨?_, ?_, this⟩ <;> dsimp only <;> omega
    · rw [List.mem_singleton.1 h]
      refine ⟨?_, ?_, ?_, ?_⟩ <;> dsimp only <;> omega

theorem fairStep_any (w : m.WF) (solve : LinSolve F) (eps : F) : ∃ m', fairStep solve eps m = .ok () m' ∧ m.SameButPos m' := by
  obtain ⟨ts, h1, h2⟩ := rows_any (m := m) (row := fairRow)
    (P := fun t => 0 ≤ t.1 ∧ t.1 < m.vs.length ∧ 0 ≤ t.2.1 ∧ t.2.1 < m.vs.length) (List.range m.vs.length)
    (fun e he => fairRow_any w (List.mem_range.1 he))
  obtain ⟨L, h3⟩ := ofTriplets_any (m := m) h2
  have h4 := posRows_ok w (List.range m.vs.length) (by simp)
  have h5 : ∃ A, fairMatrix eps m = .ok A m := by
    unfold fairMatrix
    rw [bind_apply, read_apply]; dsimp only
    rw [bind_apply, h1]; dsimp only
    rw [bind_apply, h3]
    exact ⟨_, rfl⟩
  obtain ⟨A, h5⟩ := h5
  obtain ⟨m', e, s, -⟩ := putRows_ok (solveRows solve m.vs.length A _) (List.range m.vs.length) w List.nodup_range (by simp)
  refine ⟨m', ?_, s⟩
  unfold fairStep
  rw [bind_apply, read_apply]; dsimp only
  rw [bind_apply, h5]; dsimp only
  rw [bind_apply, h4]
  exact e

theorem implicitFairing_any (solve : LinSolve F) (eps : F) : ∀ (n : Nat) {m : Mesh F}, m.WF →
    ∃ m', implicitFairing solve eps n m = .ok () m' ∧ m.SameButPos m'
  | 0, m, _ => ⟨m, rfl, rfl⟩
  | n + 1, m, w => by
    obtain ⟨m1, e1, s1⟩ := fairStep_any w solve eps
    obtain ⟨m2, e2, s2⟩ := implicitFairing_any solve eps n (s1.wf w)
    exact ⟨m2, by rw [implicitFairing, bind_apply, e1]; exact e2, s1.trans s2⟩

/-! ### L0 denoising -/

theorem edgeAngle_any (w : m.WF) {h : Nat} (a : m.hAlive h = true) : ∃ x, edgeAngle h m = .ok x m := by
  have b := w.rev_alive _ a
  have a1 := w.next_alive _ a
  have a2 := w.next_alive _ a1
  have b1 := w.next_alive _ b
  have b2 := w.next_alive _ b1
  unfold edgeAngle
  simp only [bind_apply, getRev_ok a, getSrc_ok a, getNext_ok a, getDst_ok a1 a2, getSrc_ok b, getNext_ok b, getDst_ok b1 b2,
    getPos_ok (w.src_alive _ a), getPos_ok (w.src_alive _ a2), getPos_ok (w.src_alive _ b), getPos_ok (w.src_alive _ b2)]
  exact ⟨_, rfl⟩

theorem meanAngleLoop_any (w : m.WF) : ∀ (hs seen : List Nat) (s : F), (∀ h ∈ hs, m.hAlive h = true) →
    ∃ r, meanAngleLoop hs seen s m = .ok r m
  | [], seen, s, _ => ⟨_, rfl⟩
  | h :: hs, seen, s, ha => by
    have a := ha h (by simp)
    have ih := fun seen s => meanAngleLoop_any w hs seen s fun x hx => ha x (by simp [hx])
    unfold meanAngleLoop
    split
    · exact ih _ _
    · simp only [bind_apply, getRev_ok a]
      split
      · exact ih _ _
      · obtain ⟨x, hx⟩ := edgeAngle_any w a
        rw [bind_apply, hx]
        exact ih _ _

theorem meanDihedralAngle_any (w : m.WF) : ∃ r, meanDihedralAngle m = .ok r m := by
  obtain ⟨r, hr⟩ := meanAngleLoop_any w m.hes [] (Scalar.lit 0 1) fun h hh => (w.hDense.mem h).1 hh
  refine ⟨r.1 / Scalar.lit r.2 1, ?_⟩
  unfold meanDihedralAngle
  rw [bind_apply, read_apply]
  dsimp only
  rw [bind_apply, hr]
  rfl

theorem l0RowR_any (wf : m.WF) {S : List Nat} (hS : ∀ h ∈ S, m.hAlive h = true) {e : Nat} (he : e < S.length) :
    ∃ ts, l0RowR S e m = .ok ts m ∧ ∀ t ∈ ts, 0 ≤ t.1 ∧ t.1 < S.length ∧ 0 ≤ t.2.1 ∧ t.2.1 < m.vs.length := by
  have he' := List.getElem?_eq_getElem he
  have a := hS _ (List.getElem_mem he)
  generalize S[e] = h at he' a
  have ar := wf.rev_alive h a
  have a1 := wf.src_alive _ a
  have a2 := wf.src_alive _ (wf.next_alive _ (wf.next_alive _ a))
  have a3 := wf.src_alive _ ar
  have a4 := wf.src_alive _ (wf.next_alive _ (wf.next_alive _ ar))
  refine ⟨[((e : Int), m.vIdx (m.hSrc h), Scalar.lit 1 1), ((e : Int), m.vIdx (m.hSrc (m.hNext (m.hNext h))), Scalar.lit (-1) 1),
    ((e : Int), m.vIdx (m.hSrc (m.hRev h)), Scalar.lit 1 1), ((e : Int), m.vIdx (m.hSrc (m.hNext (m.hNext (m.hRev h)))), Scalar.lit (-1) 1)],
    ?_, ?_⟩
  · unfold l0RowR
    rw [bind_apply, edgeNo_ok he']; dsimp only
    rw [bind_apply, edgeQuad_ok wf a]; dsimp only
    unfold quadTriplets
    simp only [bind_apply, getVIdx_ok a1, getVIdx_ok a2, getVIdx_ok a3, getVIdx_ok a4, pure_apply]
  · intro t ht
    simp only [List.mem_cons, List.not_mem_nil, or_false] at ht
    rcases ht with rfl | rfl | rfl | rfl
    · exact ⟨by simp, by simpa using he, wf.vIdx_range a1⟩
    · exact ⟨by simp, by simpa using he, wf.vIdx_range a2⟩
    · exact ⟨by simp, by simpa using he, wf.vIdx_range a3⟩
    · exact ⟨by simp, by simpa using he, wf.vIdx_range a4⟩

theorem l0Loop_any (wf : m.WF) {S : List Nat} (hS : ∀ h ∈ S, m.hAlive h = true) (solve : LinSolve F) (R : Nat → Nat → F)
    (x0 : Nat → Vec3 F) (lambda bmax : F) : ∀ (n : Nat) (alpha beta : F) (x : Nat → Vec3 F),
    (∃ x', l0Loop solve S.length m.vs.length S R x0 lambda bmax n alpha beta x m = .ok x' m) ∨
      l0Loop solve S.length m.vs.length S R x0 lambda bmax n alpha beta x m = .err .diverge
  | 0, _, _, _ => .inr rfl
  | n + 1, alpha, beta, x => by
    unfold l0Loop
    split
    · obtain ⟨x', e⟩ := l0Round_any wf hS solve R x0 x lambda alpha beta
      rw [bind_apply, e]
      exact l0Loop_any wf hS solve R x0 lambda bmax n _ _ _
    · exact .inl ⟨_, rfl⟩

theorem taubinDefault_any (w : m.WF) : (∃ m', smoothTaubinDefault m = .ok () m' ∧ m.SameButPos m') ∨ smoothTaubinDefault m = .err .throw := by
  have k := c27_taubin (Scalar.lit 1 2) (Scalar.lit 53 100) (n := 3) (by omega) w
  rcases k with k | ⟨m', k, s, -⟩
  · exact .inr k
  · exact .inl ⟨m', k, s⟩

theorem denoiseL0_any (w : m.WF) (solve : LinSolve F) {order : List Nat → List Nat} (ho : ∀ l, (order l).Perm l) (fuel : Nat) (alpha beta : F) :
    (∃ m', denoiseL0Smooth solve order fuel alpha beta m = .ok () m' ∧ m.SameButPos m') ∨
      denoiseL0Smooth solve order fuel alpha beta m = .err .throw ∨ denoiseL0Smooth solve order fuel alpha beta m = .err .diverge := by
  obtain ⟨S, eS, -, pS, -⟩ := w.numEdgesLoop_ok m.hes [] (fun h hh => (w.hDense.mem h).1 hh) List.nodup_nil (by simp)
  have e1 : numEdges m = .ok S.length m := by simp [numEdges, eS]
  obtain ⟨avg, e2⟩ := meanEdgeLength_ok w
  obtain ⟨ang, e3⟩ := meanDihedralAngle_any w
  have hl : (order S).length = S.length := (ho S).length_eq
  have hS : ∀ h ∈ order S, m.hAlive h = true := fun h hh => (pS h ((ho S).mem_iff.1 hh)).1
  obtain ⟨ts, h1, h2⟩ := rows_any (m := m) (row := l0RowR (order S))
    (P := fun t => 0 ≤ t.1 ∧ t.1 < (order S).length ∧ 0 ≤ t.2.1 ∧ t.2.1 < m.vs.length) (List.range (order S).length)
    (fun e he => l0RowR_any w hS (List.mem_range.1 he))
  obtain ⟨R, h3⟩ := ofTripletsRect_any (m := m) h2
  have h4 := posRows_ok w (List.range m.vs.length) (by simp)
  obtain ⟨p0, lam, bm, al, be, run⟩ : ∃ p0 lam bm al be, denoiseL0Smooth solve order fuel alpha beta m =
      (do smoothTaubinDefault
          let p ← l0Loop solve (order S).length m.vs.length (order S) R p0 lam bm fuel al be p0
          putRows p (List.range m.vs.length) : M F Unit) m := by
    unfold denoiseL0Smooth
    rw [bind_apply, e1]; dsimp only
    rw [bind_apply, read_apply]; dsimp only
    rw [bind_apply, e2]; dsimp only
    rw [bind_apply, e3]; dsimp only
    rw [bind_apply, read_apply]; dsimp only
    rw [bind_apply, eS]; dsimp only
    rw [if_neg (by simp [hl]), bind_apply, h1]; dsimp only
    rw [← hl, bind_apply, h3]; dsimp only
    rw [bind_apply, h4]
    exact ⟨_, _, _, _, _, rfl⟩
  rw [run]
  rcases taubinDefault_any w with ⟨m1, e4, s1⟩ | e4
  · rw [bind_apply, e4]; dsimp only
    have hv : m1.vs.length = m.vs.length := by rw [s1]
    have hS1 : ∀ h ∈ order S, m1.hAlive h = true := fun h hh => by rw [s1]; exact hS h hh
    rw [← hv, bind_apply]
    rcases l0Loop_any (s1.wf w) hS1 solve R _ _ _ fuel _ _ _ with ⟨x, e5⟩ | e5
    · rw [e5]; dsimp only
      obtain ⟨m2, e6, s2, -⟩ := putRows_ok x (List.range m1.vs.length) (s1.wf w) List.nodup_range (by simp)
      exact .inl ⟨m2, e6, s1.trans s2⟩
    · rw [e5]
      exact .inr (.inr rfl)
  · rw [bind_apply, e4]
    exact .inr (.inl rfl)

end

/-! ### the two filters of normals -/

/-- every run of the program ends with a value that meets `Q`, or with an error that meets `E` -/
def Prog.Ends {L F α : Type} [DecidableEq L] (E : Err → Prop) (Q : α → Prop) (p : Prog L F α) : Prop :=
  ∀ s, (∃ a s', p.exec s = .ok (a, s') ∧ Q a) ∨ ∃ e, E e ∧ p.exec s = .error e

section
variable {L F α β : Type} [DecidableEq L] {E : Err → Prop} {Q : α → Prop} {Q' : β → Prop}

theorem Prog.Ends.bind {p : Prog L F α} {f : α → Prog L F β} (h : p.Ends E Q) (h' : ∀ a, Q a → (f a).Ends E Q') :
    (p >>= f).Ends E Q' := by
  intro s
  rw [Prog.exec_bind]
  rcases h s with ⟨a, s', e, q⟩ | ⟨e, k, h⟩
  · rw [e]; exact h' a q s'
  · rw [h]; exact .inr ⟨e, k, rfl⟩

theorem Prog.Ends.ret {a : α} (h : Q a) : (Prog.ret a : Prog L F α).Ends E Q := fun s => .inl ⟨a, s, rfl, h⟩

theorem Prog.Ends.fail {e : Err} (h : E e) : (Prog.fail e : Prog L F α).Ends E Q := fun _ => .inr ⟨e, h, rfl⟩

theorem serial_ends {body : Nat → Prog L F Unit} : ∀ (is : List Nat) (s : L → F), (∀ i ∈ is, (body i).Ends E fun _ => True) →
    (∃ s', serial body is s = .ok s') ∨ ∃ e, E e ∧ serial body is s = .error e
  | [], s, _ => .inl ⟨s, rfl⟩
  | i :: is, s, h => by
    unfold serial
    rcases h i (by simp) s with ⟨a, s', e, -⟩ | ⟨e, k, h'⟩
    · rw [e]
      exact serial_ends is s' fun j hj => h j (by simp [hj])
    · rw [h']
      exact .inr ⟨e, k, rfl⟩

end

section
variable {F : Type} [ScalarX F] {m : Mesh F} {E : Err → Prop} {α : Type}
open Prog

omit [ScalarX F] in
theorem ends_topo {x : M F α} {a : α} {m' : Mesh F} (h : x m = .ok a m') : (topo m x).Ends E (fun b => b = a) :=
  fun s => .inl ⟨a, s, exec_topo_ok h s, rfl⟩

omit [ScalarX F] in
theorem ends_loadPos {v : Nat} (a : m.vAlive v = true) : (loadPos m v).Ends E fun _ => True :=
  fun s => .inl ⟨_, s, exec_loadPos a s, trivial⟩

omit [ScalarX F] in
theorem ends_loadArr {n a : Nat} {i : Int} (h : 0 ≤ i ∧ i < n) : (loadArr n a i : Prog Loc F _).Ends E fun _ => True := by
  unfold loadArr
  rw [if_pos h]
  exact fun s => .inl ⟨_, s, rfl, trivial⟩

omit [ScalarX F] in
theorem ends_loadNum {n a : Nat} {i : Int} (h : 0 ≤ i ∧ i < n) : (loadNum n a i : Prog Loc F _).Ends E fun _ => True := by
  unfold loadNum
  rw [if_pos h]
  exact fun s => .inl ⟨_, s, rfl, trivial⟩

omit [ScalarX F] in
theorem ends_orThrow (h : E .throw) (o : Option α) : (orThrow o : Prog Loc F α).Ends E fun _ => True := by
  cases o with
  | none => exact .fail h
  | some a => exact .ret trivial

omit [ScalarX F] in
theorem ends_store (a i : Nat) (p : Vec3 F) : (storeArr a i p).Ends E fun _ => True := fun s => .inl ⟨(), _, exec_storeArr a i p s, trivial⟩

theorem faceAt_get' {i f : Nat} (h : m.fs[i]? = some f) : faceAt (i : Int) m = .ok f m := by
  unfold faceAt arrayAt
  rw [if_neg (by omega)]
  simp [h]

theorem Mesh.WF.faceFaces_ok' (w : m.WF) {f : Nat} (a : m.fAlive f = true) :
    faceFaces f m = .ok ((orbit m.hNext (m.fHe f)).map fun h => m.hFace (m.hRev h)) m := by
  simp only [faceFaces, bind_apply, getFHe_ok a]
  refine (w.circ_face a (fun x l => (false, l ++ [m.hFace (m.hRev x)]))
    (fun x hx _ => by simp [getRev_ok hx, getFace_ok (w.rev_alive _ hx)]) _).trans ?_
  rw [foldPure_map]
  simp

omit [ScalarX F] in
theorem Mesh.WF.fIdx_range (w : m.WF) {f : Nat} (a : m.fAlive f = true) : 0 ≤ m.fIdx f ∧ m.fIdx f < m.fs.length := by
  obtain ⟨k, hk⟩ := w.fDense.exists_at a
  have := (List.getElem?_eq_some_iff.1 hk).1
  rw [w.fDense.idx_of hk]
  omega

/-- the first loop: an assertion for a face that is not a triangle, an exception for a division by zero -/
theorem dnNormal_ends (w : m.WF) {i : Nat} (hi : i < m.fs.length) :
    (dnNormal m i).Ends (fun e => e = .throw ∨ e = .abort ∧ m.SomeNotTri) fun _ => True := by
  have hf := List.getElem?_eq_getElem hi
  have a := w.fDense.alive_at hf
  generalize m.fs[i] = f at hf a
  unfold dnNormal
  refine (ends_topo (faceAt_get' hf)).bind ?_
  intro _ e
  rw [e]; clear e
  refine (ends_topo (w.faceVerts_ok a)).bind ?_
  rintro _ rfl
  have al : ∀ v ∈ (orbit m.hNext (m.fHe f)).map m.hSrc, m.vAlive v = true := by
    intro v hv
    obtain ⟨x, hx, rfl⟩ := List.mem_map.1 hv
    exact w.src_alive _ ((w.mem_loop a).1 hx).1
  have ld : (loadAll m ((orbit m.hNext (m.fHe f)).map m.hSrc)).Ends (fun e => e = .throw ∨ e = .abort ∧ m.SomeNotTri)
      (fun ps => ps.length = m.sides f) := fun s => .inl ⟨_, s, exec_loadAll s _ al, by
        dsimp only
        rw [List.length_map, List.length_map, w.loop_length a]⟩
  refine ld.bind fun ps hps => ?_
  split
  · refine (ends_orThrow (.inl rfl) _).bind fun n _ => ?_
    refine (ends_store _ _ _).bind fun _ _ => ?_
    refine (ends_orThrow (.inl rfl) _).bind fun n _ => ?_
    refine (ends_store _ _ _).bind fun _ _ => ?_
    exact fun s => .inl ⟨(), _, rfl, trivial⟩
  · next h =>
    refine .fail (.inr ⟨rfl, f, a, fun h3 => ?_⟩)
    match ps, hps.trans h3 with
    | [x, y, z], _ => exact h x y z rfl

theorem dnSum_ends (w : m.WF) (bil : Bool) (sg sn : F) {i : Nat} (hi : i < m.fs.length) : ∀ (gs : List Nat) (s : Vec3 F),
    (∀ g ∈ gs, m.fAlive g = true) → (dnSum m m.fs.length bil sg sn i gs s).Ends E fun _ => True
  | [], s, _ => .ret trivial
  | g :: gs, s, ha => by
    have a := ha g (by simp)
    unfold dnSum
    refine (ends_topo (getFIdx_ok a)).bind ?_
    rintro _ rfl
    have hj := w.fIdx_range a
    have hi' : 0 ≤ (i : Int) ∧ (i : Int) < m.fs.length := ⟨by omega, by omega⟩
    refine (ends_loadArr hi').bind fun _ _ => ?_
    refine (ends_loadArr hj).bind fun _ _ => ?_
    refine (ends_loadNum hj).bind fun _ _ => ?_
    refine (ends_loadArr hj).bind fun _ _ => ?_
    have ih := fun s => dnSum_ends w bil sg sn hi gs s fun x hx => ha x (by simp [hx])
    dsimp only
    split
    · exact (ends_loadArr hi').bind fun _ _ => ih _
    · exact Prog.Ends.bind (Q := fun _ => True) (.ret trivial) fun _ _ => ih _

theorem dnFilter_ends (w : m.WF) (bil : Bool) (sg sn : F) {i : Nat} (hi : i < m.fs.length) (hE : E .throw) :
    (dnFilter m m.fs.length bil sg sn i).Ends E fun _ => True := by
  have hf := List.getElem?_eq_getElem hi
  have a := w.fDense.alive_at hf
  generalize m.fs[i] = f at hf a
  unfold dnFilter
  refine (ends_topo (faceAt_get' hf)).bind ?_
  rintro _ rfl
  refine (ends_topo (w.faceFaces_ok' a)).bind ?_
  rintro _ rfl
  refine (dnSum_ends w bil sg sn hi _ _ ?_).bind fun s _ => ?_
  · intro g hg
    obtain ⟨x, hx, rfl⟩ := List.mem_map.1 hg
    exact w.face_alive _ (w.rev_alive _ ((w.mem_loop a).1 hx).1)
  · dsimp only
    split
    · exact .ret trivial
    · exact (ends_orThrow hE _).bind fun _ _ => ends_store _ _ _

theorem dnIncr_ends (w : m.WF) {v : Nat} (av : m.vAlive v = true) : ∀ (gs : List Nat) (s : F) (c : Vec3 F),
    (∀ g ∈ gs, m.fAlive g = true) → (dnIncr m m.fs.length v gs s c).Ends E fun _ => True
  | [], s, c, _ => .ret trivial
  | g :: gs, s, c, ha => by
    have a := ha g (by simp)
    unfold dnIncr
    refine (ends_topo (getFIdx_ok a)).bind ?_
    rintro _ rfl
    have hj := w.fIdx_range a
    refine (ends_loadNum hj).bind fun _ _ => ?_
    refine (ends_loadArr hj).bind fun _ _ => ?_
    refine (ends_loadArr hj).bind fun _ _ => ?_
    exact (ends_loadPos av).bind fun _ _ => dnIncr_ends w av gs _ _ fun x hx => ha x (by simp [hx])

theorem dnMove_ends (w : m.WF) {i : Nat} (hi : i < m.vs.length) (hE : E .throw) : (dnMove m m.fs.length i).Ends E fun _ => True := by
  have hv := List.getElem?_eq_getElem hi
  have a := w.vDense.alive_at hv
  generalize m.vs[i] = v at hv a
  unfold dnMove
  refine (ends_topo (vertexAt_ok hv)).bind ?_
  rintro _ rfl
  refine (ends_topo (w.vertFaces_ok a)).bind ?_
  rintro _ rfl
  refine (dnIncr_ends w a _ _ _ ?_).bind fun r _ => ?_
  · intro g hg
    obtain ⟨x, hx, rfl⟩ := List.mem_map.1 hg
    exact w.face_alive _ ((w.mem_ring a).1 hx).1
  · refine (ends_orThrow hE _).bind fun _ _ => ?_
    exact (ends_loadPos a).bind fun _ _ s => .inl ⟨(), _, exec_storePos a _ s, trivial⟩

/-- what a filter of normals may do -/
def DnOut (m : Mesh F) (o : Out F Unit) : Prop :=
  (∃ m', o = .ok () m' ∧ m.SameButPos m') ∨ o = .err .throw ∨ o = .err .abort ∧ m.SomeNotTri

theorem dnSweep_any (w : m.WF) (bil : Bool) (sg sn : F) : DnOut m (dnSweep bil sg sn m) := by
  have out : ∀ e : Err, e = .throw ∨ e = .abort ∧ m.SomeNotTri → DnOut m (.err e) := by
    rintro e (rfl | ⟨rfl, h⟩)
    · exact .inr (.inl rfl)
    · exact .inr (.inr ⟨rfl, h⟩)
  unfold dnSweep
  dsimp only
  rcases serial_ends (List.range m.fs.length) m.mem fun i hi => dnNormal_ends w (List.mem_range.1 hi) with ⟨s1, e1⟩ | ⟨e, k, h⟩
  swap
  · rw [h]; exact out e k
  rw [e1]; dsimp only
  rcases serial_ends (List.range m.fs.length) s1 fun i hi =>
    dnFilter_ends (E := fun e => e = .throw ∨ e = .abort ∧ m.SomeNotTri) w bil sg sn (List.mem_range.1 hi) (.inl rfl) with ⟨s2, e2⟩ | ⟨e, k, h⟩
  swap
  · rw [h]; exact out e k
  rw [e2]; dsimp only
  rcases serial_ends (List.range m.vs.length) s2 fun i hi =>
    dnMove_ends (E := fun e => e = .throw ∨ e = .abort ∧ m.SomeNotTri) w (List.mem_range.1 hi) (.inl rfl) with ⟨s3, e3⟩ | ⟨e, k, h⟩
  swap
  · rw [h]; exact out e k
  rw [e3]
  exact .inl ⟨_, rfl, rfl⟩

theorem Mesh.SameButPos.someNotTri {m m' : Mesh F} (s : m.SameButPos m') : m'.SomeNotTri ↔ m.SomeNotTri := by rw [s]; rfl

theorem dnLoop_any (bil : Bool) (sg sn : F) : ∀ (n : Nat) {m : Mesh F}, m.WF → DnOut m (dnLoop bil sg sn n m)
  | 0, m, _ => .inl ⟨m, rfl, rfl⟩
  | n + 1, m, w => by
    unfold dnLoop
    rcases taubinDefault_any w with ⟨m1, e1, s1⟩ | e1
    · rw [bind_apply, e1]; dsimp only
      rcases dnSweep_any (s1.wf w) bil sg sn with ⟨m2, e2, s2⟩ | e2 | ⟨e2, h⟩
      · rw [bind_apply, e2]; dsimp only
        have s12 := s1.trans s2
        rcases dnLoop_any bil sg sn n (s12.wf w) with ⟨m3, e3, s3⟩ | e3 | ⟨e3, h⟩
        · exact .inl ⟨m3, e3, s12.trans s3⟩
        · exact .inr (.inl e3)
        · exact .inr (.inr ⟨e3, s12.someNotTri.1 h⟩)
      · rw [bind_apply, e2]; exact .inr (.inl rfl)
      · rw [bind_apply, e2]; exact .inr (.inr ⟨rfl, s1.someNotTri.1 h⟩)
    · rw [bind_apply, e1]; exact .inr (.inl rfl)

theorem gaussian_any (w : m.WF) (sg : F) (n : Nat) : DnOut m (denoiseNormalGaussian sg n m) := by
  obtain ⟨r, hr⟩ := meanEdgeLength_ok w
  unfold denoiseNormalGaussian
  rw [bind_apply, hr]
  exact dnLoop_any _ _ _ _ w

theorem bilateral_any (w : m.WF) (sg sn : F) (n : Nat) : DnOut m (denoiseNormalBilateral sg sn n m) := by
  obtain ⟨r, hr⟩ := meanEdgeLength_ok w
  unfold denoiseNormalBilateral
  rw [bind_apply, hr]
  exact dnLoop_any _ _ _ _ w

/-- any arithmetic: every call returns a consistent mesh, or a check of the library stops it, or it is the loop of `denoiseL0Smooth` -/
theorem work_any (g : m.Good) {c : Work F} (f : c.Fits m) :
    CallOut (fun _ => True) (fun e => e = .abort ∨ e = .throw ∨ e = .diverge ∧ c.IsL0) m (c.run m) := by
  cases c with
  | call c =>
    rcases call_any g f with h | ⟨e, he, h⟩
    · exact .inl h
    · exact .inr ⟨e, he.imp_right .inl, h⟩
  | fairing solve eps n =>
    obtain ⟨m', e, s⟩ := implicitFairing_any solve eps n g.wf
    exact .inl ⟨m', e, s.callDone g, trivial⟩
  | gaussian sg n =>
    rcases gaussian_any g.wf sg n with ⟨m', e, s⟩ | e | ⟨e, -⟩
    · exact .inl ⟨m', e, s.callDone g, trivial⟩
    · exact .inr ⟨_, .inr (.inl rfl), e⟩
    · exact .inr ⟨_, .inl rfl, e⟩
  | bilateral sg sn n =>
    rcases bilateral_any g.wf sg sn n with ⟨m', e, s⟩ | e | ⟨e, -⟩
    · exact .inl ⟨m', e, s.callDone g, trivial⟩
    · exact .inr ⟨_, .inr (.inl rfl), e⟩
    · exact .inr ⟨_, .inl rfl, e⟩
  | l0 solve order fuel al be =>
    rcases denoiseL0_any g.wf solve f fuel al be with ⟨m', e, s⟩ | e | e
    · exact .inl ⟨m', e, s.callDone g, trivial⟩
    · exact .inr ⟨_, .inr (.inl rfl), e⟩
    · exact .inr ⟨_, .inr (.inr ⟨rfl, trivial⟩), e⟩

end
end TinyMesh
