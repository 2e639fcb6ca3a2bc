import Verif.Proof.CtxJ
import Verif.Proof.CtxI
import Verif.Props.Settle
import Verif.Spec.Start
/-
Closing all holes one after the other.
-/
namespace TinyMesh
open Orbit
variable {F : Type} {m m' m0 : Mesh F} {f : Nat}

/-- `U` are the faces that have not been touched -/
structure ClosePart (m0 m : Mesh F) (U : Nat → Prop) : Prop where
  wf : m.WF
  sub : ∀ g, U g → m0.fAlive g = true
  sup : ∀ g, m0.fAlive g = true → ¬ m0.HoleFace g → U g
  slot : ∀ i g : Nat, m0.fs[i]? = some g → m.fs[i]? = some g
  old : ∀ g, m0.fAlive g = true → m.fAlive g = true
  loop : ∀ g, U g → ∀ h, (m.hAlive h = true ∧ m.hFace h = g) ↔ (m0.hAlive h = true ∧ m0.hFace h = g)
  order : ∀ h, m0.hAlive h = true → U (m0.hFace h) → m.hNext h = m0.hNext h ∧ m.hSrc h = m0.hSrc h
  rev : ∀ h, m0.hAlive h = true → U (m0.hFace h) → U (m0.hFace (m0.hRev h)) → m.hRev h = m0.hRev h
  weak : ∀ h, m0.hAlive h = true → U (m0.hFace h) → m0.hBd h = false → m.hBd h = false
  hole : ∀ h, m0.hAlive h = true → U (m0.hFace h) → m0.HoleFace (m0.hFace h) → m.hBd h = true
  tri : ∀ g, m.fAlive g = true → ¬ U g → m.sides g = 3 ∧ ∃ h, m.hAlive h = true ∧ m.hFace h = g ∧ m.hBd h = false
  rim : ∀ h, m0.hAlive h = true → U (m0.hFace h) → ¬ U (m0.hFace (m0.hRev h)) →
    m.hFace (m.hRev h) = m0.hFace (m0.hRev h) ∨ m0.fAlive (m.hFace (m.hRev h)) = false
  vert : ∀ v, m0.vAlive v = true → m.vAlive v = true
  lock : ∀ v, m.vAlive v = true → (m.vLock v = true ↔ m0.vAlive v = true ∧ (m0.vLock v = true ∨ ∃ g, m0.fAlive g = true ∧ m0.HoleFace g ∧ ¬ U g ∧ m0.CornerOf g v))
  still : ∀ v, m0.vAlive v = true → (∀ g, m0.fAlive g = true → m0.HoleFace g → ¬ m0.CornerOf g v) → m.vPos v = m0.vPos v

theorem sides_keep (w : m.WF) (w' : m'.WF) {g : Nat} (a : m.fAlive g = true) (a' : m'.fAlive g = true)
    (l : ∀ h, (m'.hAlive h = true ∧ m'.hFace h = g) ↔ (m.hAlive h = true ∧ m.hFace h = g)) : m'.sides g = m.sides g := by
  rw [← w.loop_length a, ← w'.loop_length a']
  have L := w.faceLoop a
  have L' := w'.faceLoop a'
  refine List.Perm.length_eq ((List.perm_ext_iff_of_nodup L'.nodup L.nodup).2 fun h => ?_)
  rw [L.mem, L'.mem]
  exact l h

section
variable {U : Nat → Prop}

theorem ClosePart.at (P : ClosePart m0 m U) {h : Nat} (a : m0.hAlive h = true) (u : U (m0.hFace h)) : m.hAlive h = true ∧ m.hFace h = m0.hFace h :=
  (P.loop _ u h).2 ⟨a, rfl⟩

theorem ClosePart.corner (P : ClosePart m0 m U) (u : U f) {v : Nat} (c : m.CornerOf f v) : m0.CornerOf f v := by
  obtain ⟨h, a, e, s⟩ := c
  obtain ⟨a0, e0⟩ := (P.loop f u h).1 ⟨a, e⟩
  exact ⟨h, a0, e0, ((P.order h a0 (by rw [e0]; exact u)).2).symm.trans s⟩

/-- a hole that has not been touched is as it was -/
theorem ClosePart.simple (P : ClosePart m0 m U) (H : m0.Holed) (u : U f) (hf : m0.HoleFace f) : m.SimpleHole f := by
  have a0 := P.sub f u
  have S := H.hole f a0 hf
  have a := P.old f a0
  refine ⟨a, ?_, fun h h' ah ah' e e' es => ?_⟩
  · rw [sides_keep H.wf P.wf a0 a (P.loop f u)]; exact S.three
  · obtain ⟨b, c⟩ := (P.loop f u h).1 ⟨ah, e⟩
    obtain ⟨b', c'⟩ := (P.loop f u h').1 ⟨ah', e'⟩
    refine S.distinct h h' b b' c c' ?_
    rw [← (P.order h b (by rw [c]; exact u)).2, ← (P.order h' b' (by rw [c']; exact u)).2, es]

/-- one hole more is closed -/
theorem ClosePart.step (P : ClosePart m0 m U) (H : m0.Holed) (u : U f) (hf : m0.HoleFace f) (R : m.Filled m' f) (S : SoftFilled m m' f) :
    ClosePart m0 m' (fun g => U g ∧ g ≠ f) := by
  have w0 := H.wf
  have af0 := P.sub f u
  have nf : ∀ {g}, m0.fAlive g = true → ¬ m0.HoleFace g → g ≠ f := fun _ n e => n (e ▸ hf)
  have sup : ∀ g, m0.fAlive g = true → ¬ m0.HoleFace g → U g ∧ g ≠ f := fun g a n => ⟨P.sup g a n, nf a n⟩
  refine ⟨R.wf, fun g h => P.sub g h.1, sup, fun i g e => S.slot i g (P.slot i g e), fun g a => R.old g (P.old g a), ?_, ?_, ?_, ?_, ?_, ?_, ?_, fun v a => R.vert v (P.vert v a), ?_, ?_⟩
  · rintro g ⟨hu, hg⟩ h
    exact (R.loop g (P.old g (P.sub g hu)) hg h).trans (P.loop g hu h)
  · rintro h a ⟨hu, hg⟩
    obtain ⟨a1, f1⟩ := P.at a hu
    have o := P.order h a hu
    have r := R.order h a1 (by rw [f1]; exact hg)
    exact ⟨r.1.trans o.1, r.2.trans o.2⟩
  · rintro h a ⟨hu, hg⟩ ⟨ru, rg⟩
    obtain ⟨a1, f1⟩ := P.at a hu
    have e := P.rev h a hu ru
    obtain ⟨a2, f2⟩ := P.at (w0.rev_alive _ a) ru
    rw [R.rev h a1 (by rw [f1]; exact hg) (by rw [e, f2]; exact rg), e]
  · rintro h a ⟨hu, hg⟩ b
    obtain ⟨a1, f1⟩ := P.at a hu
    exact S.weak h a1 (by rw [f1]; exact hg) (P.weak h a hu b)
  · rintro h a ⟨hu, hg⟩ hh
    obtain ⟨a1, f1⟩ := P.at a hu
    have ar := w0.rev_alive _ a
    have n := H.apart h a hh
    have ru := P.sup _ (w0.face_alive _ ar) n
    obtain ⟨a2, f2⟩ := P.at ar ru
    have e := P.rev h a hu ru
    rw [S.out h a1 (by rw [f1]; exact hg) (by rw [e, f2]; exact nf (w0.face_alive _ ar) n)]
    exact P.hole h a hu hh
  · intro g ag n
    by_cases e : g = f
    · subst e
      refine ⟨R.last.2, ?_⟩
      obtain ⟨a1, e1⟩ := R.wf.fHe_ok g ag
      exact ⟨_, a1, e1, (R.flag _ a1 e1).1⟩
    · have nu : ¬ U g := fun c => n ⟨c, e⟩
      by_cases a : m.fAlive g = true
      · obtain ⟨s3, h, a1, f1, b1⟩ := P.tri g a nu
        have l := R.loop g a e
        obtain ⟨a2, f2⟩ := (l h).2 ⟨a1, f1⟩
        exact ⟨(sides_keep P.wf R.wf a ag l).trans s3, h, a2, f2, S.weak h a1 (by rw [f1]; exact e) b1⟩
      · have a : m.fAlive g = false := by simpa using a
        exact ⟨R.tri g ag a, S.new g ag a⟩
  · rintro h a ⟨hu, hg⟩ n
    obtain ⟨a1, f1⟩ := P.at a hu
    have hg1 : m.hFace h ≠ f := by rw [f1]; exact hg
    by_cases e : m0.hFace (m0.hRev h) = f
    · have ru : U (m0.hFace (m0.hRev h)) := by rw [e]; exact u
      obtain ⟨a2, f2⟩ := P.at (w0.rev_alive _ a) ru
      have er := P.rev h a hu ru
      rcases R.border h a1 hg1 (by rw [er, f2, e]) with k | k
      · left; rw [k, e]
      · right
        rw [Bool.eq_false_iff] at k ⊢
        exact fun c => k (P.old _ c)
    · have ru : ¬ U (m0.hFace (m0.hRev h)) := fun c => n ⟨c, e⟩
      have k := P.rim h a hu ru
      have kf : m.hFace (m.hRev h) ≠ f := by
        rcases k with k | k
        · rw [k]; exact e
        · intro c; rw [c, af0] at k; cases k
      have ar := P.wf.rev_alive _ a1
      rw [R.rev h a1 hg1 kf, ((R.loop _ (P.wf.face_alive _ ar) kf (m.hRev h)).2 ⟨ar, rfl⟩).2]
      exact k
  · intro v av
    rw [R.lock v av]
    constructor
    · rintro ⟨a, l | c⟩
      · obtain ⟨a0, l | ⟨g, ag, hg, ng, cg⟩⟩ := (P.lock v a).1 l
        · exact ⟨a0, .inl l⟩
        · exact ⟨a0, .inr ⟨g, ag, hg, fun k => ng k.1, cg⟩⟩
      · have c0 := P.corner u c
        obtain ⟨h, a0, -, s⟩ := id c0
        exact ⟨by rw [← s]; exact w0.src_alive _ a0, .inr ⟨f, af0, hf, fun k => k.2 rfl, c0⟩⟩
    · rintro ⟨a, l⟩
      refine ⟨P.vert v a, ?_⟩
      rcases l with l | ⟨g, ag, hg, ng, cg⟩
      · exact .inl ((P.lock v (P.vert v a)).2 ⟨a, .inl l⟩)
      · by_cases e : g = f
        · subst e
          obtain ⟨h, a0, e0, s0⟩ := cg
          obtain ⟨a1, e1⟩ := (P.loop g u h).2 ⟨a0, e0⟩
          exact .inr ⟨h, a1, e1, ((P.order h a0 (by rw [e0]; exact u)).2).trans s0⟩
        · exact .inl ((P.lock v (P.vert v a)).2 ⟨a, .inr ⟨g, ag, hg, fun k => ng ⟨k, e⟩, cg⟩⟩)
  · intro v a n
    rw [R.still v (P.vert v a) (fun c => n f af0 hf (P.corner u c)), P.still v a n]

end

/-- the faces that have not been touched when `i` faces have been visited -/
def Mesh.Untouched (m : Mesh F) (i : Nat) (g : Nat) : Prop := m.fAlive g = true ∧ (m.HoleFace g → ∃ k : Nat, i ≤ k ∧ m.fs[k]? = some g)

theorem holeFillFront_soft [ScalarX F] (w : m.WF) (H : m.SimpleHole f) {ord : List Nat → List Nat} (ho : ∀ l, (ord l).Perm l)
    {solve : LinSolve F} {fuel : Nat} (e : holeFillFront ord solve fuel f m = .ok () m') : m.Filled m' f ∧ SoftFilled m m' f := by
  obtain ⟨R, m1, e1, -, e2, -⟩ := c79_filled w H ho e
  have S := advancingFront_soft w H e1
  refine ⟨R, ?_⟩
  rw [e2]
  exact ⟨S.weak, S.out, S.new, S.slot⟩

theorem ClosePart.congr {U V : Nat → Prop} (P : ClosePart m0 m U) (h : ∀ g, U g ↔ V g) : ClosePart m0 m V := by
  have : U = V := funext fun g => propext (h g)
  exact this ▸ P

section
variable [ScalarX F] {ord : List Nat → List Nat} {solve : LinSolve F} {fuel : Nat}

/-- the visit of the face at position `i` -/
theorem ClosePart.visit (H : m0.Holed) {i : Nat} (P : ClosePart m0 m (m0.Untouched i)) {f : Nat} (e : m.fs[i]? = some f) :
    (m.HoleFace f → m.SimpleHole f ∧ ∀ m', m.Filled m' f → SoftFilled m m' f → ClosePart m0 m' (m0.Untouched (i + 1))) ∧
    (¬ m.HoleFace f → ClosePart m0 m (m0.Untouched (i + 1))) := by
  have w := P.wf
  have af : m.fAlive f = true := (w.fDense.mem f).1 (List.mem_of_getElem? e)
  have uniq : ∀ {k g : Nat}, m0.fs[k]? = some g → (g = f ↔ k = i) := by
    intro k g h
    have h' := P.slot k g h
    constructor
    · rintro rfl
      obtain ⟨l1, e1⟩ := List.getElem?_eq_some_iff.1 h'
      obtain ⟨l2, e2⟩ := List.getElem?_eq_some_iff.1 e
      exact (List.Nodup.getElem_inj_iff w.fDense.nodup).1 (e1.trans e2.symm)
    · rintro rfl
      rw [e] at h'
      exact (Option.some.inj h').symm
  refine ⟨fun hf => ?_, fun hf => ?_⟩
  · have u : m0.Untouched i f := by
      by_contra c
      obtain ⟨-, h, a, b, c⟩ := P.tri f af c
      rw [hf h a b] at c
      cases c
    have h0 : m0.HoleFace f := by
      intro h a b
      by_contra c
      have c : m0.hBd h = false := by simpa using c
      have ub : m0.Untouched i (m0.hFace h) := by rw [b]; exact u
      have := P.weak h a ub c
      obtain ⟨a1, f1⟩ := P.at a ub
      rw [hf h a1 (f1.trans b)] at this
      cases this
    refine ⟨P.simple H u h0, fun m' R S => (P.step H u h0 R S).congr fun g => ?_⟩
    constructor
    · rintro ⟨⟨a, k⟩, ne⟩
      refine ⟨a, fun hg => ?_⟩
      obtain ⟨k, hk, ek⟩ := k hg
      have : k ≠ i := fun c => ne ((uniq ek).2 c)
      exact ⟨k, by omega, ek⟩
    · rintro ⟨a, k⟩
      refine ⟨⟨a, fun hg => ?_⟩, ?_⟩
      · obtain ⟨k, hk, ek⟩ := k hg
        exact ⟨k, by omega, ek⟩
      · rintro rfl
        obtain ⟨k, hk, ek⟩ := k h0
        have := (uniq ek).1 rfl
        omega
  · refine P.congr fun g => ?_
    constructor
    · rintro ⟨a, k⟩
      refine ⟨a, fun hg => ?_⟩
      obtain ⟨k, hk, ek⟩ := k hg
      have : k ≠ i := by
        intro c
        have gf := (uniq ek).2 c
        subst gf
        refine hf fun h ah fh => ?_
        have u : m0.Untouched i g := ⟨a, fun _ => ⟨k, hk, ek⟩⟩
        obtain ⟨a0, f0⟩ := (P.loop g u h).1 ⟨ah, fh⟩
        exact P.hole h a0 (by rw [f0]; exact u) (by rw [f0]; exact hg)
      exact ⟨k, by omega, ek⟩
    · rintro ⟨a, k⟩
      refine ⟨a, fun hg => ?_⟩
      obtain ⟨k, hk, ek⟩ := k hg
      exact ⟨k, by omega, ek⟩

theorem fIsHole_face (w : m.WF) (a : m.fAlive f = true) : ∃ b, fIsHole f m = .ok b m ∧ (b = true ↔ m.HoleFace f) := by
  refine ⟨_, w.fIsHole_ok a, ?_⟩
  rw [List.all_eq_true]
  constructor
  · intro h x ax fx
    exact h x (((w.faceLoop a).mem x).2 ⟨ax, fx⟩)
  · intro h x hx
    obtain ⟨ax, fx⟩ := ((w.faceLoop a).mem x).1 hx
    exact h x ax fx

theorem faceAt_nth {i f : Nat} (h : m.fs[i]? = some f) : faceAt (i : Int) m = .ok f m := by
  unfold faceAt arrayAt
  rw [if_neg (by omega)]
  simp [h]

theorem cohFill_part (H : m0.Holed) (ho : ∀ l, (ord l).Perm l) : ∀ (k i : Nat) (m : Mesh F), ClosePart m0 m (m0.Untouched i) →
    cohFill ord solve fuel k i m = .ok () m' → ClosePart m0 m' (fun g => m0.fAlive g = true ∧ ¬ m0.HoleFace g)
  | 0, i, m, P, e => by cases e
  | k + 1, i, m, P, e => by
    unfold cohFill at e
    rw [bind_apply] at e
    simp only [M.read] at e
    by_cases lt : i < m.fs.length
    · have ei : m.fs[i]? = some m.fs[i] := List.getElem?_eq_getElem lt
      rw [if_pos lt, bind_apply, faceAt_nth ei] at e
      have af : m.fAlive m.fs[i] = true := (P.wf.fDense.mem _).1 (List.getElem_mem lt)
      obtain ⟨b, eb, hb⟩ := fIsHole_face P.wf af
      dsimp only at e
      rw [bind_apply, eb] at e
      dsimp only at e
      obtain ⟨v1, v2⟩ := P.visit H ei
      cases b with
      | false =>
        rw [if_neg (by simp)] at e
        exact cohFill_part H ho k (i + 1) m (v2 fun c => by have := hb.2 c; cases this) e
      | true =>
        rw [if_pos rfl, bind_apply] at e
        obtain ⟨s, v⟩ := v1 (hb.1 rfl)
        cases r : holeFillFront ord solve fuel m.fs[i] m with
        | err x => rw [r] at e; cases e
        | ok u m1 =>
          cases u
          rw [r] at e
          obtain ⟨R, S⟩ := holeFillFront_soft P.wf s ho r
          exact cohFill_part H ho k (i + 1) m1 (v m1 R S) e
    · rw [if_neg lt] at e
      have e : m = m' := by injection e
      subst e
      refine P.congr fun g => ?_
      constructor
      · rintro ⟨a, k⟩
        refine ⟨a, fun c => ?_⟩
        obtain ⟨k, hk, ek⟩ := k c
        obtain ⟨l, _⟩ := List.getElem?_eq_some_iff.1 (P.slot k g ek)
        omega
      · rintro ⟨a, n⟩
        exact ⟨a, fun c => absurd c n⟩

/-! ### The first stage -/

theorem lockFoldAll : ∀ (l : List Nat) (m : Mesh F), (∀ v ∈ l, m.vAlive v = true) → foldAll (fun v _ => setLock v true) l () m = .ok () (m.lockAll l)
  | [], m, _ => by
    have : m.lockAll [] = m := by unfold Mesh.lockAll; simp
    rw [this]; rfl
  | v :: l, m, h => by
    unfold foldAll
    rw [bind_apply]
    simp only [setLock, h v (by simp), if_true]
    rw [lockFoldAll l { m with vLock := upd m.vLock v true } fun u hu => h u (by simp [hu])]
    unfold Mesh.lockAll
    congr 2
    funext u
    by_cases c : u = v <;> by_cases d : u ∈ l <;> simp [upd, c, d]

theorem clearFoldAll : ∀ (l : List Nat) (m : Mesh F), (∀ h ∈ l, m.hAlive h = true) → foldAll (fun h _ => setBd h false) l () m = .ok () (m.clearAll l)
  | [], m, _ => by
    have : m.clearAll [] = m := by unfold Mesh.clearAll; simp
    rw [this]; rfl
  | v :: l, m, h => by
    unfold foldAll
    rw [bind_apply]
    simp only [setBd, h v (by simp), if_true]
    rw [clearFoldAll l { m with hBd := upd m.hBd v false } fun u hu => h u (by simp [hu])]
    unfold Mesh.clearAll
    congr 2
    funext u
    by_cases c : u = v <;> by_cases d : u ∈ l <;> simp [upd, c, d]

theorem lockEvery_ok (w : m.WF) : lockEvery m = .ok () (m.lockAll m.vs) := lockFoldAll m.vs m fun v hv => (w.vDense.mem v).1 hv

theorem clearFlags_ok (w : m.WF) : clearFlags m = .ok () (m.clearAll m.hes) := clearFoldAll m.hes m fun h hh => (w.hDense.mem h).1 hh

theorem areaSum_runs (w : m.WF) : ∀ (l : List Nat) (s : F), (∀ f ∈ l, m.fAlive f = true) → ∃ a, areaSum l s m = .ok a m
  | [], s, _ => ⟨s, rfl⟩
  | f :: l, s, h => by
    have a := h f (by simp)
    have e : faceArea f m = .ok (polyArea (((orbit m.hNext (m.fHe f)).map m.hSrc).map m.vPos)) m := by
      unfold faceArea
      rw [bind_apply, w.faceVerts_ok a]
      dsimp only
      rw [bind_apply, posList_ok]
      · rfl
      · intro v hv
        obtain ⟨x, hx, rfl⟩ := List.mem_map.1 hv
        exact w.src_alive _ (((w.faceLoop a).mem x).1 hx).1
    obtain ⟨r, hr⟩ := areaSum_runs w l (s + polyArea (((orbit m.hNext (m.fHe f)).map m.hSrc).map m.vPos)) fun g hg => h g (by simp [hg])
    refine ⟨r, ?_⟩
    unfold areaSum
    rw [bind_apply, e]
    exact hr

theorem meanFaceArea_runs (w : m.WF) : ∃ a, meanFaceArea m = .ok a m := by
  obtain ⟨r, hr⟩ := areaSum_runs w m.fs (Scalar.lit 0 1) fun f hf => (w.fDense.mem f).1 hf
  refine ⟨r / Scalar.lit m.fs.length 1, ?_⟩
  unfold meanFaceArea
  rw [bind_apply]
  simp only [M.read]
  rw [bind_apply, hr]
  rfl

theorem Mesh.Holed.start (H : m.Holed) : ClosePart m m (m.Untouched 0) := by
  have w := H.wf
  have all : ∀ g, m.fAlive g = true → m.Untouched 0 g := fun g a => ⟨a, fun _ => by
    obtain ⟨k, hk⟩ := List.getElem?_of_mem ((H.wf.fDense.mem g).2 a)
    exact ⟨k, Nat.zero_le _, hk⟩⟩
  refine ⟨w, fun g u => u.1, fun g a _ => all g a, fun _ _ e => e, fun _ a => a, fun _ _ _ => Iff.rfl, fun _ _ _ => ⟨rfl, rfl⟩, fun _ _ _ _ => rfl, fun _ _ _ b => b,
    fun h a _ hf => hf h a rfl, fun g a n => absurd (all g a) n, fun h a _ n => absurd (all _ (w.face_alive _ (w.rev_alive _ a))) n, fun _ a => a, fun v a => ⟨fun l => ⟨a, .inl l⟩, ?_⟩,
    fun _ _ _ => rfl⟩
  rintro ⟨-, l | ⟨g, ag, -, n, -⟩⟩
  · exact l
  · exact absurd (all g ag) n

theorem Mesh.Holed.locked (H : m.Holed) : (m.lockAll m.vs).Holed :=
  ⟨H.wf.lockAll _, H.tri, fun g a h => ⟨(H.hole g a h).alive, (H.hole g a h).three, (H.hole g a h).distinct⟩, H.apart⟩

theorem Mesh.Holed.part (H : m.Holed) : ClosePart (m.lockAll m.vs) (m.lockAll m.vs) ((m.lockAll m.vs).Untouched 0) := H.locked.start

/-- if all vertices were locked first, exactly these are locked -/
theorem ClosePart.lock_all {U : Nat → Prop} (w : m.WF) (P : ClosePart (m.lockAll m.vs) m' U) (v : Nat) (a : m'.vAlive v = true) : m'.vLock v = true ↔ m.vAlive v = true := by
  rw [P.lock v a]
  refine ⟨fun h => h.1, fun h => ⟨h, .inl ?_⟩⟩
  unfold Mesh.lockAll
  simp [(w.vDense.mem v).2 h]

end

/-! ### Finite positions -/

section
variable {m m' m0 : Mesh XR} {ord : List Nat → List Nat} {solve : LinSolve XR} {fuel : Nat}

theorem putInside_finite {x : Nat → Vec3 XR} (hx : ∀ i, ∃ q : E3, (x i).Is q) : ∀ {vs : List Nat} {k : Nat} {m m' : Mesh XR}, putInside x k vs m = .ok () m' →
    (∃ p, m.AtE p) → ∃ p, m'.AtE p
  | [], k, m, m', e, h => by cases e; exact h
  | v :: vs, k, m, m', e, ⟨p, A⟩ => by
    unfold putInside at e
    rw [bind_apply] at e
    unfold setPos at e
    split at e
    · next a m1 e1 =>
      split at e1
      · cases e1
        refine putInside_finite hx e ?_
        obtain ⟨q, hq⟩ := hx k
        refine ⟨upd p v q, fun u au => ?_⟩
        by_cases c : u = v
        · subst c; simpa [upd] using hq
        · simpa [upd, c] using A u au
      · cases e1
    · cases e

theorem settle_finite (hs : ∀ n A b i, ∃ r, solve n A b i = XR.fin r) {f : Nat} (e : settle ord solve f m = .ok () m') (A : ∃ p, m.AtE p) : ∃ p, m'.AtE p := by
  unfold settle at e
  obtain ⟨l, e0, e⟩ := OnlyReads.step (OnlyReads.settleInside _) e
  obtain ⟨n, -, e⟩ := OnlyReads.step (OnlyReads.firstNormals _) e
  obtain ⟨n, -, e⟩ := OnlyReads.step (OnlyReads.smoothNormals _ _ _) e
  obtain ⟨fs, -, e⟩ := OnlyReads.step (OnlyReads.foldAll (OnlyReads.facesAt _) _ _) e
  obtain ⟨R, -, e⟩ := OnlyReads.step (OnlyReads.turns _ _) e
  obtain ⟨g, -, e⟩ := OnlyReads.step (OnlyReads.gradients _ _) e
  unfold poisson at e
  obtain ⟨t, e1, e⟩ := OnlyReads.step (OnlyReads.foldAll (OnlyReads.poissonRow _) _ _) e
  obtain ⟨xo, -, e⟩ := OnlyReads.step (OnlyReads.getPosList _) e
  obtain ⟨LL, -, e⟩ := OnlyReads.step (OnlyReads.ofTripletsRect _ _ _) e
  obtain ⟨SS, -, e⟩ := OnlyReads.step (OnlyReads.ofTripletsRect _ _ _) e
  refine putInside_finite (fun i => ?_) e A
  have key : ∀ a b c : XR, (∃ r, a = XR.fin r) → (∃ r, b = XR.fin r) → (∃ r, c = XR.fin r) → ∃ q : E3, (⟨a, b, c⟩ : Vec3 XR).Is q := by
    rintro _ _ _ ⟨x, rfl⟩ ⟨y, rfl⟩ ⟨z, rfl⟩
    exact ⟨_, ⟨x, y, z⟩, rfl, rfl⟩
  exact key _ _ _ (hs _ _ _ _) (hs _ _ _ _) (hs _ _ _ _)

theorem holeFillFront_finite {f : Nat} (w : m.WF) (H : m.SimpleHole f) (hs : ∀ n A b i, ∃ r, solve n A b i = XR.fin r) {p : Nat → E3} (A : m.AtE p) (ho : ∀ l, (ord l).Perm l) :
    (∃ m', holeFillFront ord solve fuel f m = .ok () m' ∧ ∃ q, m'.AtE q) ∨ holeFillFront ord solve fuel f m = .err .throw ∨
      holeFillFront ord solve fuel f m = .err .diverge := by
  rcases c79_outcome w H A ho solve fuel with ⟨m', e, -⟩ | c
  · refine .inl ⟨m', e, ?_⟩
    unfold holeFillFront at e
    rw [bind_apply] at e
    rcases advancingFront_out w H (P := fun m => ∃ p, m.AtE p) ⟨p, A⟩ (fun avg m1 m2 h I _ s => FrontStep.finite h I.wf I.af s) fuel with
      ⟨m1, I, Q, n3, k⟩ | ⟨avg, e', m1, _, I, A1, k, d⟩
    · rw [k] at e
      exact settle_finite hs e Q
    · rw [k] at e; cases e
  · exact .inr c

theorem cohFill_finite (H : m0.Holed) (ho : ∀ l, (ord l).Perm l) (hs : ∀ n A b i, ∃ r, solve n A b i = XR.fin r) : ∀ (k i : Nat) (m : Mesh XR),
    ClosePart m0 m (m0.Untouched i) → (∃ p, m.AtE p) → (∃ m', cohFill ord solve fuel k i m = .ok () m' ∧ ∃ q, m'.AtE q) ∨
      cohFill ord solve fuel k i m = .err .throw ∨ cohFill ord solve fuel k i m = .err .diverge
  | 0, i, m, P, _ => .inr (.inr rfl)
  | k + 1, i, m, P, ⟨p, A⟩ => by
    unfold cohFill
    rw [bind_apply]
    simp only [M.read]
    by_cases lt : i < m.fs.length
    · have ei : m.fs[i]? = some m.fs[i] := List.getElem?_eq_getElem lt
      rw [if_pos lt, bind_apply, faceAt_nth ei]
      have af : m.fAlive m.fs[i] = true := (P.wf.fDense.mem _).1 (List.getElem_mem lt)
      obtain ⟨b, eb, hb⟩ := fIsHole_face P.wf af
      dsimp only
      rw [bind_apply, eb]
      dsimp only
      obtain ⟨v1, v2⟩ := P.visit H ei
      cases b with
      | false =>
        rw [if_neg (by simp)]
        exact cohFill_finite H ho hs k (i + 1) m (v2 fun c => by have := hb.2 c; cases this) ⟨p, A⟩
      | true =>
        rw [if_pos rfl, bind_apply]
        obtain ⟨s, v⟩ := v1 (hb.1 rfl)
        rcases holeFillFront_finite (fuel := fuel) P.wf s hs A ho with ⟨m1, r, Q⟩ | r | r
        · rw [r]
          obtain ⟨R, S⟩ := holeFillFront_soft P.wf s ho r
          exact cohFill_finite H ho hs k (i + 1) m1 (v m1 R S) Q
        · rw [r]; exact .inr (.inl rfl)
        · rw [r]; exact .inr (.inr rfl)
    · rw [if_neg lt]
      exact .inl ⟨m, rfl, p, A⟩

/-- if all holes have three sides, closing them only clears flags and locks -/
theorem cohFill_three {m : Mesh XR} (H : m.Holed) {p : Nat → E3} (A : m.AtE p) (s3 : ∀ g, m.fAlive g = true → m.sides g = 3) {ord : List Nat → List Nat}
    (ho : ∀ l, (ord l).Perm l) (solve : LinSolve XR) {fuel : Nat} (hf : m.fs.length < fuel) :
    ∃ m2, cohFill ord solve fuel fuel 0 m = .ok () m2 ∧ m2.WF ∧ m2.vs = m.vs ∧ m2.fs = m.fs ∧ m2.hes = m.hes ∧ m2.vPos = m.vPos := by
  obtain ⟨fuel, rfl⟩ : ∃ n, fuel = n + 1 := ⟨fuel - 1, by omega⟩
  have key : ∀ (k i : Nat) (m1 : Mesh XR), i ≤ m1.fs.length → m1.fs.length < k + i → ClosePart m m1 (m.Untouched i) →
      m1.vs = m.vs → m1.fs = m.fs → m1.hes = m.hes → m1.vPos = m.vPos → (∀ g, m1.fAlive g = true → m1.sides g = 3) →
      ∃ m2, cohFill ord solve (fuel + 1) k i m1 = .ok () m2 ∧ m2.WF ∧ m2.vs = m.vs ∧ m2.fs = m.fs ∧ m2.hes = m.hes ∧ m2.vPos = m.vPos := by
    intro k
    induction k with
    | zero => intro i m1 c0 c; omega
    | succ k ih =>
      intro i m1 c0 c P e1 e2 e3 e4 e5
      unfold cohFill
      rw [bind_apply]
      simp only [M.read]
      by_cases lt : i < m1.fs.length
      · have ei : m1.fs[i]? = some m1.fs[i] := List.getElem?_eq_getElem lt
        rw [if_pos lt, bind_apply, faceAt_nth ei]
        have af : m1.fAlive m1.fs[i] = true := (P.wf.fDense.mem _).1 (List.getElem_mem lt)
        obtain ⟨b, eb, hb⟩ := fIsHole_face P.wf af
        dsimp only
        rw [bind_apply, eb]
        dsimp only
        obtain ⟨v1, v2⟩ := P.visit H ei
        cases b with
        | false =>
          rw [if_neg (by simp)]
          exact ih (i + 1) m1 lt (by omega) (v2 fun c => by have := hb.2 c; cases this) e1 e2 e3 e4 e5
        | true =>
          rw [if_pos rfl, bind_apply]
          obtain ⟨s, v⟩ := v1 (hb.1 rfl)
          have A1 : m1.AtE p := fun v a => by
            rw [e4]; exact A v ((H.wf.vDense.mem v).1 (e1 ▸ (P.wf.vDense.mem v).2 a))
          obtain ⟨m2, k1, R, k2, k3, k4, k5⟩ := c79_triangle P.wf s A1 (e5 _ af) ho solve fuel
          obtain ⟨R', S⟩ := holeFillFront_soft P.wf s ho k1
          rw [k1]
          dsimp only
          refine ih (i + 1) m2 (by rw [k3]; omega) (by rw [k3]; omega) (v m2 R S) (k2.trans e1) (k3.trans e2) (k4.trans e3) (k5.trans e4) ?_
          intro g ag
          have ag1 : m1.fAlive g = true := (P.wf.fDense.mem g).1 (k3 ▸ (R.wf.fDense.mem g).2 ag)
          by_cases c : g = m1.fs[i]
          · rw [c]; exact R.last.2
          · rw [sides_keep P.wf R.wf ag1 ag (R.loop g ag1 c)]
            exact e5 g ag1
      · rw [if_neg lt]
        exact ⟨m1, rfl, P.wf, e1, e2, e3, e4⟩
  exact key (fuel + 1) 0 _ (Nat.zero_le _) (by exact hf) H.start rfl rfl rfl rfl s3

end
end TinyMesh
