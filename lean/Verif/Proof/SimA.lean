import Verif.Model.Simplify
import Verif.Spec.Simplify
import Verif.Proof.RemC
import Verif.Proof.FeatC
/-
The parts of a simplification pass that only read the mesh.
-/
namespace TinyMesh
open Orbit
variable {F : Type} [Scalar F] {m m' : Mesh F}

omit [Scalar F] in
theorem Mesh.WF.vertFaces_ok (w : m.WF) {v : Nat} (a : m.vAlive v = true) :
    vertFaces v m = .ok ((orbit m.sig (m.vHe v)).map m.hFace) m := by
  simp only [vertFaces, bind_apply, getVHe_ok a]
  refine (w.circ_ring a (fun x l => (false, l ++ [m.hFace x])) (fun x hx _ => by simp [getFace_ok hx]) _).trans ?_
  rw [foldPure_map]
  simp

omit [Scalar F] in
theorem Mesh.WF.any_ring (w : m.WF) {v : Nat} (a : m.vAlive v = true) :
    (orbit m.sig (m.vHe v)).any m.hBd = true ↔ m.AtBoundary v := by
  rw [List.any_eq_true]
  constructor
  · rintro ⟨x, hx, hb⟩
    obtain ⟨a1, e⟩ := (w.mem_ring a).1 hx
    exact ⟨x, a1, e, hb⟩
  · rintro ⟨x, a1, e, hb⟩
    exact ⟨x, (w.mem_ring a).2 ⟨a1, e⟩, hb⟩

omit [Scalar F] in
theorem inRange_ok {nv : Nat} (w : m.WF) (hn : m.vs.length ≤ nv) {v : Nat} (a : m.vAlive v = true) :
    inRange nv (m.vIdx v) m = .ok (m.vIdx v).toNat m := by
  have := w.vDense.idx_lt a
  unfold inRange
  rw [if_pos ⟨this.1, by omega⟩]; rfl

omit [Scalar F] in
theorem Mesh.WF.vertexAt_idx (w : m.WF) {v : Nat} (a : m.vAlive v = true) : vertexAt (m.vIdx v) m = .ok v m := by
  unfold vertexAt
  rw [w.vDense.arrayAt a]

theorem addQuadric_ok {nv : Nat} (w : m.WF) (hn : m.vs.length ≤ nv) (K : Mat4 F) (qs : Nat → Mat4 F) {v : Nat} (a : m.vAlive v = true) :
    addQuadric nv K qs v m = .ok (upd qs (m.vIdx v).toNat ((qs (m.vIdx v).toNat).add K)) m := by
  simp [addQuadric, getVIdx_ok a, inRange_ok w hn a]

/-- the loop over a face without flags, from its first half-edge -/
theorem Mesh.Good.faceVerts_tri (g : m.Good) {f : Nat} (a : m.fAlive f = true)
    (c : (orbit m.hNext (m.fHe f)).any m.hBd = false) : ∃ x y z, faceVerts f m = .ok [x, y, z] m ∧ m.vAlive x = true ∧
      m.vAlive y = true ∧ m.vAlive z = true := by
  have w := g.wf
  obtain ⟨ah, hf⟩ := w.fHe_ok f a
  have t := g.onTri ah (by rw [hf]; exact c)
  have an := w.next_alive _ ah
  refine ⟨_, _, _, (w.faceVerts_ok a).trans (by rw [w.tri_orbit g.simple ah t]; rfl), w.src_alive _ ah, w.src_alive _ an,
    w.src_alive _ (w.next_alive _ an)⟩

/-- the quadrics of a consistent mesh; the only possible failure is the division by zero -/
theorem quadrics_ok (g : m.Good) {nv : Nat} (hn : m.vs.length ≤ nv) {Qp : Mat4 F → Prop} {E : Err → Prop}
    (hadd : ∀ A B, Qp A → Qp B → Qp (A.add B))
    (hq : ∀ a b c, m.vAlive a = true → m.vAlive b = true → m.vAlive c = true →
      (∃ K, quadric (m.vPos a) (m.vPos b) (m.vPos c) = some K ∧ Qp K) ∨ quadric (m.vPos a) (m.vPos b) (m.vPos c) = none ∧ E .throw) :
    ∀ (fs : List Nat) (qs : Nat → Mat4 F), (∀ f ∈ fs, m.fAlive f = true) → (∀ i, Qp (qs i)) →
      (∃ qs', quadrics nv fs qs m = .ok (some qs') m ∧ ∀ i, Qp (qs' i)) ∨ ∃ e, E e ∧ quadrics nv fs qs m = .err e
  | [], qs, _, h => Or.inl ⟨qs, rfl, h⟩
  | f :: fs, qs, hf, h => by
    have w := g.wf
    have a := hf f (by simp)
    have ih := fun qs => quadrics_ok g hn hadd hq fs qs fun x hx => hf x (by simp [hx])
    unfold quadrics
    rw [bind_apply, w.fIsBoundary_ok a]
    dsimp only
    split
    · exact ih qs h
    · next c =>
      obtain ⟨x, y, z, e, ax, ay, az⟩ := g.faceVerts_tri a (by simpa using c)
      rw [bind_apply, e]
      dsimp only
      rw [bind_apply, getPos_ok ax]; dsimp only
      rw [bind_apply, getPos_ok ay]; dsimp only
      rw [bind_apply, getPos_ok az]; dsimp only
      rcases hq x y z ax ay az with ⟨K, hK, qK⟩ | ⟨hK, hE⟩
      · rw [hK]; dsimp only
        rw [bind_apply, addQuadric_ok w hn K qs ax]; dsimp only
        rw [bind_apply, addQuadric_ok w hn K _ ay]; dsimp only
        rw [bind_apply, addQuadric_ok w hn K _ az]; dsimp only
        have up : ∀ (q : Nat → Mat4 F) k, (∀ i, Qp (q i)) → ∀ i, Qp (upd q k ((q k).add K) i) := by
          intro q k hq i
          unfold upd; split
          · exact hadd _ _ (hq _) qK
          · exact hq i
        exact ih _ (up _ _ (up _ _ (up _ _ h)))
      · rw [hK]; exact Or.inr ⟨_, hE, rfl⟩

/-- the candidate position of a half-edge -/
def candPos (S : Solver F) (m : Mesh F) (qs : Nat → Mat4 F) (h : Nat) : Vec3 F :=
  qemPos S (qs (m.vIdx (m.hSrc h)).toNat) (qs (m.vIdx (m.hSrc (m.hNext h))).toNat) (m.vPos (m.hSrc h)) (m.vPos (m.hSrc (m.hNext h)))

/-- the candidates are the half-edges -/
theorem candidates_ok (g : m.Good) (S : Solver F) {nv : Nat} (hn : m.vs.length ≤ nv) (qs : Nat → Mat4 F) :
    ∀ hs : List Nat, (∀ h ∈ hs, m.hAlive h = true) → candidates S nv qs hs m = .ok (hs.map fun h => (h, candPos S m qs h)) m
  | [], _ => rfl
  | h :: hs, ha => by
    have w := g.wf
    have a := ha h (by simp)
    have as := w.src_alive _ a
    have an := w.next_alive _ a
    have ad := w.src_alive _ an
    have e := candidates_ok g S hn qs hs fun x hx => ha x (by simp [hx])
    simp [candidates, getSrc_ok a, getDst_ok a an, getVIdx_ok as, getVIdx_ok ad, inRange_ok w hn as, inRange_ok w hn ad,
      getPos_ok as, getPos_ok ad, e, candPos]

omit [Scalar F] in
theorem replaceFirst_length (vi vj : Nat) (v : Vec3 F) : ∀ (us : List Nat) (ps : List (Vec3 F)),
    (replaceFirst vi vj v us ps).length = ps.length
  | [], ps => by cases ps <;> rfl
  | u :: us, [] => rfl
  | u :: us, p :: ps => by
    unfold replaceFirst
    split
    · rfl
    · simp [replaceFirst_length vi vj v us ps]

theorem crossOf_ok {l : List (Vec3 F)} (h : l.length = 3) : ∃ n, crossOf l m = .ok n m := by
  match l, h with
  | [a, b, c], _ => exact ⟨_, rfl⟩

theorem faceFlips_ok (g : m.Good) (vi vj : Nat) (v : Vec3 F) {h : Nat} (a : m.hAlive h = true) (t : m.OnTri h) :
    ∃ b, faceFlips vi vj v (m.hFace h) m = .ok b m := by
  have w := g.wf
  have fa := w.face_alive _ a
  obtain ⟨ah, hf⟩ := w.fHe_ok _ fa
  have t' : m.OnTri (m.fHe (m.hFace h)) := by
    have : m.fHe (m.hFace h) ∈ orbit m.hNext h := by
      obtain ⟨n, hn⟩ := w.face_conn h (m.fHe (m.hFace h)) a ah hf.symm
      exact (w.permNext.mem_orbit a).2 ⟨n, hn⟩
    rw [w.tri_orbit g.simple a t] at this
    simp only [List.mem_cons, List.not_mem_nil, or_false] at this
    rcases this with e | e | e <;> rw [e]
    · exact t
    · exact Mesh.WF.onTri_next t
    · exact Mesh.WF.onTri_next (Mesh.WF.onTri_next t)
  have an := w.next_alive _ ah
  have e : faceVerts (m.hFace h) m = .ok _ m := (w.faceVerts_ok fa).trans (by rw [w.tri_orbit g.simple ah t'])
  have e2 := getPosList_ok (m := m) ([m.hSrc (m.fHe (m.hFace h)), m.hSrc (m.hNext (m.fHe (m.hFace h))),
    m.hSrc (m.hNext (m.hNext (m.fHe (m.hFace h))))]) (by
      intro x hx
      simp only [List.mem_cons, List.not_mem_nil, or_false] at hx
      rcases hx with rfl | rfl | rfl
      · exact w.src_alive _ ah
      · exact w.src_alive _ an
      · exact w.src_alive _ (w.next_alive _ an))
  unfold faceFlips
  rw [bind_apply, e]
  dsimp only
  rw [bind_apply]
  erw [e2]
  dsimp only
  split
  · obtain ⟨n0, h0⟩ := crossOf_ok (m := m) (l := List.map m.vPos [m.hSrc (m.fHe (m.hFace h)), m.hSrc (m.hNext (m.fHe (m.hFace h))),
      m.hSrc (m.hNext (m.hNext (m.fHe (m.hFace h))))]) rfl
    rw [bind_apply, h0]
    dsimp only
    obtain ⟨n1, h1⟩ := crossOf_ok (m := m) (l := replaceFirst vi vj v _ (List.map m.vPos [m.hSrc (m.fHe (m.hFace h)), m.hSrc (m.hNext (m.fHe (m.hFace h))),
      m.hSrc (m.hNext (m.hNext (m.fHe (m.hFace h))))])) ((replaceFirst_length vi vj v _ _).trans rfl)
    rw [bind_apply]
    erw [h1]
    exact ⟨_, rfl⟩
  · exact ⟨_, rfl⟩

theorem anyFlips_ok (vi vj : Nat) (v : Vec3 F) : ∀ (fs : List Nat) (r : Bool), (∀ f ∈ fs, ∃ b, faceFlips vi vj v f m = .ok b m) →
    ∃ b, anyFlips vi vj v fs r m = .ok b m
  | [], r, _ => ⟨r, rfl⟩
  | f :: fs, r, h => by
    obtain ⟨b, e⟩ := h f (by simp)
    obtain ⟨b', e'⟩ := anyFlips_ok vi vj v fs (r || b) fun x hx => h x (by simp [hx])
    exact ⟨b', by simp [anyFlips, e, e']⟩

theorem anyThin_ok (w : m.WF) : ∀ vs : List Nat, (∀ v ∈ vs, m.vAlive v = true) → ∃ b, anyThin vs m = .ok b m
  | [], _ => ⟨false, rfl⟩
  | v :: vs, h => by
    obtain ⟨b, e⟩ := anyThin_ok w vs fun x hx => h x (by simp [hx])
    unfold anyThin
    rw [bind_apply, w.degree_ok (h v (by simp))]
    dsimp only
    split
    · exact ⟨_, rfl⟩
    · exact ⟨b, e⟩

/-- The tests before a contraction are defined, and let no edge pass that has an end at the boundary. -/
theorem qemAllowed_ok (g : m.Good) {nv : Nat} (hn : m.vs.length ≤ nv) (ck : Nat → Bool) {h : Nat} (a : m.hAlive h = true)
    (v : Vec3 F) : ∃ b, qemAllowed nv ck h v m = .ok b m ∧
      (b = true → ¬ m.AtBoundary (m.hSrc h) ∧ ¬ m.AtBoundary (m.hSrc (m.hNext h))) := by
  have w := g.wf
  have an := w.next_alive _ a
  have as := w.src_alive _ a
  have ad := w.src_alive _ an
  have no : ∀ b : Bool, b = false → ∃ b', (pure b : M F Bool) m = .ok b' m ∧ (b' = true → ¬ m.AtBoundary (m.hSrc h) ∧ ¬ m.AtBoundary (m.hSrc (m.hNext h))) :=
    fun b hb => ⟨b, rfl, fun h => by rw [hb] at h; cases h⟩
  unfold qemAllowed
  rw [bind_apply, getSrc_ok a]; dsimp only
  rw [bind_apply, getVIdx_ok as]; dsimp only
  rw [bind_apply, getDst_ok a an]; dsimp only
  rw [bind_apply, getVIdx_ok ad]; dsimp only
  rw [bind_apply, w.vertexAt_idx as]; dsimp only
  rw [bind_apply, w.vertexAt_idx ad]; dsimp only
  rw [bind_apply, getVIdx_ok as]; dsimp only
  rw [bind_apply, inRange_ok w hn as]; dsimp only
  split
  · exact no _ rfl
  rw [bind_apply, getVIdx_ok ad]; dsimp only
  rw [bind_apply, inRange_ok w hn ad]; dsimp only
  split
  · exact no _ rfl
  rw [bind_apply, w.vIsBoundary_ok as]; dsimp only
  split
  · exact no _ rfl
  next b1 =>
  rw [w.any_ring as] at b1
  rw [bind_apply, w.vIsBoundary_ok ad]; dsimp only
  split
  · exact no _ rfl
  next b2 =>
  rw [w.any_ring ad] at b2
  rw [bind_apply, w.degree_ok as]; dsimp only
  split
  · exact no _ rfl
  rw [bind_apply, w.degree_ok ad]; dsimp only
  split
  · exact no _ rfl
  rw [bind_apply, w.vertFaces_ok as]; dsimp only
  rw [bind_apply, w.vertFaces_ok ad]; dsimp only
  have tri : ∀ u, m.vAlive u = true → ¬ m.AtBoundary u → ∀ f ∈ (orbit m.sig (m.vHe u)).map m.hFace,
      ∃ b, faceFlips (m.hSrc h) (m.hSrc (m.hNext h)) v f m = .ok b m := by
    intro u au bu f hf
    obtain ⟨x, hx, rfl⟩ := List.mem_map.1 hf
    obtain ⟨ax, sx⟩ := (w.mem_ring au).1 hx
    refine faceFlips_ok g _ _ v ax (g.tri.onTri ax ?_)
    cases hb : m.hBd x
    · rfl
    · exact absurd ⟨x, ax, sx, hb⟩ bu
  obtain ⟨fl, hfl⟩ := anyFlips_ok (m.hSrc h) (m.hSrc (m.hNext h)) v ((orbit m.sig (m.vHe (m.hSrc h))).map m.hFace ++
    (orbit m.sig (m.vHe (m.hSrc (m.hNext h)))).map m.hFace) false (by
      intro f hf
      rcases List.mem_append.1 hf with hf | hf
      · exact tri _ as b1 f hf
      · exact tri _ ad b2 f hf)
  rw [bind_apply, hfl]; dsimp only
  split
  · exact no _ rfl
  rw [bind_apply, w.ringVerts_ok as]; dsimp only
  rw [bind_apply, w.ringVerts_ok ad]; dsimp only
  obtain ⟨th, hth⟩ := anyThin_ok w (((orbit m.sig (m.vHe (m.hSrc (m.hNext h)))).map fun x => m.hSrc (m.hNext x)).filter fun x =>
    ((orbit m.sig (m.vHe (m.hSrc h))).map fun x => m.hSrc (m.hNext x)).contains x) (by
      intro x hx
      obtain ⟨y, hy, rfl⟩ := List.mem_map.1 (List.mem_filter.1 hx).1
      exact w.src_alive _ (w.next_alive _ ((w.mem_ring ad).1 hy).1))
  rw [bind_apply, hth]
  exact ⟨_, rfl, fun _ => ⟨b1, b2⟩⟩

end TinyMesh
