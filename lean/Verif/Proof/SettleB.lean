import Verif.Proof.SettleA
import Verif.Proof.CurvI
/-
What the second half of the front changes: the positions of the vertices inside.
-/
namespace TinyMesh
open Orbit

theorem OnlyReads.assert {F : Type} (b : Bool) : OnlyReads (M.assert b : M F Unit) := by
  intro m a m' h
  unfold M.assert at h
  split at h
  · cases h; rfl
  · cases h

theorem OnlyReads.foldAll {F α β : Type} {body : α → β → M F β} (h : ∀ a b, OnlyReads (body a b)) : ∀ l b, OnlyReads (TinyMesh.foldAll body l b)
  | [], _ => OnlyReads.pure _
  | a :: l, b => OnlyReads.bind (h a b) fun _ => foldAll h l _

theorem OnlyReads.getPosList {F : Type} : ∀ l, OnlyReads (TinyMesh.getPosList l : M F (List (Vec3 F)))
  | [] => OnlyReads.pure _
  | _ :: l => OnlyReads.bind (OnlyReads.getPos _) fun _ => OnlyReads.bind (getPosList l) fun _ => OnlyReads.pure _

theorem OnlyReads.fIsLocked {F : Type} (f : Nat) : OnlyReads (TinyMesh.fIsLocked f : M F Bool) := by
  unfold TinyMesh.fIsLocked
  exact OnlyReads.bind (OnlyReads.getFHe _) fun _ => OnlyReads.circ OnlyReads.faceStep fun _ _ => by only_reads

section
variable {F : Type} [ScalarX F]

theorem OnlyReads.faceNormal (f : Nat) : OnlyReads (TinyMesh.faceNormal f : M F (Vec3 F)) := by
  unfold TinyMesh.faceNormal
  exact OnlyReads.bind (OnlyReads.faceVerts _) fun _ => OnlyReads.bind (OnlyReads.getPosList _) fun _ => OnlyReads.orThrowM _

theorem OnlyReads.settleSeed (f : Nat) : OnlyReads (TinyMesh.settleSeed f : M F (List Nat)) := by
  unfold TinyMesh.settleSeed
  exact OnlyReads.bind (OnlyReads.getFHe _) fun _ => OnlyReads.circ OnlyReads.faceStep fun _ _ => by only_reads

theorem OnlyReads.settleNear (seen : List Nat) : ∀ us, OnlyReads (TinyMesh.settleNear seen us : M F (List Nat))
  | [] => OnlyReads.pure _
  | u :: us => OnlyReads.bind (OnlyReads.getLock _) fun _ => OnlyReads.bind (settleNear seen us) fun _ => OnlyReads.pure _

theorem OnlyReads.settleSearch : ∀ fuel q seen, OnlyReads (TinyMesh.settleSearch fuel q seen : M F (List Nat))
  | fuel, [], seen => by cases fuel <;> exact OnlyReads.pure _
  | 0, _ :: _, _ => OnlyReads.fail _
  | fuel + 1, v :: q, seen => by
    rw [TinyMesh.settleSearch]
    exact OnlyReads.ite (settleSearch _ _ _) (OnlyReads.bind (OnlyReads.ringVerts _) fun _ => OnlyReads.bind (OnlyReads.settleNear _ _) fun _ => settleSearch _ _ _)

theorem OnlyReads.settleInside (f : Nat) : OnlyReads (TinyMesh.settleInside f : M F (List Nat)) := by
  unfold TinyMesh.settleInside
  exact OnlyReads.bind (OnlyReads.settleSeed _) fun _ => OnlyReads.bind (OnlyReads.read _) fun _ => OnlyReads.settleSearch _ _ _

theorem OnlyReads.firstNormals (vs : List Nat) : OnlyReads (TinyMesh.firstNormals vs : M F (Nat → Vec3 F)) := by
  unfold TinyMesh.firstNormals
  exact OnlyReads.foldAll (fun _ _ => OnlyReads.bind (OnlyReads.vertNormal _) fun _ => OnlyReads.pure _) _ _

theorem OnlyReads.normalLoop (n : Nat → Vec3 F) : ∀ hs a s, OnlyReads (TinyMesh.normalLoop n hs a s)
  | [], _, _ => OnlyReads.pure _
  | h :: hs, a, s => OnlyReads.bind (OnlyReads.getDst _) fun _ => OnlyReads.bind (OnlyReads.cotWeight _) fun _ => normalLoop n hs _ _

theorem OnlyReads.smoothNormal (v : Nat) (n : Nat → Vec3 F) : OnlyReads (TinyMesh.smoothNormal v n) := by
  unfold TinyMesh.smoothNormal
  exact OnlyReads.bind (OnlyReads.ringList _) fun _ => OnlyReads.bind (OnlyReads.normalLoop _ _ _ _) fun _ => OnlyReads.bind (OnlyReads.orThrowM _) fun _ =>
    OnlyReads.bind (OnlyReads.orThrowM _) fun _ => OnlyReads.pure _

theorem OnlyReads.smoothNormals (vs : List Nat) : ∀ k n, OnlyReads (TinyMesh.smoothNormals vs k n : M F (Nat → Vec3 F))
  | 0, _ => OnlyReads.pure _
  | k + 1, _ => OnlyReads.bind (OnlyReads.foldAll OnlyReads.smoothNormal _ _) fun _ => smoothNormals vs k _

theorem OnlyReads.faceInside (vs : List Nat) (f : Nat) : OnlyReads (TinyMesh.faceInside vs f : M F Bool) := by
  unfold TinyMesh.faceInside
  refine OnlyReads.bind (OnlyReads.getFHe _) fun _ => OnlyReads.circ OnlyReads.faceStep fun _ _ => ?_
  exact OnlyReads.bind (OnlyReads.getSrc _) fun _ => OnlyReads.ite (OnlyReads.pure _) (OnlyReads.bind (OnlyReads.fIsLocked _) fun _ => OnlyReads.pure _)

theorem OnlyReads.facesAt (vs : List Nat) (v : Nat) (fs : List Nat) : OnlyReads (TinyMesh.facesAt vs v fs : M F (List Nat)) := by
  unfold TinyMesh.facesAt
  refine OnlyReads.bind (OnlyReads.getVHe _) fun _ => OnlyReads.circ OnlyReads.ringStep fun _ _ => ?_
  exact OnlyReads.bind (OnlyReads.getFace _) fun _ => OnlyReads.bind (OnlyReads.faceInside _ _) fun _ => OnlyReads.pure _

theorem OnlyReads.turns (n : Nat → Vec3 F) (fs : List Nat) : OnlyReads (TinyMesh.turns n fs) := by
  unfold TinyMesh.turns
  refine OnlyReads.foldAll (fun _ _ => OnlyReads.bind ?_ fun _ => OnlyReads.pure _) _ _
  unfold TinyMesh.turnOf
  exact OnlyReads.bind (OnlyReads.faceNormal _) fun _ => OnlyReads.bind (OnlyReads.faceVerts _) fun _ => OnlyReads.bind (OnlyReads.orThrowM _) fun _ => OnlyReads.pure _

theorem OnlyReads.gradAt (R : Nat → Option (Mat3 F)) (h : Nat) : OnlyReads (TinyMesh.gradAt R h) := by
  unfold TinyMesh.gradAt
  refine OnlyReads.bind (OnlyReads.getNext _) fun _ => OnlyReads.bind (OnlyReads.getNext _) fun _ => OnlyReads.bind (OnlyReads.getNext _) fun _ =>
    OnlyReads.bind (OnlyReads.assert _) fun _ => OnlyReads.bind (OnlyReads.getSrc _) fun _ => OnlyReads.bind (OnlyReads.getSrc _) fun _ =>
    OnlyReads.bind (OnlyReads.getSrc _) fun _ => OnlyReads.bind (OnlyReads.getPos _) fun _ => OnlyReads.bind (OnlyReads.getPos _) fun _ =>
    OnlyReads.bind (OnlyReads.getPos _) fun _ => OnlyReads.bind (OnlyReads.orThrowM _) fun _ => OnlyReads.bind (OnlyReads.getFace _) fun _ => ?_
  split
  · exact OnlyReads.fail _
  · exact OnlyReads.orThrowM _

theorem OnlyReads.gradLoop (R : Nat → Option (Mat3 F)) : ∀ hs s, OnlyReads (TinyMesh.gradLoop R hs s)
  | [], _ => OnlyReads.pure _
  | h :: hs, _ => OnlyReads.bind (OnlyReads.gradAt _ _) fun _ => gradLoop R hs _

theorem OnlyReads.gradients (R : Nat → Option (Mat3 F)) (vs : List Nat) : OnlyReads (TinyMesh.gradients R vs) := by
  unfold TinyMesh.gradients
  refine OnlyReads.foldAll (fun _ _ => OnlyReads.bind ?_ fun _ => OnlyReads.pure _) _ _
  unfold TinyMesh.gradOf
  exact OnlyReads.bind (OnlyReads.ringList _) fun _ => OnlyReads.bind (OnlyReads.gradLoop _ _ _) fun _ => OnlyReads.orThrowM _

theorem OnlyReads.poissonLoop (vs : List Nat) (row : Nat) : ∀ hs s t, OnlyReads (TinyMesh.poissonLoop vs row hs s t : M F (F × LineSys F))
  | [], _, _ => OnlyReads.pure _
  | h :: hs, _, _ => by
    unfold TinyMesh.poissonLoop
    exact OnlyReads.bind (OnlyReads.getDst _) fun _ => OnlyReads.bind (OnlyReads.cotWeight _) fun _ => OnlyReads.ite (poissonLoop vs row hs _ _)
      (poissonLoop vs row hs _ _)

theorem OnlyReads.poissonRow (vs : List Nat) (v : Nat) (t : LineSys F) : OnlyReads (TinyMesh.poissonRow vs v t) := by
  unfold TinyMesh.poissonRow
  exact OnlyReads.bind (OnlyReads.ringList _) fun _ => OnlyReads.bind (OnlyReads.poissonLoop _ _ _ _ _) fun _ => OnlyReads.pure _

variable {m m' : Mesh F}

theorem intern_mem (l : List Nat) (k : Nat) : ∀ x ∈ (intern l k).1, x ∈ l ∨ x = k := by
  unfold intern
  split
  · exact fun x hx => .inl hx
  · intro x hx
    simpa using hx

theorem poissonLoop_free {vs : List Nat} {row : Nat} : ∀ {hs : List Nat} {s s' : F} {t t' : LineSys F},
    poissonLoop vs row hs s t m = .ok (s', t') m' → (∀ v ∈ t.free, v ∈ vs) → ∀ v ∈ t'.free, v ∈ vs
  | [], s, s', t, t', e, h => by
    cases e
    exact h
  | x :: hs, s, s', t, t', e, h => by
    unfold poissonLoop at e
    obtain ⟨u, -, e⟩ := OnlyReads.step (OnlyReads.getDst _) e
    obtain ⟨z, -, e⟩ := OnlyReads.step (OnlyReads.cotWeight _) e
    split at e
    · next c =>
      refine poissonLoop_free e ?_
      intro v hv
      rcases intern_mem _ _ v hv with k | k
      · exact h v k
      · rw [k]; simpa using c
    · exact poissonLoop_free (hs := hs) e h

theorem poissonRows_free {vs : List Nat} : ∀ {l : List Nat} {t t' : LineSys F},
    foldAll (poissonRow vs) l t m = .ok t' m' → (∀ v ∈ l, v ∈ vs) → (∀ v ∈ t.free, v ∈ vs) → ∀ v ∈ t'.free, v ∈ vs
  | [], t, t', e, _, h => by
    cases e
    exact h
  | x :: l, t, t', e, hl, h => by
    obtain ⟨u, e1, e2⟩ := OnlyReads.step (OnlyReads.poissonRow _ _ _) e
    refine poissonRows_free e2 (fun v hv => hl v (by simp [hv])) ?_
    unfold poissonRow at e1
    obtain ⟨hs, -, e1⟩ := OnlyReads.step (OnlyReads.ringList _) e1
    obtain ⟨⟨s, t1⟩, e3, e1⟩ := OnlyReads.step (OnlyReads.poissonLoop _ _ _ _ _) e1
    cases e1
    refine poissonLoop_free (t' := t1) e3 ?_
    intro v hv
    rcases intern_mem _ _ v hv with k | k
    · exact h v k
    · rw [k]; exact hl x (by simp)

/-- only the positions of the listed vertices change -/
theorem putInside_frame (x : Nat → Vec3 F) : ∀ {vs : List Nat} {k : Nat} {m m' : Mesh F}, putInside x k vs m = .ok () m' →
    m' = { m with vPos := m'.vPos } ∧ ∀ v, v ∉ vs → m'.vPos v = m.vPos v
  | [], k, m, m', e => by cases e; exact ⟨rfl, fun _ _ => rfl⟩
  | v :: vs, k, m, m', e => by
    unfold putInside at e
    rw [bind_apply] at e
    unfold setPos at e
    split at e
    · next a m1 e1 =>
      split at e1
      · cases e1
        obtain ⟨h1, h2⟩ := putInside_frame x e
        refine ⟨by rw [h1], fun u hu => ?_⟩
        rw [h2 u (fun h => hu (by simp [h]))]
        exact upd_ne _ _ (fun h => hu (by simp [h]))
      · cases e1
    · cases e

/-- what `settle` changes -/
theorem settle_frame {ord : List Nat → List Nat} {solve : LinSolve F} {f : Nat} (e : settle ord solve f m = .ok () m') :
    ∃ l, settleInside f m = .ok l m ∧ m' = { m with vPos := m'.vPos } ∧ ∀ v, v ∉ ord l → m'.vPos v = m.vPos v := by
  unfold settle at e
  obtain ⟨l, e0, e⟩ := OnlyReads.step (OnlyReads.settleInside _) e
  obtain ⟨n, -, e⟩ := OnlyReads.step (OnlyReads.firstNormals _) e
  obtain ⟨n, -, e⟩ := OnlyReads.step (OnlyReads.smoothNormals _ _ _) e
  obtain ⟨fs, -, e⟩ := OnlyReads.step (OnlyReads.foldAll (OnlyReads.facesAt _) _ _) e
  obtain ⟨R, -, e⟩ := OnlyReads.step (OnlyReads.turns _ _) e
  obtain ⟨g, -, e⟩ := OnlyReads.step (OnlyReads.gradients _ _) e
  unfold poisson at e
  obtain ⟨t, e1, e⟩ := OnlyReads.step (OnlyReads.foldAll (OnlyReads.poissonRow _) _ _) e
  obtain ⟨xo, -, e⟩ := OnlyReads.step (OnlyReads.getPosList _) e
  obtain ⟨LL, -, e⟩ := OnlyReads.step (OnlyReads.ofTripletsRect _ _ _) e
  obtain ⟨SS, -, e⟩ := OnlyReads.step (OnlyReads.ofTripletsRect _ _ _) e
  obtain ⟨h1, h2⟩ := putInside_frame _ e
  refine ⟨l, e0, h1, fun v hv => h2 v fun hm => hv ?_⟩
  exact poissonRows_free e1 (fun _ h => h) (by simp) v hm

end
end TinyMesh
