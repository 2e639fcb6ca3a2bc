import Verif.Model.Remesh
import Verif.Spec.Remesh
import Verif.Proof.EditB
import Verif.Proof.Pieces
import Verif.Proof.SmoothD
/-
Outcomes of programs that preserve an invariant, and the single edits of the remeshing loops.
-/
namespace TinyMesh
open Orbit
variable {F : Type} {α β : Type}

/-- From a mesh with `I` the program ends normally in a mesh with `I` related to the first one by `R`, or with an error in `E`. -/
def Runs (I : Mesh F → Prop) (E : Err → Prop) (R : Mesh F → Mesh F → Prop) (x : M F α) : Prop :=
  ∀ m, I m → (∃ a m', x m = .ok a m' ∧ I m' ∧ R m m') ∨ ∃ e, E e ∧ x m = .err e

/-- reflexive and transitive -/
structure Pre (R : Mesh F → Mesh F → Prop) : Prop where
  refl : ∀ m, R m m
  trans : ∀ {a b c}, R a b → R b c → R a c

variable {I : Mesh F → Prop} {E : Err → Prop} {R : Mesh F → Mesh F → Prop}

theorem Runs.pure (P : Pre R) (a : α) : Runs I E R (Pure.pure a : M F α) := fun m h => Or.inl ⟨a, m, rfl, h, P.refl m⟩

theorem Runs.bind (P : Pre R) {x : M F α} {f : α → M F β} (hx : Runs I E R x) (hf : ∀ a, Runs I E R (f a)) :
    Runs I E R (x >>= f) := by
  intro m h
  rw [bind_apply]
  rcases hx m h with ⟨a, m1, e1, h1, r1⟩ | ⟨e, he, e1⟩
  · rw [e1]
    rcases hf a m1 h1 with ⟨b, m2, e2, h2, r2⟩ | ⟨e, he, e2⟩
    · exact Or.inl ⟨b, m2, e2, h2, P.trans r1 r2⟩
    · exact Or.inr ⟨e, he, e2⟩
  · rw [e1]; exact Or.inr ⟨e, he, rfl⟩

/-- a program that only reads, followed by something that may depend on what was read -/
theorem Runs.look (P : Pre R) {x : M F α} {f : α → M F β} (hx : ∀ m, I m → ∃ a, x m = .ok a m)
    (hf : ∀ a, Runs I E R (f a)) : Runs I E R (x >>= f) := by
  refine Runs.bind P (fun m h => ?_) hf
  obtain ⟨a, e⟩ := hx m h
  exact Or.inl ⟨a, m, e, h, P.refl m⟩

theorem Runs.forAll [Scalar F] (P : Pre R) {body : Nat → M F Unit} (h : ∀ i, Runs I E R (body i)) :
    ∀ l, Runs I E R (TinyMesh.forAll body l)
  | [] => .pure P ()
  | i :: l => .bind P (h i) fun _ => Runs.forAll P h l

theorem Runs.forIdx [Scalar F] (P : Pre R) {body : Nat → M F Unit} (h : ∀ i m, I m → i < m.hes.length →
      (∃ a m', body i m = .ok a m' ∧ (I m' ∧ R m m') ∧ m'.hes.length = m.hes.length) ∨ ∃ e, E e ∧ body i m = .err e) :
    ∀ (fuel i : Nat) (m : Mesh F), I m → m.hes.length + 1 ≤ fuel + i → 0 < fuel →
      (∃ a m', TinyMesh.forIdx body fuel i m = .ok a m' ∧ I m' ∧ R m m') ∨ ∃ e, E e ∧ TinyMesh.forIdx body fuel i m = .err e
  | 0, i, m, hi, hl, h0 => by omega
  | fuel + 1, i, m, hi, hl, h0 => by
    simp only [TinyMesh.forIdx, bind_apply, read_apply]
    by_cases c : i < m.hes.length
    · rw [if_pos c, bind_apply]
      rcases h i m hi c with ⟨a, m1, e1, ⟨i1, r1⟩, l1⟩ | ⟨e, he, e1⟩
      · rw [e1]
        rcases Runs.forIdx P h fuel (i + 1) m1 i1 (by omega) (by omega) with ⟨b, m2, e2, i2, r2⟩ | ⟨e, he, e2⟩
        · exact Or.inl ⟨b, m2, e2, i2, P.trans r1 r2⟩
        · exact Or.inr ⟨e, he, e2⟩
      · rw [e1]; exact Or.inr ⟨e, he, rfl⟩
    · rw [if_neg c]
      exact Or.inl ⟨(), m, rfl, hi, P.refl m⟩

theorem Runs.forHalfedges [Scalar F] (P : Pre R) {body : Nat → M F Unit} (h : ∀ i m, I m → i < m.hes.length →
      (∃ a m', body i m = .ok a m' ∧ (I m' ∧ R m m') ∧ m'.hes.length = m.hes.length) ∨ ∃ e, E e ∧ body i m = .err e) :
    Runs I E R (TinyMesh.forHalfedges body) := by
  intro m hi
  simp only [TinyMesh.forHalfedges, bind_apply, read_apply]
  exact Runs.forIdx P h _ _ m hi (by omega) (by omega)

/-! The edits -/

variable [Scalar F] {m m' : Mesh F}

theorem NoReuse.refl (m : Mesh F) : NoReuse m m :=
  ⟨fun _ h _ => h, fun _ h _ => h, fun _ h _ => h, Nat.le_refl _, Nat.le_refl _, Nat.le_refl _⟩

omit [Scalar F] in
theorem NoReuse.trans {m1 m2 m3 : Mesh F} (h : NoReuse m1 m2) (h' : NoReuse m2 m3) : NoReuse m1 m3 :=
  ⟨fun x a b => h.h x (h'.h x a (Nat.lt_of_lt_of_le b h.hF)) b,
    fun x a b => h.v x (h'.v x a (Nat.lt_of_lt_of_le b h.vF)) b,
    fun x a b => h.f x (h'.f x a (Nat.lt_of_lt_of_le b h.fF)) b,
    Nat.le_trans h.hF h'.hF, Nat.le_trans h.vF h'.vF, Nat.le_trans h.fF h'.fF⟩

theorem Mesh.SameButPos.good (h : m.SameButPos m') (g : m.Good) : m'.Good := by
  rw [h]; exact g.setPos _

theorem Mesh.SameButPos.noReuse (h : m.SameButPos m') : NoReuse m m' := by
  rw [h]; exact ⟨fun _ h _ => h, fun _ h _ => h, fun _ h _ => h, Nat.le_refl _, Nat.le_refl _, Nat.le_refl _⟩

theorem Mesh.SameButPos.corresp (h : m.SameButPos m') : Corresp m m' := by
  rw [h]; exact .of_eq rfl rfl rfl rfl

theorem Mesh.SameButPos.keepsHoles (h : m.SameButPos m') : KeepsHoles m m' := by
  rw [h]; exact .of_eq rfl rfl rfl rfl rfl

theorem Mesh.SameButPos.euler (h : m.SameButPos m') : m'.euler2 = m.euler2 := by
  rw [h]; rfl

theorem SplitStep.noReuse {h he : Nat} (S : SplitStep m m' h he) : NoReuse m m' := by
  refine ⟨?_, ?_, ?_, by rw [S.R.hfr]; omega, by rw [S.R.vfr]; omega, by rw [S.R.ffr]; omega⟩
  · intro x a l
    rcases (S.R.hal x).1 a with h1 | h1
    · exact h1
    · omega
  · intro x a l
    rcases (S.R.val x).1 a with h1 | h1
    · exact h1
    · omega
  · intro x a l
    rcases (S.R.fal x).1 a with h1 | h1
    · exact h1
    · omega

theorem halfedgeAt_ok {i : Nat} (h : i < m.hes.length) : halfedgeAt (i : Int) m = .ok m.hes[i] m := by
  have : ¬ ((i : Int) < 0) := by omega
  simp [halfedgeAt, arrayAt, this, List.getElem?_eq_getElem h]

theorem hes_alive (w : m.WF) {i : Nat} (h : i < m.hes.length) : m.hAlive m.hes[i] = true :=
  (w.hDense.mem _).1 (List.getElem_mem h)

/-- a face without flagged half-edges is a triangle -/
theorem Mesh.Good.onTri (g : m.Good) {h : Nat} (a : m.hAlive h = true)
    (c : (orbit m.hNext (m.fHe (m.hFace h))).any m.hBd = false) : m.OnTri h := by
  rcases g.tri.holds h a with t | t
  · exact t
  · have e := (t h a rfl).1
    have := (g.wf.mem_loop (g.wf.face_alive _ a)).2 ⟨a, rfl⟩
    have := List.any_eq_false.1 c h this
    exact absurd e this

end TinyMesh
