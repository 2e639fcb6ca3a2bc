import Verif.Proof.ConstA
import Verif.Props.ExWhole
/-
The functions for constant objects (C119).
-/
set_option maxRecDepth 100000
namespace TinyMesh
variable {F : Type} [ScalarX F] {m m' : Mesh F}

/-- C119: a function that is given a constant object and returns has changed neither it nor anything else of the mesh. This holds for every mesh,
consistent or not. -/
theorem c119_const {α : Type} (q : Query F α) {a : α} (e : q.run m = .ok a m') : m' = m := OnlyReads.query q m a m' e

/-- C119: a program that asks a question it does not need the answer of does what it does without, provided that the question is answered. -/
theorem c119_between {α β γ : Type} (q : Query F α) (x : M F β) (y : β → M F γ) (ans : ∀ b m1, x m = .ok b m1 → ∃ a m2, q.run m1 = .ok a m2) :
    (x >>= fun b => q.run >>= fun _ => y b) m = (x >>= y) m := by
  rw [bind_apply, bind_apply]
  cases k : x m with
  | err e => rfl
  | ok b m1 =>
    obtain ⟨a, m2, e⟩ := ans b m1 k
    cases c119_const q e
    dsimp only
    rw [bind_apply, e]

/-- C119: two questions can be asked in any order; the answers are the same. -/
theorem c119_order {α β : Type} (q : Query F α) (r : Query F β) {a : α} {b : β} :
    (∃ m', (do let x ← q.run; let y ← r.run; pure (x, y)) m = .ok (a, b) m') ↔ ∃ m', (do let y ← r.run; let x ← q.run; pure (x, y)) m = .ok (a, b) m' := by
  have key : ∀ {α β : Type} (q : Query F α) (r : Query F β) (a : α) (b : β) (γ : Type) (f : α → β → γ) (c : γ) (m' : Mesh F),
      (do let x ← q.run; let y ← r.run; pure (f x y)) m = .ok c m' → ∃ x y, q.run m = .ok x m ∧ r.run m = .ok y m ∧ f x y = c := by
    intro α β q r a b γ f c m' e
    obtain ⟨x, k1, e⟩ := OnlyReads.step (OnlyReads.query q) e
    obtain ⟨y, k2, e⟩ := OnlyReads.step (OnlyReads.query r) e
    exact ⟨x, y, k1, k2, by injection e⟩
  constructor
  · rintro ⟨m', e⟩
    obtain ⟨x, y, k1, k2, h⟩ := key q r a b _ Prod.mk _ _ e
    cases h
    exact ⟨m, by rw [bind_apply, k2]; dsimp only; rw [bind_apply, k1]; rfl⟩
  · rintro ⟨m', e⟩
    obtain ⟨y, x, k2, k1, h⟩ := key r q b a _ (fun y x => (x, y)) _ _ e
    cases h
    exact ⟨m, by rw [bind_apply, k1]; dsimp only; rw [bind_apply, k2]; rfl⟩

namespace Fixed
open Sample

def answers {α : Type} (q : Query Fix α) (m : Mesh Fix) : Bool := match q.run m with | .ok _ _ => true | .err _ => false

theorem answers_iff {α : Type} {q : Query Fix α} {m : Mesh Fix} (h : answers q m = true) : ∃ a, q.run m = .ok a m := by
  unfold answers at h
  cases k : q.run m with
  | err e => rw [k] at h; cases h
  | ok a m' => cases c119_const q k; exact ⟨a, rfl⟩

/-- C119: questions that are answered on a tetrahedron -/
example : ∃ m : Mesh Fix, m.Good ∧ m.fs.length = 4 ∧ (∃ a, (Query.laplacian .belkin08).run m = .ok a m) ∧ (∃ a, (Query.derivatives sv true).run m = .ok a m) ∧
    (∃ a, (Query.field sv sv false).run m = .ok a m) ∧ (∃ a, (Query.H 1).run m = .ok a m) ∧ (∃ a, (Query.triangle 1).run m = .ok a m) ∧
    (∃ a, (Query.savePLY id).run m = .ok a m) ∧ ∃ a, Query.verify.run m = .ok a m := by
  obtain ⟨u, m, l, m1, h1, h2, h3⟩ := thenSt_iff (o := construct cupV (cupI ++ [1, 2, 3]) blank) (f := fun m => .ok () m) (p := fun m _ _ =>
    decide (m.fs.length = 4) && answers (.laplacian .belkin08) m && answers (.derivatives sv true) m && answers (.field sv sv false) m && answers (.H 1) m &&
    answers (.triangle 1) m && answers (.savePLY id) m && answers .verify m) (by decide +kernel)
  cases u
  simp only [Bool.and_eq_true, decide_eq_true_eq] at h3
  obtain ⟨⟨⟨⟨⟨⟨⟨k1, k2⟩, k3⟩, k4⟩, k5⟩, k6⟩, k7⟩, k8⟩ := h3
  exact ⟨m, c01_construct_consistent (Owned.empty _) h1, k1, answers_iff k2, answers_iff k3, answers_iff k4, answers_iff k5, answers_iff k6, answers_iff k7, answers_iff k8⟩

end Fixed
end TinyMesh
