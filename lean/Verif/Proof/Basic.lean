import Verif.Model.Construct
import Verif.Spec.WF
import Verif.Lib.Orbit
/-
Evaluation rules for programs, and the meaning of circulator loops on consistent meshes.
-/
namespace TinyMesh
open Orbit
variable {F : Type} {α β : Type}

section Eval

@[simp] theorem bind_apply (x : M F α) (f : α → M F β) (m : Mesh F) :
    (x >>= f) m = match x m with
      | .ok a m' => f a m'
      | .err e => .err e := rfl

@[simp] theorem pure_apply (a : α) (m : Mesh F) : (pure a : M F α) m = .ok a m := rfl

@[simp] theorem read_apply (f : Mesh F → α) (m : Mesh F) : M.read f m = .ok (f m) m := rfl
@[simp] theorem fail_apply (e : Err) (m : Mesh F) : (M.fail e : M F α) m = .err e := rfl

theorem assert_true {p : Bool} (h : p = true) (m : Mesh F) : (M.assert p : M F Unit) m = .ok () m := by
  simp [M.assert, h]

theorem upd_same {γ : Type} (f : Nat → γ) (a : Nat) (b : γ) : upd f a b a = b := by simp [upd]
theorem upd_ne {γ : Type} (f : Nat → γ) {a x : Nat} (b : γ) (h : x ≠ a) : upd f a b x = f x := by
  simp [upd, h]

variable {m : Mesh F} {h : Nat}
theorem getSrc_ok (a : m.hAlive h = true) : getSrc h m = .ok (m.hSrc h) m := by simp [getSrc, a]
theorem getNext_ok (a : m.hAlive h = true) : getNext h m = .ok (m.hNext h) m := by simp [getNext, a]
theorem getRev_ok (a : m.hAlive h = true) : getRev h m = .ok (m.hRev h) m := by simp [getRev, a]
theorem getFace_ok (a : m.hAlive h = true) : getFace h m = .ok (m.hFace h) m := by simp [getFace, a]
theorem getHIdx_ok (a : m.hAlive h = true) : getHIdx h m = .ok (m.hIdx h) m := by simp [getHIdx, a]
theorem getBd_ok (a : m.hAlive h = true) : getBd h m = .ok (m.hBd h) m := by simp [getBd, a]
theorem getPos_ok (a : m.vAlive h = true) : getPos h m = .ok (m.vPos h) m := by simp [getPos, a]
theorem getVHe_ok (a : m.vAlive h = true) : getVHe h m = .ok (m.vHe h) m := by simp [getVHe, a]
theorem getVIdx_ok (a : m.vAlive h = true) : getVIdx h m = .ok (m.vIdx h) m := by simp [getVIdx, a]
theorem getLock_ok (a : m.vAlive h = true) : getLock h m = .ok (m.vLock h) m := by simp [getLock, a]
theorem getFHe_ok (a : m.fAlive h = true) : getFHe h m = .ok (m.fHe h) m := by simp [getFHe, a]
theorem getFIdx_ok (a : m.fAlive h = true) : getFIdx h m = .ok (m.fIdx h) m := by simp [getFIdx, a]

theorem getDst_ok (a : m.hAlive h = true) (b : m.hAlive (m.hNext h) = true) :
    getDst h m = .ok (m.hSrc (m.hNext h)) m := by
  simp [getDst, getNext_ok a, getSrc_ok b]

end Eval

section Circ

/-- The loop over an explicit list of elements. -/
def foldList (body : Nat → β → M F (Bool × β)) : List Nat → β → M F β
  | [], b => pure b
  | x :: xs, b => do
    let (stop, b') ← body x b
    if stop then pure b' else foldList body xs b'

/-- A pure loop body over an explicit list of elements. -/
def foldPure (g : Nat → β → Bool × β) : List Nat → β → β
  | [], b => b
  | x :: xs, b => if (g x b).1 then (g x b).2 else foldPure g xs (g x b).2

/-- A circulator loop whose body keeps the circulation `st` intact (invariant `P`) visits exactly the orbit
of its start, in order. -/
theorem circLoop_eq {step : Nat → M F Nat} {body : Nat → β → M F (Bool × β)} {st : Nat → Nat}
    (P : Mesh F → Prop) (start p : Nat)
    (hstep : ∀ m, P m → ∀ i, i < p → step (st^[i] start) m = .ok (st^[i + 1] start) m)
    (hbody : ∀ m, P m → ∀ i, i < p → ∀ b r m', body (st^[i] start) b m = .ok r m' → P m')
    (hp : st^[p] start = start) (hmin : ∀ i, 0 < i → i < p → st^[i] start ≠ start)
    (h0 : ∀ i, i < p → st^[i] start ≠ 0) :
    ∀ k i fuel b m, P m → i + k = p → 0 < k → k ≤ fuel →
      circLoop step body start fuel (st^[i] start) b m =
        foldList body ((List.range' i k).map (fun j => st^[j] start)) b m := by
  intro k
  induction k with
  | zero => intro i fuel b m _ _ h; omega
  | succ k ih =>
    intro i fuel b m hP hik _ hf
    obtain ⟨fuel, rfl⟩ : ∃ f, fuel = f + 1 := ⟨fuel - 1, by omega⟩
    simp only [circLoop, List.range'_succ, List.map_cons, foldList, bind_apply]
    cases hb : body (st^[i] start) b m with
    | err e => rfl
    | ok r m' =>
      obtain ⟨stop, b'⟩ := r
      have hP' : P m' := hbody m hP i (by omega) b _ _ hb
      dsimp only
      by_cases hs : stop = true
      · simp [hs]
      · have hs' : stop = false := by simpa using hs
        subst hs'
        have hst := hstep m' hP' i (by omega)
        simp only [Bool.false_eq_true, if_false, bind_apply, hst]
        rcases Nat.eq_zero_or_pos k with hk | hk
        · subst hk
          have : st^[i + 1] start = start := by rw [show i + 1 = p by omega]; exact hp
          simp [this, foldList]
        · have h1 : st^[i + 1] start ≠ start := hmin (i + 1) (by omega) (by omega)
          have h2 : st^[i + 1] start ≠ 0 := h0 (i + 1) (by omega)
          simp only [h1, h2, or_self, if_false]
          exact ih (i + 1) fuel b' m' hP' (by omega) hk (by omega)

theorem foldList_pure {body : Nat → β → M F (Bool × β)} {g : Nat → β → Bool × β} {m : Mesh F} :
    ∀ (l : List Nat) (b : β), (∀ x ∈ l, ∀ b, body x b m = .ok (g x b) m) →
      foldList body l b m = .ok (foldPure g l b) m := by
  intro l
  induction l with
  | nil => intro b _; rfl
  | cons x xs ih =>
    intro b h
    have hx := h x (by simp) b
    simp only [foldList, bind_apply, hx, foldPure]
    by_cases hs : (g x b).1 = true
    · simp [hs]
    · simp only [hs]
      exact ih _ (fun y hy => h y (by simp [hy]))

theorem circ_eq {step : Nat → M F Nat} {body : Nat → β → M F (Bool × β)} {st : Nat → Nat} {S : Nat → Prop}
    {N : Nat} (pm : Perm st S N) (P : Mesh F → Prop) {start : Nat} (hs : S start)
    (h0 : ∀ x, S x → x ≠ 0) (m : Mesh F) (hN : N ≤ m.hFresh) (hP : P m)
    (hstep : ∀ m, P m → ∀ x, S x → step x m = .ok (st x) m)
    (hbody : ∀ m, P m → ∀ x, S x → ∀ b r m', body x b m = .ok r m' → P m') (b : β) :
    circ step start b body m = foldList body (orbit st start) b m := by
  have hsp := pm.period_spec hs
  have hle := pm.period_le hs
  unfold circ
  simp only [h0 start hs, if_false]
  have := circLoop_eq (step := step) (body := body) (st := st) P start (period st start)
    (fun m hm i _ => by
      rw [hstep m hm _ (pm.iter hs i), ← Function.iterate_succ_apply' st])
    (fun m hm i _ => hbody m hm _ (pm.iter hs i)) hsp.2.1 hsp.2.2
    (fun i _ => h0 _ (pm.iter hs i)) (period st start) 0 m.hFresh b m hP (by omega) hsp.1 (by omega)
  simpa [orbit, List.range_eq_range'] using this

theorem circ_pure {step : Nat → M F Nat} {body : Nat → β → M F (Bool × β)} {st : Nat → Nat} {S : Nat → Prop}
    {N : Nat} (pm : Perm st S N) {start : Nat} (hs : S start)
    (h0 : ∀ x, S x → x ≠ 0) (m : Mesh F) (hN : N ≤ m.hFresh)
    (hstep : ∀ x, S x → step x m = .ok (st x) m) (g : Nat → β → Bool × β)
    (hbody : ∀ x, S x → ∀ b, body x b m = .ok (g x b) m) (b : β) :
    circ step start b body m = .ok (foldPure g (orbit st start) b) m := by
  rw [circ_eq pm (fun m' => m' = m) hs h0 m hN rfl]
  · exact foldList_pure _ _ (fun x hx b => hbody x (pm.orbit_S hs hx) b)
  · intro m' hm x hx; subst hm; exact hstep x hx
  · intro m' hm x hx b r m'' h
    subst hm
    rw [hbody x hx b] at h
    injection h with _ h2
    exact h2.symm

theorem foldPure_append (l acc : List Nat) :
    foldPure (fun x l => (false, l ++ [x])) l acc = acc ++ l := by
  induction l generalizing acc with
  | nil => simp [foldPure]
  | cons x xs ih => simp [foldPure, ih]

theorem foldPure_map {γ : Type} (f : Nat → γ) (l : List Nat) (acc : List γ) :
    foldPure (fun x l => (false, l ++ [f x])) l acc = acc ++ l.map f := by
  induction l generalizing acc with
  | nil => simp [foldPure]
  | cons x xs ih => simp [foldPure, ih]

theorem foldPure_count (l : List Nat) (n : Nat) :
    foldPure (fun _ d => (false, d + 1)) l n = n + l.length := by
  induction l generalizing n with
  | nil => simp [foldPure]
  | cons x xs ih => simp [foldPure, ih]; omega

theorem foldPure_any (q : Nat → Bool) (l : List Nat) :
    foldPure (fun x _ => (q x, q x)) l false = l.any q := by
  induction l with
  | nil => simp [foldPure]
  | cons x xs ih =>
    simp only [foldPure, List.any_cons]
    cases hq : q x <;> simp [ih]

theorem foldPure_all (q : Nat → Bool) (l : List Nat) :
    foldPure (fun x _ => (!q x, q x)) l true = l.all q := by
  induction l with
  | nil => simp [foldPure]
  | cons x xs ih =>
    simp only [foldPure, List.all_cons]
    cases hq : q x <;> simp [ih]

end Circ
end TinyMesh
