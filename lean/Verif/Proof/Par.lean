import Verif.Spec.Par
import Mathlib.Algebra.BigOperators.Fin
import Mathlib.Algebra.BigOperators.Intervals
import Mathlib.Algebra.Order.BigOperators.Group.Finset
/-
Loops whose iterations store to disjoint places that the others do not touch do not depend on the schedule.
-/
namespace TinyMesh
variable {L F : Type}

namespace Prog
variable {α β : Type}

/-- all loads are from `R` and all stores to `W`, whatever values are loaded -/
def Within (R W : L → Prop) : Prog L F α → Prop
  | ret _ => True
  | fail _ => True
  | rd l k => R l ∧ ∀ x, (k x).Within R W
  | wr l _ k => W l ∧ k.Within R W

theorem Within.bind {R W : L → Prop} : ∀ {p : Prog L F α} {f : α → Prog L F β}, p.Within R W → (∀ a, (f a).Within R W) →
    (p >>= f).Within R W
  | .ret a, _, _, hf => hf a
  | .fail _, _, _, _ => trivial
  | .rd _ k, _, h, hf => ⟨h.1, fun x => Within.bind (p := k x) (h.2 x) hf⟩
  | .wr _ _ k, _, h, hf => ⟨h.1, Within.bind (p := k) h.2 hf⟩

theorem Within.mono {R W R' W' : L → Prop} (hR : ∀ l, R l → R' l) (hW : ∀ l, W l → W' l) :
    ∀ {p : Prog L F α}, p.Within R W → p.Within R' W'
  | .ret _, _ => trivial
  | .fail _, _ => trivial
  | .rd _ _, h => ⟨hR _ h.1, fun x => Within.mono hR hW (h.2 x)⟩
  | .wr _ _ _, h => ⟨hW _ h.1, Within.mono hR hW h.2⟩

variable [DecidableEq L]

theorem exec_bind : ∀ (p : Prog L F α) (f : α → Prog L F β) (s : L → F), (p >>= f).exec s =
    match p.exec s with
    | .ok (a, s') => (f a).exec s'
    | .error e => .error e
  | .ret _, _, _ => rfl
  | .fail _, _, _ => rfl
  | .rd l k, f, s => exec_bind (k (s l)) f s
  | .wr _ _ k, f, _ => exec_bind k f _

theorem exec_pure (a : α) (s : L → F) : (pure a : Prog L F α).exec s = .ok (a, s) := rfl

/-- number of memory accesses -/
def cost : Prog L F α → (L → F) → Nat
  | ret _, _ => 0
  | fail _, _ => 0
  | rd l k, s => (k (s l)).cost s + 1
  | wr l x k, s => k.cost (fun l' => if l' = l then x else s l') + 1

theorem exec_frame {R W : L → Prop} : ∀ {p : Prog L F α} {s : L → F} {a : α} {s' : L → F}, p.Within R W →
    p.exec s = .ok (a, s') → ∀ l, ¬ W l → s' l = s l
  | .ret _, s, a, s', _, h, l, _ => by
    simp only [exec, Except.ok.injEq, Prod.mk.injEq] at h
    rw [h.2]
  | .fail _, _, _, _, _, h, _, _ => by simp [exec] at h
  | .rd _ _, _, _, _, hw, h, l, hl => exec_frame (hw.2 _) h l hl
  | .wr l0 x k, s, a, s', hw, h, l, hl => by
    rw [exec_frame hw.2 h l hl]
    have : l ≠ l0 := by rintro rfl; exact hl hw.1
    simp [this]

/-- two outcomes agree on the locations `W` -/
def Same (W : L → Prop) : Except Err (α × (L → F)) → Except Err (α × (L → F)) → Prop
  | .ok a, .ok b => a.1 = b.1 ∧ ∀ l, W l → a.2 l = b.2 l
  | .error e, .error e' => e = e'
  | _, _ => False

omit [DecidableEq L] in
theorem Same.refl (W : L → Prop) (a : Except Err (α × (L → F))) : Same W a a := by
  cases a with
  | ok a => exact ⟨rfl, fun _ _ => rfl⟩
  | error e => rfl

omit [DecidableEq L] in
theorem Same.trans {W : L → Prop} {a b c : Except Err (α × (L → F))} (h : Same W a b) (h' : Same W b c) : Same W a c := by
  cases a <;> cases b <;> cases c <;> simp only [Same] at *
  · rw [h, h']
  · exact ⟨h.1.trans h'.1, fun l hl => (h.2 l hl).trans (h'.2 l hl)⟩

omit [DecidableEq L] in
theorem Same.mono {W W' : L → Prop} (hW : ∀ l, W' l → W l) {a b : Except Err (α × (L → F))} (h : Same W a b) : Same W' a b := by
  cases a <;> cases b <;> simp only [Same] at *
  · exact h
  · exact ⟨h.1, fun l hl => h.2 l (hW l hl)⟩

theorem exec_congr {R W : L → Prop} : ∀ {p : Prog L F α} {s t : L → F}, p.Within R W → (∀ l, R l ∨ W l → s l = t l) →
    Same (fun l => R l ∨ W l) (p.exec s) (p.exec t) ∧ p.cost s = p.cost t
  | .ret _, _, _, _, h => ⟨⟨rfl, h⟩, rfl⟩
  | .fail _, _, _, _, _ => ⟨rfl, rfl⟩
  | .rd l k, s, t, hw, h => by
    have e := h l (Or.inl hw.1)
    simp only [exec, cost, e]
    have := exec_congr (p := k (t l)) (hw.2 _) h
    exact ⟨this.1, by rw [this.2]⟩
  | .wr l x k, s, t, hw, h => by
    simp only [exec, cost]
    have := exec_congr (p := k) (s := fun l' => if l' = l then x else s l') (t := fun l' => if l' = l then x else t l') hw.2
      (by intro l' hl'; split
          · rfl
          · exact h l' hl')
    exact ⟨this.1, by rw [this.2]⟩

end Prog

/-- What each iteration may load and store: an iteration stores only where no other one loads or stores. -/
structure RaceFree (n : Nat) (body : Nat → Prog L F Unit) (R W : Nat → L → Prop) : Prop where
  within : ∀ i < n, (body i).Within (R i) (W i)
  apart : ∀ i < n, ∀ j < n, i ≠ j → ∀ l, W i l → ¬ (R j l ∨ W j l)

variable [DecidableEq L]

namespace RaceFree
variable {n : Nat} {body : Nat → Prog L F Unit} {R W : Nat → L → Prop} {s : L → F}

/-- the state of the iterations after `k` accesses -/
structure Inv (n : Nat) (body : Nat → Prog L F Unit) (R W : Nat → L → Prop) (s : L → F) (k : Nat) (q : Pool L F) : Prop where
  within : ∀ i < n, (q.todo i).Within (R i) (W i)
  other : ∀ l, (∀ i < n, ¬ W i l) → q.mem l = s l
  same : ∀ i < n, Prog.Same (W i) ((body i).exec s) ((q.todo i).exec q.mem)
  cost : k + ∑ i ∈ Finset.range n, (q.todo i).cost q.mem = ∑ i ∈ Finset.range n, (body i).cost s

theorem inv_step (r : RaceFree n body R W) {k : Nat} {q q' : Pool L F} (I : Inv n body R W s k q) (h : Pool.Step n q q') :
    Inv n body R W s (k + 1) q' := by
  -- one access of iteration `i` that leads to `p'` and memory `t`
  suffices H : ∀ (i : Nat) (p' : Prog L F Unit) (t : L → F), i < n → p'.Within (R i) (W i) →
      (∀ l, ¬ W i l → t l = q.mem l) → p'.exec t = (q.todo i).exec q.mem → (q.todo i).cost q.mem = p'.cost t + 1 →
      Inv n body R W s (k + 1) ⟨t, upd q.todo i p'⟩ by
    cases h with
    | @load i l k hi e =>
      have w := I.within i hi
      rw [e] at w
      refine H i _ _ hi (w.2 _) (fun _ _ => rfl) ?_ ?_
      · rw [e]; rfl
      · rw [e]; rfl
    | @store i l x k hi e =>
      have w := I.within i hi
      rw [e] at w
      refine H i _ _ hi w.2 ?_ ?_ ?_
      · intro l' hl'
        have : l' ≠ l := by rintro rfl; exact hl' w.1
        simp [this]
      · rw [e]; rfl
      · rw [e]; rfl
  intro i p' t hi wp ht he hc
  have agree : ∀ j < n, j ≠ i → ∀ l, R j l ∨ W j l → q.mem l = t l := by
    intro j hj hji l hl
    rw [ht l]
    intro hw
    exact r.apart i hi j hj hji.symm l hw hl
  constructor
  · intro j hj
    dsimp only [upd]
    split
    · next h => rw [h]; exact wp
    · exact I.within j hj
  · intro l hl
    dsimp only
    rw [ht l (hl i hi)]
    exact I.other l hl
  · intro j hj
    dsimp only [upd]
    split
    · next h => rw [h, he]; exact I.same i hi
    · next h =>
      exact (I.same j hj).trans ((Prog.exec_congr (I.within j hj) (agree j hj h)).1.mono (fun _ h => Or.inr h))
  · dsimp only
    rw [← I.cost]
    have hm : i ∈ Finset.range n := Finset.mem_range.2 hi
    rw [← Finset.add_sum_erase _ _ hm, ← Finset.add_sum_erase _ _ hm]
    have : ∑ j ∈ (Finset.range n).erase i, (upd q.todo i p' j).cost t =
        ∑ j ∈ (Finset.range n).erase i, (q.todo j).cost q.mem := by
      apply Finset.sum_congr rfl
      intro j hj
      obtain ⟨hji, hj⟩ := Finset.mem_erase.1 hj
      rw [upd, if_neg hji]
      exact (Prog.exec_congr (I.within j (Finset.mem_range.1 hj)) (agree j (Finset.mem_range.1 hj) hji)).2.symm
    rw [this, hc, upd, if_pos rfl]
    omega

theorem inv_steps (r : RaceFree n body R W) {k : Nat} {q : Pool L F} (h : Pool.Steps n k ⟨s, body⟩ q) :
    Inv n body R W s k q := by
  generalize hp : (⟨s, body⟩ : Pool L F) = p at h
  induction h with
  | refl p =>
    subst hp
    exact ⟨r.within, fun _ _ => rfl, fun _ _ => Prog.Same.refl _ _, by simp⟩
  | tail _ h ih => exact r.inv_step (ih hp) h

/-- the sequential loop, started from a memory that agrees with `s` for the iterations to come -/
theorem serial_char (r : RaceFree n body R W) : ∀ (is : List Nat) (t : L → F), is.Nodup → (∀ i ∈ is, i < n) →
    (∀ i ∈ is, ∀ l, R i l ∨ W i l → s l = t l) →
    match serial body is t with
    | .ok t' => (∀ i ∈ is, ∃ s1, (body i).exec s = .ok ((), s1) ∧ ∀ l, W i l → t' l = s1 l) ∧
        ∀ l, (∀ i ∈ is, ¬ W i l) → t' l = t l
    | .error e => ∃ i ∈ is, (body i).exec s = .error e
  | [], t, _, _, _ => ⟨by simp, fun _ _ => rfl⟩
  | i :: is, t, hn, hi, ha => by
    have hin : i < n := hi i (by simp)
    have hc := (Prog.exec_congr (r.within i hin) (ha i (by simp))).1
    rw [serial]
    cases ht : (body i).exec t with
    | error e =>
      rw [ht] at hc
      cases hs : (body i).exec s with
      | error e' =>
        rw [hs] at hc
        simp only [Prog.Same] at hc
        exact ⟨i, by simp, by rw [hs, hc]⟩
      | ok a => rw [hs] at hc; exact absurd hc (by simp [Prog.Same])
    | ok a =>
      rw [ht] at hc
      obtain ⟨u, t1⟩ := a
      cases hs : (body i).exec s with
      | error e' => rw [hs] at hc; exact absurd hc (by simp [Prog.Same])
      | ok b =>
        rw [hs] at hc
        obtain ⟨u', s1⟩ := b
        simp only [Prog.Same] at hc
        obtain ⟨hni, hn'⟩ := List.nodup_cons.1 hn
        have hframe := Prog.exec_frame (r.within i hin) ht
        have ih := serial_char r is t1 hn' (fun j hj => hi j (by simp [hj])) (by
          intro j hj l hl
          have hji : j ≠ i := by rintro rfl; exact hni hj
          rw [hframe l]
          · exact ha j (by simp [hj]) l hl
          · intro hw
            exact r.apart i hin j (hi j (by simp [hj])) hji.symm l hw hl)
        dsimp only
        cases hser : serial body is t1 with
        | error e =>
          rw [hser] at ih
          obtain ⟨j, hj, e'⟩ := ih
          exact ⟨j, by simp [hj], e'⟩
        | ok t' =>
          rw [hser] at ih
          obtain ⟨ih1, ih2⟩ := ih
          refine ⟨?_, ?_⟩
          · intro j hj
            rcases List.mem_cons.1 hj with rfl | hj
            · refine ⟨s1, hs, fun l hl => ?_⟩
              rw [ih2 l]
              · exact (hc.2 l (Or.inr hl)).symm
              · intro k hk hw
                have hkj : k ≠ j := by rintro rfl; exact hni hk
                exact r.apart k (hi k (by simp [hk])) j hin hkj l hw (Or.inr hl)
            · exact ih1 j hj
          · intro l hl
            rw [ih2 l (fun k hk => hl k (by simp [hk])), hframe l (hl i (by simp))]

/-- the sequential loop from `s` -/
theorem serial_ok (r : RaceFree n body R W) {s' : L → F} (h : serial body (List.range n) s = .ok s') :
    (∀ i < n, ∃ s1, (body i).exec s = .ok ((), s1) ∧ ∀ l, W i l → s' l = s1 l) ∧ ∀ l, (∀ i < n, ¬ W i l) → s' l = s l := by
  have := r.serial_char (List.range n) s List.nodup_range (by simp) (fun _ _ _ _ => rfl)
  rw [h] at this
  simpa using this

theorem serial_error (r : RaceFree n body R W) {e : Err} (h : serial body (List.range n) s = .error e) :
    ∃ i < n, (body i).exec s = .error e := by
  have := r.serial_char (List.range n) s List.nodup_range (by simp) (fun _ _ _ _ => rfl)
  rw [h] at this
  simpa using this

/-- an iteration that can make no access has ended or failed -/
theorem stuck_todo {q : Pool L F} (h : q.Stuck n) {i : Nat} (hi : i < n) :
    q.todo i = .ret () ∨ ∃ e, q.todo i = .fail e := by
  cases e : q.todo i with
  | ret a => exact Or.inl rfl
  | fail e' => exact Or.inr ⟨e', rfl⟩
  | rd l k => exact absurd (.load hi e) (h _)
  | wr l x k => exact absurd (.store hi e) (h _)

theorem deterministic (r : RaceFree n body R W) (s : L → F) : Deterministic n body s where
  bounded := ⟨_, fun k q h => by have := (r.inv_steps h).cost; exact Nat.le.intro this⟩
  raceless := by
    rintro k q h ⟨i, hi, j, hj, hij, l, ⟨x, k1, e1⟩, h2⟩
    have I := r.inv_steps h
    have w1 := I.within i hi
    have w2 := I.within j hj
    rw [e1] at w1
    rcases h2 with ⟨k2, e2⟩ | ⟨x2, k2, e2⟩
    · rw [e2] at w2
      exact r.apart i hi j hj hij l w1.1 (Or.inl w2.1)
    · rw [e2] at w2
      exact r.apart i hi j hj hij l w1.1 (Or.inr w2.1)
  ok := by
    intro s' hs k q h
    have I := r.inv_steps h
    obtain ⟨h1, h2⟩ := r.serial_ok hs
    have nf : ∀ e, ¬ q.Failed n e := by
      rintro e ⟨i, hi, he⟩
      obtain ⟨s1, e1, -⟩ := h1 i hi
      have := I.same i hi
      rw [he, e1] at this
      exact this
    refine ⟨nf, fun st => ?_⟩
    have dn : q.Done n := by
      intro i hi
      rcases stuck_todo st hi with h | ⟨e, h⟩
      · exact h
      · exact absurd ⟨i, hi, h⟩ (nf e)
    refine ⟨dn, ?_⟩
    funext l
    by_cases hw : ∃ i, i < n ∧ W i l
    · obtain ⟨i, hi, hw⟩ := hw
      obtain ⟨s1, e1, hl⟩ := h1 i hi
      have := I.same i hi
      rw [dn i hi, e1] at this
      rw [hl l hw]
      exact (this.2 l hw).symm
    · have hw' : ∀ i < n, ¬ W i l := fun i hi h => hw ⟨i, hi, h⟩
      rw [h2 l hw', I.other l hw']
  error := by
    intro e hs k q h st
    have I := r.inv_steps h
    obtain ⟨i, hi, he⟩ := r.serial_error hs
    rcases stuck_todo st hi with h | ⟨e', h⟩
    · have := I.same i hi
      rw [h, he] at this
      exact absurd this (by simp [Prog.Same, Prog.exec])
    · exact ⟨e', i, hi, h⟩

end RaceFree

/-- an execution that cannot go on exists -/
theorem Deterministic.exists_stuck {n : Nat} {body : Nat → Prog L F Unit} {s : L → F} (d : Deterministic n body s) :
    ∃ k q, Pool.Steps n k ⟨s, body⟩ q ∧ q.Stuck n := by
  obtain ⟨N, hN⟩ := d.bounded
  by_contra h
  have all : ∀ k, ∃ q, Pool.Steps n k ⟨s, body⟩ q := by
    intro k
    induction k with
    | zero => exact ⟨_, .refl _⟩
    | succ k ih =>
      obtain ⟨q, hq⟩ := ih
      by_contra h'
      exact h ⟨k, q, hq, fun r hr => h' ⟨r, .tail hq hr⟩⟩
  obtain ⟨q, hq⟩ := all (N + 1)
  have := hN _ _ hq
  omega

theorem Pool.Done.stuck {n : Nat} {q : Pool L F} (h : q.Done n) : q.Stuck n := by
  intro r hr
  cases hr with
  | load hi e => rw [h _ hi] at e; cases e
  | store hi e => rw [h _ hi] at e; cases e

/-- the loop can end with a memory exactly if the sequential loop does -/
theorem Deterministic.ends_iff {n : Nat} {body : Nat → Prog L F Unit} {s s' : L → F} (d : Deterministic n body s) :
    Pool.Ends n body s s' ↔ serial body (List.range n) s = .ok s' := by
  constructor
  · rintro ⟨k, q, hq, hd, rfl⟩
    cases hs : serial body (List.range n) s with
    | ok t => rw [((d.ok t hs k q hq).2 hd.stuck).2]
    | error e =>
      obtain ⟨e', i, hi, he⟩ := d.error e hs k q hq hd.stuck
      rw [hd i hi] at he; cases he
  · intro hs
    obtain ⟨k, q, hq, hst⟩ := d.exists_stuck
    obtain ⟨hd, hm⟩ := (d.ok s' hs k q hq).2 hst
    exact ⟨k, q, hq, hd, hm⟩

end TinyMesh
