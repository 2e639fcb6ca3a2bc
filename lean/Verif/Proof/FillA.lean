import Verif.Spec.Fill
import Verif.Model.Fill
import Mathlib.Logic.Relation
import Mathlib.Data.List.Nodup
import Mathlib.Tactic.Ring
/-
Triangulations of polygons: directed edges, sides, and the fans around the corners.  The queue of
`holeFillMinDihedral_` produces a triangulation.
-/
namespace TinyMesh

abbrev Tri3 := Nat × Nat × Nat

/-- the directed edges of a triangle -/
def dirs (t : Tri3) : List (Nat × Nat) := [(t.1, t.2.1), (t.2.1, t.2.2), (t.2.2, t.1)]
def allDirs (l : List Tri3) : List (Nat × Nat) := l.flatMap dirs

theorem mem_dirs {t : Tri3} {e : Nat × Nat} : e ∈ dirs t ↔ e = (t.1, t.2.1) ∨ e = (t.2.1, t.2.2) ∨ e = (t.2.2, t.1) := by
  simp [dirs]

theorem mem_allDirs {l : List Tri3} {e : Nat × Nat} : e ∈ allDirs l ↔ ∃ t ∈ l, e ∈ dirs t := by
  simp [allDirs]

theorem allDirs_cons (t : Tri3) (l : List Tri3) : allDirs (t :: l) = dirs t ++ allDirs l := by simp [allDirs]
theorem allDirs_append (l l' : List Tri3) : allDirs (l ++ l') = allDirs l ++ allDirs l' := by simp [allDirs]

/-- the directed edge `e'` follows `e` in a triangle of `l` -/
def Foll (l : List Tri3) (e e' : Nat × Nat) : Prop :=
  ∃ t ∈ l, (e = (t.1, t.2.1) ∧ e' = (t.2.1, t.2.2)) ∨ (e = (t.2.1, t.2.2) ∧ e' = (t.2.2, t.1)) ∨
    (e = (t.2.2, t.1) ∧ e' = (t.1, t.2.1))

theorem Foll.mono {l l' : List Tri3} (h : ∀ t ∈ l, t ∈ l') {e e'} (f : Foll l e e') : Foll l' e e' := by
  obtain ⟨t, a, b⟩ := f
  exact ⟨t, h t a, b⟩

/-- turning around the corner where `e` starts: cross the edge `e` and follow the other triangle -/
def Turn (l : List Tri3) (e e' : Nat × Nat) : Prop := Foll l (e.2, e.1) e'

theorem Turn.mono {l l' : List Tri3} (h : ∀ t ∈ l, t ∈ l') {e e'} (f : Relation.ReflTransGen (Turn l) e e') :
    Relation.ReflTransGen (Turn l') e e' := by
  induction f with
  | refl => exact .refl
  | tail _ b ih => exact ih.tail (Foll.mono h b)

namespace Triangulation

theorem lt {i k : Nat} {l : List Tri3} (h : Triangulation i k l) : i < k := by
  induction h with
  | side i => omega
  | cut _ _ h1 h2 => omega

theorem range {i k : Nat} {l : List Tri3} (h : Triangulation i k l) :
    ∀ t ∈ l, i ≤ t.1 ∧ t.1 < t.2.1 ∧ t.2.1 < t.2.2 ∧ t.2.2 ≤ k := by
  induction h with
  | side i => simp
  | cut a b h1 h2 =>
    have := a.lt
    have := b.lt
    intro t ht
    rw [List.mem_cons, List.mem_append] at ht
    rcases ht with rfl | ht | ht
    · dsimp only; omega
    · have := h1 t ht; omega
    · have := h2 t ht; omega

theorem length_eq {i k : Nat} {l : List Tri3} (h : Triangulation i k l) : l.length + (i + 1) = k := by
  induction h with
  | side i => simp
  | cut a b h1 h2 => simp only [List.length_cons, List.length_append]; omega

/-- forward edges are sides of the polygon, edges of smaller polygons, or absent -/
theorem dir_range {i k : Nat} {l : List Tri3} (h : Triangulation i k l) :
    ∀ e ∈ allDirs l, (i ≤ e.1 ∧ e.1 < e.2 ∧ e.2 ≤ k ∧ ¬ (e.1 = i ∧ e.2 = k)) ∨
      (i ≤ e.2 ∧ e.2 + 2 ≤ e.1 ∧ e.1 ≤ k) := by
  induction h with
  | side i => simp [allDirs]
  | cut a b h1 h2 =>
    have := a.lt
    have := b.lt
    intro e he
    rw [allDirs_cons, allDirs_append, List.mem_append, List.mem_append, mem_dirs] at he
    rcases he with (rfl | rfl | rfl) | he | he
    · dsimp only; omega
    · dsimp only; omega
    · dsimp only; omega
    · have := h1 e he; omega
    · have := h2 e he; omega

theorem dirs_nodup {i k : Nat} {l : List Tri3} (h : Triangulation i k l) : (allDirs l).Nodup := by
  induction h with
  | side i => simp [allDirs]
  | @cut i m k l1 l2 a b h1 h2 =>
    have la := a.lt
    have lb := b.lt
    rw [allDirs_cons, allDirs_append, List.nodup_append, List.nodup_append]
    refine ⟨?_, ⟨h1, h2, ?_⟩, ?_⟩
    · simp [dirs]; omega
    · intro e he e' he' e0
      subst e0
      have := a.dir_range e he
      have := b.dir_range e he'
      omega
    · intro e he e' he' e0
      subst e0
      rw [mem_dirs] at he
      rw [List.mem_append] at he'
      have := a.dir_range e
      have := b.dir_range e
      rcases he with rfl | rfl | rfl <;> rcases he' with he' | he' <;>
        first | (have := a.dir_range _ he'; dsimp only at this; omega) | (have := b.dir_range _ he'; dsimp only at this; omega)

theorem top_mem {i k : Nat} {l : List Tri3} (h : Triangulation i k l) (hk : i + 1 ≠ k) :
    ∃ m, i < m ∧ m < k ∧ (i, m, k) ∈ l := by
  cases h with
  | side => omega
  | cut a b => exact ⟨_, a.lt, b.lt, List.mem_cons_self⟩

theorem side_mem {i k : Nat} {l : List Tri3} (h : Triangulation i k l) :
    i + 1 ≠ k → ∀ p, i ≤ p → p < k → (p, p + 1) ∈ allDirs l := by
  induction h with
  | side i => omega
  | @cut i m k l1 l2 a b h1 h2 =>
    intro _ p hp hq
    have la := a.lt
    have lb := b.lt
    rw [allDirs_cons, allDirs_append, List.mem_append, List.mem_append, mem_dirs]
    by_cases hm : p < m
    · by_cases e : i + 1 = m
      · left; left; ext <;> dsimp only <;> omega
      · right; left; exact h1 e p hp hm
    · by_cases e : m + 1 = k
      · left; right; left; ext <;> dsimp only <;> omega
      · right; right; exact h2 e p (by omega) hq

theorem top_dir {i k : Nat} {l : List Tri3} (h : Triangulation i k l) (hk : i + 1 ≠ k) : (k, i) ∈ allDirs l := by
  obtain ⟨m, _, _, hm⟩ := h.top_mem hk
  rw [mem_allDirs]
  exact ⟨_, hm, by rw [mem_dirs]; simp⟩

/-- inner edges occur in both directions -/
theorem swap_mem {i k : Nat} {l : List Tri3} (h : Triangulation i k l) :
    ∀ e ∈ allDirs l, e.2 = e.1 + 1 ∨ e = (k, i) ∨ (e.2, e.1) ∈ allDirs l := by
  induction h with
  | side i => simp [allDirs]
  | @cut i m k l1 l2 a b h1 h2 =>
    intro e he
    simp only [allDirs_cons, allDirs_append, List.mem_append, mem_dirs] at he ⊢
    rcases he with (rfl | rfl | rfl) | he | he
    · by_cases e : i + 1 = m
      · left; exact e.symm
      · exact .inr (.inr (.inr (.inl (a.top_dir e))))
    · by_cases e : m + 1 = k
      · left; exact e.symm
      · exact .inr (.inr (.inr (.inr (b.top_dir e))))
    · exact .inr (.inl rfl)
    · rcases h1 e he with h | rfl | h
      · exact .inl h
      · exact .inr (.inr (.inl (.inl rfl)))
      · exact .inr (.inr (.inr (.inl h)))
    · rcases h2 e he with h | rfl | h
      · exact .inl h
      · exact .inr (.inr (.inl (.inr (.inl rfl))))
      · exact .inr (.inr (.inr (.inr h)))

/-- turning around a corner from a forward edge leads to the side that starts there -/
theorem turn_forward {i k : Nat} {l : List Tri3} (h : Triangulation i k l) :
    ∀ e ∈ allDirs l, e.1 < e.2 → Relation.ReflTransGen (Turn l) e (e.1, e.1 + 1) := by
  induction h with
  | side i => simp [allDirs]
  | @cut i m k l1 l2 a b h1 h2 =>
    intro e he lt
    have s1 : ∀ t ∈ l1, t ∈ (i, m, k) :: (l1 ++ l2) := fun t ht => by simp [ht]
    have s2 : ∀ t ∈ l2, t ∈ (i, m, k) :: (l1 ++ l2) := fun t ht => by simp [ht]
    simp only [allDirs_cons, allDirs_append, List.mem_append, mem_dirs] at he
    rcases he with (rfl | rfl | rfl) | he | he
    · by_cases e : i + 1 = m
      · subst e; exact .refl
      · obtain ⟨m', x1, x2, hm⟩ := a.top_mem e
        have : (i, m') ∈ allDirs l1 := mem_allDirs.2 ⟨_, hm, by rw [mem_dirs]; simp⟩
        refine .head (b := (i, m')) ⟨(i, m', m), s1 _ hm, ?_⟩ (Turn.mono s1 (h1 _ this x1))
        simp
    · by_cases e : m + 1 = k
      · subst e; exact .refl
      · obtain ⟨m', x1, x2, hm⟩ := b.top_mem e
        have : (m, m') ∈ allDirs l2 := mem_allDirs.2 ⟨_, hm, by rw [mem_dirs]; simp⟩
        refine .head (b := (m, m')) ⟨(m, m', k), s2 _ hm, ?_⟩ (Turn.mono s2 (h2 _ this x1))
        simp
    · have := a.lt; have := b.lt; dsimp only at lt; omega
    · exact Turn.mono s1 (h1 e he lt)
    · exact Turn.mono s2 (h2 e he lt)

/-- turning around a corner from a backward edge leads to the side that starts there, or to the closing side -/
theorem turn_backward {i k : Nat} {l : List Tri3} (h : Triangulation i k l) :
    ∀ e ∈ allDirs l, e.2 < e.1 → Relation.ReflTransGen (Turn l) e (e.1, e.1 + 1) ∨
      (e.1 = k ∧ Relation.ReflTransGen (Turn l) e (k, i)) := by
  induction h with
  | side i => simp [allDirs]
  | @cut i m k l1 l2 a b h1 h2 =>
    intro e he lt
    have hab := Triangulation.cut a b
    have s1 : ∀ t ∈ l1, t ∈ (i, m, k) :: (l1 ++ l2) := fun t ht => by simp [ht]
    have s2 : ∀ t ∈ l2, t ∈ (i, m, k) :: (l1 ++ l2) := fun t ht => by simp [ht]
    have la := a.lt
    have lb := b.lt
    simp only [allDirs_cons, allDirs_append, List.mem_append, mem_dirs] at he
    rcases he with (rfl | rfl | rfl) | he | he
    · dsimp only at lt; omega
    · dsimp only at lt; omega
    · exact .inr ⟨rfl, .refl⟩
    · left
      rcases h1 e he lt with h | ⟨h, h'⟩
      · exact Turn.mono s1 h
      · rw [h]
        refine (Turn.mono s1 h').trans (.head (b := (m, k)) ⟨(i, m, k), List.mem_cons_self, by simp⟩ ?_)
        exact hab.turn_forward (m, k) (by rw [mem_allDirs]; exact ⟨_, List.mem_cons_self, by rw [mem_dirs]; simp⟩) lb
    · rcases h2 e he lt with h | ⟨h, h'⟩
      · exact .inl (Turn.mono s2 h)
      · right
        refine ⟨h, (Turn.mono s2 h').trans (.single ⟨(i, m, k), List.mem_cons_self, by simp⟩)⟩

end Triangulation

theorem forall2_split {α β : Type} {R : α → β → Prop} {a b : List α} {c : List β} (h : List.Forall₂ R (a ++ b) c) :
    ∃ x y, c = x ++ y ∧ List.Forall₂ R a x ∧ List.Forall₂ R b y := by
  induction a generalizing c with
  | nil => exact ⟨[], c, rfl, .nil, h⟩
  | cons p a ih =>
    cases h with
    | cons h1 h2 =>
      obtain ⟨x, y, rfl, hx, hy⟩ := ih h2
      exact ⟨_ :: x, y, rfl, .cons h1 hx, hy⟩

/-- the entries of the table are cutting points -/
def TableRange (n : Nat) (o : Nat → Nat → Option Nat) : Prop :=
  ∀ i k m, i + 2 ≤ k → k < n → o i k = some m → i < m ∧ m < k

/-- the queue of `holeFillMinDihedral_`: an unfilled entry is met, or the result is a triangulation -/
theorem fillTris_ok {n : Nat} {o : Nat → Nat → Option Nat} (ho : TableRange n o) : ∀ (fuel : Nat) (que : List (Nat × Nat))
    (acc : List Tri3), (∀ q ∈ que, q.1 + 2 ≤ q.2 ∧ q.2 < n) → (que.map (fun q => q.2 - q.1 - 1)).sum ≤ fuel →
    (fillTris o fuel que acc = .error .ub ∧ ∃ i k, i + 2 ≤ k ∧ k < n ∧ o i k = none) ∨
    ∃ ls : List Tri3 × List (List Tri3), fillTris o fuel que acc = .ok ls.1 ∧
      List.Forall₂ (fun q l => Triangulation q.1 q.2 l) que ls.2 ∧ List.Perm ls.1 (acc ++ ls.2.flatten) := by
  intro fuel
  induction fuel with
  | zero =>
    intro que acc hq hf
    cases que with
    | nil => exact .inr ⟨(acc, []), by simp [fillTris], .nil, by simp⟩
    | cons q que =>
      have := hq q List.mem_cons_self
      simp at hf
      omega
  | succ fuel ih =>
    intro que acc hq hf
    cases que with
    | nil => exact .inr ⟨(acc, []), by simp [fillTris], .nil, by simp⟩
    | cons q que =>
      obtain ⟨i, k⟩ := q
      have h0 := hq (i, k) List.mem_cons_self
      dsimp only at h0
      cases hm : o i k with
      | none => exact .inl ⟨by simp [fillTris, hm], i, k, h0.1, h0.2, hm⟩
      | some m =>
      obtain ⟨l1, l2⟩ := ho i k m h0.1 h0.2 hm
      set c1 : List (Nat × Nat) := if i + 1 ≠ m then [(i, m)] else [] with hc1
      set c2 : List (Nat × Nat) := if m + 1 ≠ k then [(m, k)] else [] with hc2
      have e : fillTris o (fuel + 1) ((i, k) :: que) acc = fillTris o fuel (que ++ c1 ++ c2) (acc ++ [(i, m, k)]) := by
        simp only [fillTris, hm]
        by_cases e1 : i + 2 = k
        · rw [if_pos e1, hc1, hc2, if_neg (by omega), if_neg (by omega)]; simp
        · rw [if_neg e1, hc1, hc2]
          by_cases e2 : i + 1 = m <;> by_cases e3 : m + 1 = k <;> simp [e2, e3]
      rw [e]
      rcases ih (que ++ c1 ++ c2) (acc ++ [(i, m, k)]) (by
        intro q hq'
        rw [List.mem_append, List.mem_append] at hq'
        rcases hq' with (hq' | hq') | hq'
        · exact hq q (List.mem_cons_of_mem _ hq')
        · rw [hc1] at hq'; split at hq'
          · simp at hq'; subst hq'; dsimp only; omega
          · simp at hq'
        · rw [hc2] at hq'; split at hq'
          · simp at hq'; subst hq'; dsimp only; omega
          · simp at hq') (by
        simp only [List.map_append, List.sum_append, List.map_cons, List.sum_cons] at hf ⊢
        have s1 : (c1.map (fun q => q.2 - q.1 - 1)).sum = m - i - 1 := by
          rw [hc1]; split <;> simp; omega
        have s2 : (c2.map (fun q => q.2 - q.1 - 1)).sum = k - m - 1 := by
          rw [hc2]; split <;> simp; omega
        omega) with bad | ⟨ls, r1, r2, r3⟩
      · exact .inl bad
      obtain ⟨res, lss⟩ := ls
      dsimp only at r1 r2 r3
      obtain ⟨x, y, rfl, rx, ry⟩ : ∃ x y, lss = x ++ y ∧ List.Forall₂ (fun (q : Nat × Nat) l => Triangulation q.1 q.2 l) (que ++ c1) x ∧
          List.Forall₂ (fun (q : Nat × Nat) l => Triangulation q.1 q.2 l) c2 y :=
        forall2_split r2
      obtain ⟨x, z, rfl, rx, rz⟩ : ∃ x' y', x = x' ++ y' ∧ List.Forall₂ (fun (q : Nat × Nat) l => Triangulation q.1 q.2 l) que x' ∧
          List.Forall₂ (fun (q : Nat × Nat) l => Triangulation q.1 q.2 l) c1 y' :=
        forall2_split rx
      have t1 : Triangulation i m z.flatten := by
        rw [hc1] at rz
        by_cases e2 : i + 1 = m
        · rw [if_neg (by simpa using e2)] at rz; cases rz; subst e2; exact .side i
        · rw [if_pos e2] at rz
          cases rz with | cons a b => cases b; simpa using a
      have t2 : Triangulation m k y.flatten := by
        rw [hc2] at ry
        by_cases e2 : m + 1 = k
        · rw [if_neg (by simpa using e2)] at ry; cases ry; subst e2; exact .side m
        · rw [if_pos e2] at ry
          cases ry with | cons a b => cases b; simpa using a
      refine .inr ⟨(res, ((i, m, k) :: (z.flatten ++ y.flatten)) :: x), r1, .cons (t1.cut t2) rx, r3.trans ?_⟩
      simp only [List.flatten_append, List.flatten_cons, List.append_assoc]
      refine List.Perm.append_left acc ?_
      simp only [List.cons_append, List.nil_append, List.append_assoc]
      refine List.Perm.cons _ ?_
      exact (List.perm_append_comm (l₁ := x.flatten)).trans (by simp)

end TinyMesh
