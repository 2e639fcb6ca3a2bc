import Verif.Spec.UnionFind
import Mathlib.Data.Finset.Card
import Mathlib.Data.Finset.Range
import Mathlib.Tactic.Linarith
/-
The trees that the calls lead to.
-/
namespace TinyMesh

/-- the members of a class -/
def clsCard (n : Nat) (rep : Nat → Nat) (r : Nat) : Nat := ((Finset.range n).filter fun j => rep j = r).card

/-- `t` is a forest on `n` elements; `rep` is the root of each element and `d` bounds the length of the way to it. -/
structure Forest (n : Nat) (t : UF) (rep d : Nat → Nat) : Prop where
  len : t.length = n
  node : ∀ i, i < n → (t[i]? = some (-1) ∧ rep i = i ∧ d i = 0) ∨ ∃ p, p < n ∧ t[i]? = some (p : Int) ∧ rep p = rep i ∧ d p < d i
  lt : ∀ i, i < n → rep i < n
  bound : ∀ i, i < n → d i < clsCard n rep (rep i)

variable {n : Nat} {t : UF} {rep d : Nat → Nat}

theorem Forest.make (n : Nat) : Forest n (UF.make n) id (fun _ => 0) where
  len := by simp [UF.make]
  node i hi := Or.inl ⟨by simp [UF.make, hi], rfl, rfl⟩
  lt _ hi := hi
  bound i hi := Finset.card_pos.2 ⟨i, by simp [hi]⟩

theorem Forest.root_rep (f : Forest n t rep d) : ∀ (k i : Nat), d i ≤ k → i < n → t[rep i]? = some (-1) ∧ rep (rep i) = rep i ∧ d (rep i) = 0
  | k, i, hk, hi => by
    rcases f.node i hi with ⟨h1, h2, h3⟩ | ⟨p, hp, -, h2, h3⟩
    · rw [h2]; exact ⟨h1, h2, h3⟩
    · cases k with
      | zero => omega
      | succ k =>
        have := f.root_rep k p (by omega) hp
        rw [h2] at this; exact this

theorem UF.at_nat (t : UF) {i : Nat} {v : Int} (h : t[i]? = some v) : t.at (i : Int) = .ok v := by
  unfold UF.at
  rw [if_neg (by omega), Int.toNat_natCast, h]

theorem Forest.rootF (f : Forest n t rep d) : ∀ (k i : Nat), d i < k → i < n → ∃ t', UF.rootF k t i = .ok ((rep i : Int), t') ∧ Forest n t' rep d ∧
    ∀ j, rep j = j → t'[j]? = t[j]?
  | 0, i, hk, _ => by omega
  | k + 1, i, hk, hi => by
    rcases f.node i hi with ⟨h1, h2, h3⟩ | ⟨p, hp, h1, h2, h3⟩
    · refine ⟨t, ?_, f, fun _ _ => rfl⟩
      rw [UF.rootF, UF.at_nat t h1, h2]
      rfl
    · obtain ⟨t', e, f', same⟩ := f.rootF k p (by omega) hp
      obtain ⟨r1, r2, r3⟩ := f'.root_rep (d i) i (Nat.le_refl _) hi
      have ne : rep i ≠ i := fun e => by rw [e] at r3; omega
      refine ⟨t'.put i (rep p), ?_, ⟨?_, fun j hj => ?_, f'.lt, f'.bound⟩, fun j hj => ?_⟩
      · simp only [UF.rootF, UF.at_nat t h1, e, h2, bind, Except.bind]
        rw [if_neg (by omega)]
      · rw [UF.put, List.length_set, f'.len]
      · by_cases c : j = i
        · subst c
          refine Or.inr ⟨rep j, f.lt j hj, ?_, r2, by omega⟩
          rw [UF.put, Int.toNat_natCast, List.getElem?_set_self (by rw [f'.len]; exact hj), h2]
        · rw [UF.put, Int.toNat_natCast, List.getElem?_set_ne (Ne.symm c)]
          exact f'.node j hj
      · have c : i ≠ j := fun e => by subst e; exact ne hj
        rw [UF.put, Int.toNat_natCast, List.getElem?_set_ne c]
        exact same j hj

theorem clsCard_le (n : Nat) (rep : Nat → Nat) (r : Nat) : clsCard n rep r ≤ n :=
  le_trans (Finset.card_filter_le _ _) (by simp)

theorem Forest.root (f : Forest n t rep d) {i : Nat} (hi : i < n) : ∃ t', t.root i = .ok ((rep i : Int), t') ∧ Forest n t' rep d ∧
    ∀ j, rep j = j → t'[j]? = t[j]? := by
  have := f.bound i hi
  have := clsCard_le n rep (rep i)
  exact f.rootF _ i (by rw [f.len]; omega) hi

/-- the roots after a merge -/
def joinRep (rep : Nat → Nat) (a b : Nat) (j : Nat) : Nat := if rep j = b then a else rep j

/-- the depths after a merge -/
def joinDepth (rep d : Nat → Nat) (b : Nat) (j : Nat) : Nat := if rep j = b then d j + 1 else d j

theorem Forest.join (f : Forest n t rep d) {a b : Nat} (ha : a < n) (hb : b < n) (ra : rep a = a) (rb : rep b = b) (ne : a ≠ b) :
    Forest n ((t.put a (-1)).put b a) (joinRep rep a b) (joinDepth rep d b) := by
  have na := f.root_rep (d a) a (Nat.le_refl _) ha
  rw [ra] at na
  have nb := f.root_rep (d b) b (Nat.le_refl _) hb
  rw [rb] at nb
  have ta : t.put a (-1) = t := by
    rw [UF.put, Int.toNat_natCast]
    apply List.ext_getElem?
    intro i
    by_cases c : a = i
    · subst c; rw [List.getElem?_set_self (by rw [f.len]; exact ha), na.1]
    · rw [List.getElem?_set_ne c]
  rw [ta]
  have disj : Disjoint ((Finset.range n).filter fun j => rep j = a) ((Finset.range n).filter fun j => rep j = b) := by
    rw [Finset.disjoint_filter]
    intro x _ h1 h2
    exact ne (h1.symm.trans h2)
  have union : ((Finset.range n).filter fun j => joinRep rep a b j = a) =
      ((Finset.range n).filter fun j => rep j = a) ∪ ((Finset.range n).filter fun j => rep j = b) := by
    ext j
    rw [Finset.mem_union, Finset.mem_filter, Finset.mem_filter, Finset.mem_filter, Finset.mem_range]
    unfold joinRep
    by_cases c : rep j = b
    · simp only [c, if_true]; tauto
    · simp only [c, if_false]; tauto
  have cj : clsCard n (joinRep rep a b) a = clsCard n rep a + clsCard n rep b := by
    unfold clsCard
    rw [union, Finset.card_union_of_disjoint disj]
  have ca : 0 < clsCard n rep a := Finset.card_pos.2 ⟨a, by simp [ha, ra]⟩
  refine ⟨by rw [UF.put, List.length_set, f.len], fun i hi => ?_, fun i hi => ?_, fun i hi => ?_⟩
  · rw [UF.put, Int.toNat_natCast]
    by_cases c : b = i
    · subst c
      refine Or.inr ⟨a, ha, List.getElem?_set_self (by rw [f.len]; exact hb), ?_, ?_⟩
      · simp [joinRep, rb, ra]
      · simp only [joinDepth, rb, ra, if_true, if_neg ne, na.2.2]; omega
    · rw [List.getElem?_set_ne c]
      rcases f.node i hi with ⟨h1, h2, h3⟩ | ⟨p, hp, h1, h2, h3⟩
      · refine Or.inl ⟨h1, ?_, ?_⟩
        · rw [joinRep, h2, if_neg (Ne.symm c)]
        · rw [joinDepth, h2, if_neg (Ne.symm c), h3]
      · refine Or.inr ⟨p, hp, h1, ?_, ?_⟩
        · simp only [joinRep, h2]
        · simp only [joinDepth, h2]; split <;> omega
  · unfold joinRep
    split
    · exact ha
    · exact f.lt i hi
  · have bi := f.bound i hi
    by_cases c : rep i = b
    · have e1 : joinRep rep a b i = a := by rw [joinRep, if_pos c]
      have e2 : joinDepth rep d b i = d i + 1 := by rw [joinDepth, if_pos c]
      rw [e1, e2, cj]
      rw [c] at bi
      omega
    · have e1 : joinRep rep a b i = rep i := by rw [joinRep, if_neg c]
      have e2 : joinDepth rep d b i = d i := by rw [joinDepth, if_neg c]
      rw [e1, e2]
      by_cases c' : rep i = a
      · rw [c', cj]
        rw [c'] at bi
        omega
      · have : clsCard n (joinRep rep a b) (rep i) = clsCard n rep (rep i) := by
          unfold clsCard
          congr 1
          ext j
          rw [Finset.mem_filter, Finset.mem_filter, Finset.mem_range]
          unfold joinRep
          by_cases k : rep j = b
          · rw [if_pos k, k]
            exact ⟨fun ⟨_, h⟩ => absurd h.symm c', fun ⟨_, h⟩ => absurd h.symm c⟩
          · rw [if_neg k]
        rw [this]; exact bi

/-- The tree after the calls `ops`: a forest whose roots tell the classes. -/
structure Tells (n : Nat) (ops : List UFOp) (t : UF) (rep d : Nat → Nat) : Prop where
  forest : Forest n t rep d
  gen : ∀ a b, UFOp.merge a b ∈ ops → rep a.toNat = rep b.toNat
  cls : ∀ i, i < n → UFMerged ops i (rep i)

theorem UFMerged.mono {ops ops' : List UFOp} (h : ∀ o ∈ ops, o ∈ ops') {a b : Int} (k : UFMerged ops a b) : UFMerged ops' a b :=
  Relation.EqvGen.mono (fun _ _ h' => h _ h') _ _ k

theorem Tells.make (n : Nat) : Tells n [] (UF.make n) id (fun _ => 0) :=
  ⟨Forest.make n, by simp, fun i _ => Relation.EqvGen.refl _⟩

theorem Tells.other {ops : List UFOp} (h : Tells n ops t rep d) {o : UFOp} (ho : ∀ a b, o ≠ .merge a b) {t' : UF} (f : Forest n t' rep d) :
    Tells n (ops ++ [o]) t' rep d := by
  refine ⟨f, fun a b hab => ?_, fun i hi => (h.cls i hi).mono (by simp +contextual)⟩
  rcases List.mem_append.1 hab with k | k
  · exact h.gen a b k
  · exact absurd (List.mem_singleton.1 k).symm (ho a b)

theorem Tells.iff {ops : List UFOp} (h : Tells n ops t rep d) {i j : Nat} (hi : i < n) (hj : j < n) : rep i = rep j ↔ UFMerged ops i j := by
  constructor
  · intro e
    have := h.cls i hi
    rw [e] at this
    exact this.trans _ _ _ ((h.cls j hj).symm _ _)
  · intro k
    have key : ∀ a b : Int, UFMerged ops a b → rep a.toNat = rep b.toNat := by
      intro a b k
      induction k with
      | rel a b k => exact h.gen a b k
      | refl => rfl
      | symm _ _ _ ih => exact ih.symm
      | trans _ _ _ _ _ ih1 ih2 => exact ih1.trans ih2
    simpa using key i j k

theorem Tells.step {ops : List UFOp} (h : Tells n ops t rep d) {o : UFOp} (ho : o.inRange n) :
    ∃ t' rep' d', o.run t = .ok t' ∧ Tells n (ops ++ [o]) t' rep' d' := by
  cases o with
  | root x =>
    obtain ⟨i, rfl⟩ := Int.eq_ofNat_of_zero_le ho.1
    have hi : i < n := by have := ho.2; omega
    obtain ⟨t', e, f, -⟩ := h.forest.root hi
    refine ⟨t', rep, d, ?_, h.other (by simp) f⟩
    simp only [UFOp.run, e]
    rfl
  | same x y =>
    obtain ⟨i, rfl⟩ := Int.eq_ofNat_of_zero_le ho.1.1
    obtain ⟨j, rfl⟩ := Int.eq_ofNat_of_zero_le ho.2.1
    have hi : i < t.length := by have := ho.1.2; have := h.forest.len; omega
    have hj : j < t.length := by have := ho.2.2; have := h.forest.len; omega
    refine ⟨t, rep, d, ?_, h.other (by simp) h.forest⟩
    simp only [UFOp.run, UF.same, UF.at_nat t (List.getElem?_eq_getElem hi), UF.at_nat t (List.getElem?_eq_getElem hj)]
    rfl
  | merge x y =>
    obtain ⟨i, rfl⟩ := Int.eq_ofNat_of_zero_le ho.1.1
    obtain ⟨j, rfl⟩ := Int.eq_ofNat_of_zero_le ho.2.1
    have hi : i < n := by have := ho.1.2; omega
    have hj : j < n := by have := ho.2.2; omega
    obtain ⟨t1, e1, f1, -⟩ := h.forest.root hi
    obtain ⟨t2, e2, f2, -⟩ := f1.root hj
    have hm : UFOp.merge (i : Int) (j : Int) ∈ ops ++ [UFOp.merge (i : Int) (j : Int)] := by simp
    by_cases c : rep i = rep j
    · refine ⟨t2, rep, d, ?_, f2, fun a b hab => ?_, fun k hk => (h.cls k hk).mono (by simp +contextual)⟩
      · simp only [UFOp.run, UF.merge, e1]
        simp only [e2, bind, Except.bind]
        rw [if_pos (by rw [c])]
      · rcases List.mem_append.1 hab with k | k
        · exact h.gen a b k
        · obtain ⟨rfl, rfl⟩ := by simpa using k
          simpa using c
    · obtain ⟨r1, r2, -⟩ := f2.root_rep (d i) i (Nat.le_refl _) hi
      obtain ⟨s1, s2, -⟩ := f2.root_rep (d j) j (Nat.le_refl _) hj
      refine ⟨_, _, _, ?_, f2.join (f2.lt i hi) (f2.lt j hj) r2 s2 c, fun a b hab => ?_, fun k hk => ?_⟩
      · simp only [UFOp.run, UF.merge, e1]
        simp only [e2, bind, Except.bind, UF.at_nat t2 s1]
        rw [if_neg (by exact_mod_cast c)]
      · rcases List.mem_append.1 hab with k | k
        · simp only [joinRep, h.gen a b k]
        · obtain ⟨rfl, rfl⟩ := by simpa using k
          simp only [joinRep, Int.toNat_natCast, if_neg c, if_true]
      · have up := (h.cls k hk).mono (ops' := ops ++ [UFOp.merge (i : Int) (j : Int)]) (by simp +contextual)
        unfold joinRep
        split
        · next e =>
          rw [e] at up
          have uj := (h.cls j hj).mono (ops' := ops ++ [UFOp.merge (i : Int) (j : Int)]) (by simp +contextual)
          have ui := (h.cls i hi).mono (ops' := ops ++ [UFOp.merge (i : Int) (j : Int)]) (by simp +contextual)
          exact up.trans _ _ _ ((uj.symm _ _).trans _ _ _ (((Relation.EqvGen.rel _ _ hm).symm _ _).trans _ _ _ ui))
        · exact up

theorem Tells.steps : ∀ (os ops : List UFOp) {t : UF} {rep d : Nat → Nat}, Tells n ops t rep d → (∀ o ∈ os, o.inRange n) →
    ∃ t' rep' d', t.runs os = .ok t' ∧ Tells n (ops ++ os) t' rep' d'
  | [], ops, t, rep, d, h, _ => ⟨t, rep, d, rfl, by rwa [List.append_nil]⟩
  | o :: os, ops, t, rep, d, h, ho => by
    obtain ⟨t1, rep1, d1, e1, h1⟩ := h.step (ho o (by simp))
    obtain ⟨t2, rep2, d2, e2, h2⟩ := Tells.steps os _ h1 fun x hx => ho x (by simp [hx])
    refine ⟨t2, rep2, d2, ?_, by rwa [List.append_assoc, List.singleton_append] at h2⟩
    rw [UF.runs, e1]
    exact e2

end TinyMesh
