import Verif.Spec.Text
import Verif.Proof.CloneE
import Mathlib.Tactic.IntervalCases
/-
Reading what has been written.
-/
namespace TinyMesh

theorem split_none {c : Char} : ∀ {w : List Char}, c ∉ w → splitAtChar c w = [w]
  | [], _ => rfl
  | x :: w, h => by
    rw [List.mem_cons, not_or] at h
    rw [splitAtChar, if_neg (Ne.symm h.1), split_none h.2]

theorem split_cons {c : Char} (rest : List Char) : ∀ {w : List Char}, c ∉ w → splitAtChar c (w ++ c :: rest) = w :: splitAtChar c rest
  | [], _ => by rw [List.nil_append, splitAtChar, if_pos rfl]
  | x :: w, h => by
    rw [List.mem_cons, not_or] at h
    rw [List.cons_append, splitAtChar, if_neg (Ne.symm h.1), split_cons rest h.2]

theorem digitVal_digit {d : Nat} (h : d < 10) : digitVal (digit d) = some d := by
  interval_cases d <;> decide

theorem digit_plain {d : Nat} (h : d < 10) : digit d ≠ ' ' ∧ digit d ≠ '\n' ∧ (digit d = '0' → d = 0) := by
  interval_cases d <;> decide

/-- the value of a sequence of digits -/
def digitsVal (s : List Char) : Option Nat :=
  s.foldl (fun acc c => do
      let a ← acc
      let d ← digitVal c
      pure (10 * a + d)) (some 0)

theorem natText_val (n : Nat) : digitsVal (natText n) = some n := by
  induction n using Nat.strongRecOn with
  | _ n ih =>
    rw [natText]
    split
    · next h =>
      simp only [digitsVal, List.foldl_cons, List.foldl_nil, digitVal_digit h]
      simp
    · next h =>
      have := ih (n / 10) (by omega)
      unfold digitsVal at this ⊢
      rw [List.foldl_append, this]
      simp only [List.foldl_cons, List.foldl_nil, digitVal_digit (Nat.mod_lt n (by decide : 10 > 0))]
      simp
      omega

theorem natText_plain (n : Nat) : natText n ≠ [] ∧ ' ' ∉ natText n ∧ '\n' ∉ natText n ∧ (0 < n → (natText n).head? ≠ some '0') := by
  induction n using Nat.strongRecOn with
  | _ n ih =>
    rw [natText]
    split
    · next h =>
      obtain ⟨h1, h2, h3⟩ := digit_plain h
      refine ⟨by simp, by simpa using h1.symm, by simpa using h2.symm, fun k => ?_⟩
      rw [List.head?_cons, Ne, Option.some.injEq]
      intro e
      have := h3 e
      omega
    · next h =>
      obtain ⟨i1, i2, i3, i4⟩ := ih (n / 10) (by omega)
      obtain ⟨h1, h2, -⟩ := digit_plain (Nat.mod_lt n (by decide : 10 > 0))
      refine ⟨by simp, ?_, ?_, fun _ => ?_⟩
      · rw [List.mem_append, not_or]; exact ⟨i2, by simpa using h1.symm⟩
      · rw [List.mem_append, not_or]; exact ⟨i3, by simpa using h2.symm⟩
      · rw [List.head?_append_of_ne_nil _ i1]
        exact i4 (by omega)

theorem readNat_natText {n : Nat} (h : 0 < n) : readNat (natText n) = some n := by
  obtain ⟨h1, -, -, h2⟩ := natText_plain n
  unfold readNat
  rw [if_neg (by
    rintro (k | ⟨k, -⟩)
    · exact h1 k
    · exact h2 h k)]
  exact natText_val n

theorem intText_succ {i : Int} (h : 0 ≤ i) : intText (i + 1) = natText (i.toNat + 1) := by
  unfold intText
  rw [if_neg (by omega), show (i + 1).toNat = i.toNat + 1 by omega]

section
variable {F : Type} {fmt : F → List Char}

theorem readLine_vertex (hf : PlainWords fmt) (p : Vec3 F) :
    readLine (['v', ' '] ++ fmt p.x ++ [' '] ++ fmt p.y ++ [' '] ++ fmt p.z) = some (.vertex (fmt p.x) (fmt p.y) (fmt p.z)) := by
  obtain ⟨x1, x2, -⟩ := hf p.x
  obtain ⟨y1, y2, -⟩ := hf p.y
  obtain ⟨z1, z2, -⟩ := hf p.z
  have e : ['v', ' '] ++ fmt p.x ++ [' '] ++ fmt p.y ++ [' '] ++ fmt p.z = ['v'] ++ ' ' :: (fmt p.x ++ ' ' :: (fmt p.y ++ ' ' :: fmt p.z)) := by simp
  rw [e, readLine, split_cons _ (by decide), split_cons _ x2, split_cons _ y2, split_none z2]
  simp [x1, y1, z1]

theorem readLine_face {t : Int × Int × Int} (h : 0 ≤ t.1 ∧ 0 ≤ t.2.1 ∧ 0 ≤ t.2.2) :
    readLine (['f', ' '] ++ intText (t.1 + 1) ++ [' '] ++ intText (t.2.1 + 1) ++ [' '] ++ intText (t.2.2 + 1)) =
      some (.face (t.1.toNat + 1) (t.2.1.toNat + 1) (t.2.2.toNat + 1)) := by
  rw [intText_succ h.1, intText_succ h.2.1, intText_succ h.2.2]
  obtain ⟨-, x2, -⟩ := natText_plain (t.1.toNat + 1)
  obtain ⟨-, y2, -⟩ := natText_plain (t.2.1.toNat + 1)
  obtain ⟨-, z2, -⟩ := natText_plain (t.2.2.toNat + 1)
  have e : ∀ a b c : List Char, ['f', ' '] ++ a ++ [' '] ++ b ++ [' '] ++ c = ['f'] ++ ' ' :: (a ++ ' ' :: (b ++ ' ' :: c)) := by simp
  rw [e, readLine, split_cons _ (by decide), split_cons _ x2, split_cons _ y2, split_none z2]
  simp [readNat_natText]

theorem readNat_natText' (n : Nat) : readNat (natText n) = some n := by
  rcases Nat.eq_zero_or_pos n with rfl | h
  · rw [natText]
    decide
  · exact readNat_natText h

/-- lines that have been written one after the other -/
theorem split_lines : ∀ {ls : List (List Char)}, (∀ l ∈ ls, '\n' ∉ l) →
    splitAtChar '\n' ((ls.map fun l => l ++ ['\n']).flatten) = ls ++ [[]]
  | [], _ => rfl
  | l :: ls, h => by
    rw [List.map_cons, List.flatten_cons, List.append_assoc, List.singleton_append, split_cons _ (h l (by simp)),
      split_lines fun x hx => h x (by simp [hx])]
    rfl

theorem readLines_lines {ls : List (List Char)} (h : ∀ l ∈ ls, '\n' ∉ l) :
    readLines ((ls.map fun l => l ++ ['\n']).flatten) = ls.mapM readLine := by
  unfold readLines
  rw [split_lines h, List.reverse_append]
  simp

theorem mapM_some {α β : Type} {f : α → Option β} {g : α → β} : ∀ {l : List α}, (∀ x ∈ l, f x = some (g x)) → l.mapM f = some (l.map g)
  | [], _ => rfl
  | x :: l, h => by
    rw [List.mapM_cons, h x (by simp), mapM_some fun y hy => h y (by simp [hy])]
    rfl

/-- the statements that are written for vertices and triangles -/
def objOf (fmt : F → List Char) (V : List (Vec3 F)) (I : List (Int × Int × Int)) : List ObjLine :=
  V.map (fun p => .vertex (fmt p.x) (fmt p.y) (fmt p.z)) ++ I.map fun t => .face (t.1.toNat + 1) (t.2.1.toNat + 1) (t.2.2.toNat + 1)

theorem readLines_text (hf : PlainWords fmt) (V : List (Vec3 F)) {I : List (Int × Int × Int)} (hI : ∀ t ∈ I, 0 ≤ t.1 ∧ 0 ≤ t.2.1 ∧ 0 ≤ t.2.2) :
    readLines ((V.map (vertexLine fmt)).flatten ++ (I.map faceLine).flatten) = some (objOf fmt V I) := by
  have e : (V.map (vertexLine fmt)).flatten ++ (I.map faceLine).flatten = (((V.map fun p =>
      ['v', ' '] ++ fmt p.x ++ [' '] ++ fmt p.y ++ [' '] ++ fmt p.z) ++ I.map fun t =>
      ['f', ' '] ++ intText (t.1 + 1) ++ [' '] ++ intText (t.2.1 + 1) ++ [' '] ++ intText (t.2.2 + 1)).map fun l => l ++ ['\n']).flatten := by
    rw [List.map_append, List.flatten_append, List.map_map, List.map_map]
    rfl
  rw [e, readLines_lines]
  · have e1 := mapM_some (f := readLine ∘ fun p : Vec3 F => ['v', ' '] ++ fmt p.x ++ [' '] ++ fmt p.y ++ [' '] ++ fmt p.z) (l := V)
      (g := fun p => ObjLine.vertex (fmt p.x) (fmt p.y) (fmt p.z)) fun p _ => readLine_vertex hf p
    have e2 := mapM_some (f := readLine ∘ fun t : Int × Int × Int =>
      ['f', ' '] ++ intText (t.1 + 1) ++ [' '] ++ intText (t.2.1 + 1) ++ [' '] ++ intText (t.2.2 + 1)) (l := I)
      (g := fun t => ObjLine.face (t.1.toNat + 1) (t.2.1.toNat + 1) (t.2.2.toNat + 1)) fun t ht => readLine_face (hI t ht)
    rw [List.mapM_append, List.mapM_map, List.mapM_map, e1, e2]
    rfl
  · intro l hl
    rcases List.mem_append.1 hl with hl | hl
    · obtain ⟨p, -, rfl⟩ := List.mem_map.1 hl
      simp [(hf p.x).2.2, (hf p.y).2.2, (hf p.z).2.2]
    · obtain ⟨t, ht, rfl⟩ := List.mem_map.1 hl
      obtain ⟨h1, h2, h3⟩ := hI t ht
      rw [intText_succ h1, intText_succ h2, intText_succ h3]
      simp [(natText_plain _).2.2.1]

theorem objVerts_of {G : Type} (rd : List Char → G) (V : List (Vec3 F)) (I : List (Int × Int × Int)) :
    objVerts rd (objOf fmt V I) = V.map fun p => ⟨rd (fmt p.x), rd (fmt p.y), rd (fmt p.z)⟩ := by
  have e : objVerts rd (I.map fun t => ObjLine.face (t.1.toNat + 1) (t.2.1.toNat + 1) (t.2.2.toNat + 1)) = [] := by
    induction I with
    | nil => rfl
    | cons t I ih => exact ih
  have a : ∀ l l' : List ObjLine, objVerts rd (l ++ l') = objVerts rd l ++ objVerts rd l' := fun l l' => List.filterMap_append
  unfold objOf
  rw [a, e, List.append_nil]
  induction V with
  | nil => rfl
  | cons p V ih =>
    rw [List.map_cons, List.map_cons, ← ih]
    rfl

theorem objFaces_of (V : List (Vec3 F)) (I : List (Int × Int × Int)) : objFaces (objOf fmt V I) = flatIdx I := by
  unfold objFaces objOf
  rw [List.flatMap_append, List.flatMap_map, List.flatMap_map]
  have e : (V.flatMap fun _ => ([] : List Nat)) = [] := by simp
  change V.flatMap (fun _ => ([] : List Nat)) ++ I.flatMap (fun t => [t.1.toNat + 1 - 1, t.2.1.toNat + 1 - 1, t.2.2.toNat + 1 - 1]) = _
  rw [e, List.nil_append]
  induction I with
  | nil => rfl
  | cons t I ih =>
    rw [List.flatMap_cons, ih]
    rfl

theorem objValid_of (V : List (Vec3 F)) {I : List (Int × Int × Int)} (hI : ∀ t ∈ I, 0 ≤ t.1 ∧ 0 ≤ t.2.1 ∧ 0 ≤ t.2.2)
    (hn : ∀ t ∈ I, inFile V.length t = true) : objValid (objOf fmt V I) := by
  have n : ((objOf fmt V I).filter ObjLine.isVertex).length = V.length := by
    unfold objOf
    rw [List.filter_append, List.length_append]
    have e1 : (V.map fun p => ObjLine.vertex (fmt p.x) (fmt p.y) (fmt p.z)).filter ObjLine.isVertex =
        V.map fun p => ObjLine.vertex (fmt p.x) (fmt p.y) (fmt p.z) := by
      rw [List.filter_eq_self]
      intro l hl
      obtain ⟨p, -, rfl⟩ := List.mem_map.1 hl
      rfl
    have e2 : (I.map fun t => ObjLine.face (t.1.toNat + 1) (t.2.1.toNat + 1) (t.2.2.toNat + 1)).filter
        ObjLine.isVertex = [] := by
      rw [List.filter_eq_nil_iff]
      intro l hl
      obtain ⟨p, -, rfl⟩ := List.mem_map.1 hl
      simp [ObjLine.isVertex]
    rw [e1, e2, List.length_map]
    rfl
  intro i j k h a ha
  rw [n]
  rcases List.mem_append.1 h with h | h
  · obtain ⟨p, -, e⟩ := List.mem_map.1 h
    cases e
  · obtain ⟨t, ht, e⟩ := List.mem_map.1 h
    have h1 := hn t ht
    have h2 := hI t ht
    simp only [inFile, Bool.and_eq_true, decide_eq_true_eq] at h1
    cases e
    simp only [List.mem_cons, List.not_mem_nil, or_false] at ha
    omega

end

end TinyMesh
