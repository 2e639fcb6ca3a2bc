import Verif.Model.Files
import Verif.Spec.Files
import Mathlib.Data.List.TakeWhile
import Mathlib.Tactic.SplitIfs
/-
Extensions of file names.
-/
namespace TinyMesh

/-- the part behind the last `c` -/
theorem behind_last {c : Char} (s : List Char) : ∃ d, s = d ++ (s.reverse.takeWhile (· != c)).reverse ∧ c ∉ s.reverse.takeWhile (· != c) ∧
    (d = [] ∨ ∃ d', d = d' ++ [c]) := by
  refine ⟨(s.reverse.dropWhile (· != c)).reverse, ?_, fun h => ?_, ?_⟩
  · rw [← List.reverse_append, List.takeWhile_append_dropWhile, List.reverse_reverse]
  · have := List.mem_takeWhile_imp h
    simp at this
  · cases h : s.reverse.dropWhile (· != c) with
    | nil => left; rfl
    | cons x l =>
      right
      have : (x != c) = false := by
        have := List.head_dropWhile_not (p := (· != c)) (l := s.reverse) (by rw [h]; simp)
        simpa [h] using this
      refine ⟨l.reverse, ?_⟩
      simp at this
      simp [this]

theorem takeWhile_last {c : Char} (d x : List Char) (hx : c ∉ x) : ((d ++ c :: x).reverse.takeWhile (· != c)) = x.reverse := by
  rw [List.reverse_append, List.reverse_cons, List.append_assoc, List.takeWhile_append_of_pos]
  · simp
  · intro a ha
    rw [List.mem_reverse] at ha
    simp only [bne_iff_ne, ne_eq]
    rintro rfl
    exact hx ha

theorem takeWhile_none {c : Char} (x : List Char) (hx : c ∉ x) : (x.reverse.takeWhile (· != c)) = x.reverse := by
  rw [List.takeWhile_eq_self_iff]
  intro a ha
  rw [List.mem_reverse] at ha
  simp only [bne_iff_ne, ne_eq]
  rintro rfl
  exact hx ha

theorem fileName_of {d b : List Char} (hb : '/' ∉ b) (hd : d = [] ∨ ∃ d', d = d' ++ ['/']) : fileName (d ++ b) = b := by
  unfold fileName
  rcases hd with rfl | ⟨d', rfl⟩
  · rw [List.nil_append, takeWhile_none b hb, List.reverse_reverse]
  · rw [List.append_assoc]
    show ((d' ++ '/' :: b).reverse.takeWhile (· != '/')).reverse = b
    rw [takeWhile_last d' b hb, List.reverse_reverse]

/-- the extension is `x` exactly if the path leads to a file called `b.x` -/
theorem extension_iff {s x : List Char} (h0 : x ≠ []) (h1 : '.' ∉ x) (h2 : '/' ∉ x) : extension s = '.' :: x ↔ Named s x := by
  constructor
  · intro h
    obtain ⟨d, e, nd, hd⟩ := behind_last (c := '/') s
    change s = d ++ fileName s at e
    obtain ⟨b, e', nb, hb⟩ := behind_last (c := '.') (fileName s)
    unfold extension at h
    simp only at h
    split_ifs at h with k1 k2
    have ht : ((fileName s).reverse.takeWhile (· != '.')).reverse = x := (List.cons.inj h).2
    rw [ht] at e' k2
    rcases hb with rfl | ⟨b, rfl⟩
    · rw [e', List.nil_append] at k2
      omega
    · refine ⟨d, b, ?_, ?_, ?_, hd⟩
      · rw [e, e']
        simp [List.append_assoc]
      · rintro rfl
        rw [e'] at k2
        simp at k2
      · intro hm
        have : '/' ∈ fileName s := by rw [e']; simp [hm]
        exact nd (by unfold fileName at this; rwa [List.mem_reverse] at this)
  · rintro ⟨d, b, rfl, b0, hb, hd⟩
    have e : fileName (d ++ b ++ '.' :: x) = b ++ '.' :: x := by
      rw [List.append_assoc]
      refine fileName_of ?_ hd
      simp [hb, h2]
    unfold extension
    simp only
    rw [e, takeWhile_last b x h1, List.reverse_reverse]
    have lb : 0 < b.length := List.length_pos_iff.2 b0
    have lx : 0 < x.length := List.length_pos_iff.2 h0
    rw [if_neg, if_neg]
    · simp only [List.length_append, List.length_cons]
      omega
    · rintro (h | h)
      · have := congrArg List.length h
        simp at this
        omega
      · have h' := congrArg List.length h
        simp at h'
        have : b.length = 1 ∧ x.length = 1 := by omega
        obtain ⟨c, rfl⟩ := List.length_eq_one_iff.1 this.1
        obtain ⟨c', rfl⟩ := List.length_eq_one_iff.1 this.2
        simp at h

/-- a C string ends at the first null character -/
theorem cStr_of {s t z : List Char} (ht : s = t ∨ s = t ++ '\x00' :: z) (h0 : '\x00' ∉ t) : cStr s = t := by
  unfold cStr
  rcases ht with rfl | rfl
  · rw [List.takeWhile_eq_self_iff]
    intro a ha
    simp only [bne_iff_ne, ne_eq]
    rintro rfl
    exact h0 ha
  · rw [List.takeWhile_append_of_pos]
    · simp
    · intro a ha
      simp only [bne_iff_ne, ne_eq]
      rintro rfl
      exact h0 ha

end TinyMesh
