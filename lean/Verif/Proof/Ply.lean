import Verif.Spec.Ply
import Verif.Proof.CloneE
/-
Lemmas for C96: bytes and values.
-/
namespace TinyMesh
variable {F : Type} [Scalar F]

theorem word_value (a b c d : Byte) : (d ++ c ++ b ++ a : BitVec 32) = BitVec.ofNat 32 (leValue [a, b, c, d]) := by
  apply BitVec.eq_of_toNat_eq
  have h : ∀ {n : Nat} (x : BitVec n) (y : Byte), (x ++ y).toNat = x.toNat * 256 + y.toNat := by
    intro n x y
    rw [BitVec.toNat_append, ← Nat.shiftLeft_add_eq_or_of_lt y.isLt, Nat.shiftLeft_eq]
  rw [h, h, h, BitVec.toNat_ofNat]
  simp only [leValue]
  have := a.isLt; have := b.isLt; have := c.isLt; have := d.isLt
  omega

theorem bytesOf_value (w : BitVec 32) : leValue (bytesOf w) = w.toNat := by
  have := w.isLt
  simp only [bytesOf, leValue, BitVec.extractLsb'_toNat, Nat.shiftRight_eq_div_pow]
  omega

theorem wordsOf_flatten {l : List (List Byte)} (h : ∀ b ∈ l, b.length = 4) : wordsOf l.flatten = l.map fun b => BitVec.ofNat 32 (leValue b) := by
  induction l with
  | nil => rfl
  | cons x l ih =>
    have hx := h x List.mem_cons_self
    match x, hx with
    | [a, b, c, d], _ =>
      simp only [List.flatten_cons, List.cons_append, List.nil_append, wordsOf, List.map_cons, word_value]
      rw [ih fun b hb => h b (List.mem_cons_of_mem _ hb)]

theorem flatten_const {l : List (List Byte)} {n : Nat} (h : ∀ b ∈ l, b.length = n) : l.flatten.length = n * l.length := by
  induction l with
  | nil => simp
  | cons x l ih =>
    rw [List.flatten_cons, List.length_append, ih fun b hb => h b (List.mem_cons_of_mem _ hb), h x List.mem_cons_self, List.length_cons]
    ring

theorem PlyData.Holds.bytes {d : PlyData} {vs : List Nat} (h : d.Holds vs) : d.bytes.length = d.stride * (3 * d.count) := by
  obtain ⟨e, l, h1, h2, h3⟩ := h
  rw [h1, flatten_const h2, ← e, h3, List.length_map]

/-- a buffer with values of four bytes -/
theorem copyWords_ok {d : PlyData} {vs : List Nat} (h : d.Holds vs) (hs : d.stride = 4) (m : Mesh F) :
    copyWords d m = .ok (vs.map (BitVec.ofNat 32)) m := by
  have hb := h.bytes
  obtain ⟨e, l, h1, h2, h3⟩ := h
  rw [hs] at hb h2
  unfold copyWords
  rw [if_neg (by omega), List.take_of_length_le (by omega), h1, wordsOf_flatten h2, h3, List.map_map]
  rfl

/-- a buffer with values of fewer bytes -/
theorem copyWords_ub {d : PlyData} {vs : List Nat} (h : d.Holds vs) (hs : d.stride < 4) (hc : 0 < d.count) (m : Mesh F) :
    copyWords d m = .err .ub := by
  have hb := h.bytes
  unfold copyWords
  rw [if_pos]
  · rfl
  · rw [hb]
    have : d.stride * (3 * d.count) ≤ 3 * (3 * d.count) := Nat.mul_le_mul_right _ (by omega)
    omega

theorem pointsOf_get (dec : BitVec 32 → F) (xs : List Nat) (i : Nat) : (pointsOf dec xs)[i]? =
    match (xs.map fun x => dec (BitVec.ofNat 32 x))[3 * i]?, (xs.map fun x => dec (BitVec.ofNat 32 x))[3 * i + 1]?, (xs.map fun x => dec (BitVec.ofNat 32 x))[3 * i + 2]? with
    | some x, some y, some z => some ⟨x, y, z⟩
    | _, _, _ => none := by
  match xs with
  | [] => simp [pointsOf]
  | [x] => cases i <;> simp [pointsOf, Nat.mul_add]
  | [x, y] => cases i <;> simp [pointsOf, Nat.mul_add]
  | x :: y :: z :: r =>
    cases i with
    | zero => simp [pointsOf]
    | succ i =>
      have := pointsOf_get dec r i
      simp only [pointsOf, List.getElem?_cons_succ, this]
      rfl

theorem plyPos_eq (dec : BitVec 32 → F) (xs : List Nat) {i : Nat} (h : 3 * i + 2 < 2 ^ 32) :
    plyPos ((xs.map (BitVec.ofNat 32)).map dec) (BitVec.ofNat 32 i) = (pointsOf dec xs)[i]? := by
  have e0 : (BitVec.ofNat 32 i * 3).toNat = 3 * i := by
    rw [BitVec.toNat_mul, BitVec.toNat_ofNat]; simp only [BitVec.toNat_ofNat, BitVec.ofNat_eq_ofNat]; omega
  have e1 : (BitVec.ofNat 32 i * 3 + 1).toNat = 3 * i + 1 := by
    rw [BitVec.toNat_add, e0]; simp only [BitVec.toNat_ofNat, BitVec.ofNat_eq_ofNat]; omega
  have e2 : (BitVec.ofNat 32 i * 3 + 2).toNat = 3 * i + 2 := by
    rw [BitVec.toNat_add, e0]; simp only [BitVec.toNat_ofNat, BitVec.ofNat_eq_ofNat]; omega
  unfold plyPos
  rw [pointsOf_get, e0, e1, e2, List.map_map]
  rfl

theorem plyLoop_eq {V : List F} {P : List (Vec3 F)} {I : List Nat} (φ : Nat → Nat) (h : ∀ i ∈ I, plyPos V (BitVec.ofNat 32 i) = P[φ i]?)
    (tbl : List (Vec3 F × Nat)) : plyLoop V (I.map (BitVec.ofNat 32)) tbl = dedupLoop P (I.map φ) tbl := by
  induction I generalizing tbl with
  | nil => rfl
  | cons i I ih =>
    rw [List.map_cons, List.map_cons, plyLoop, dedupLoop, h i List.mem_cons_self]
    simp only [ih fun j hj => h j (List.mem_cons_of_mem _ hj)]
    cases P[φ i]? <;> rfl

theorem load_eq {vd fd : PlyData} {xs is : List Nat} (hv : vd.Holds xs) (sv : vd.stride = 4) (hf : fd.Holds is) (sf : fd.stride = 4)
    (dec : BitVec 32 → F) {P : List (Vec3 F)} (φ : Nat → Nat)
    (h : ∀ i ∈ is, plyPos ((xs.map (BitVec.ofNat 32)).map dec) (BitVec.ofNat 32 i) = P[φ i]?) (m : Mesh F) :
    loadPlyData dec (some vd) (some fd) m = loadPLY ⟨P, is.map φ⟩ m := by
  unfold loadPlyData loadPLY
  rw [bind_apply, bind_apply]
  cases clearArrays m with
  | err e => rfl
  | ok u m1 =>
    simp only [derefPly, bind_apply, pure_apply, copyWords_ok hv sv, copyWords_ok hf sf]
    rw [plyLoop_eq φ h]

theorem leValue_inj {a b : List Byte} (hl : a.length = b.length) (h : leValue a = leValue b) : a = b := by
  induction a generalizing b with
  | nil => cases b with
    | nil => rfl
    | cons y b => cases hl
  | cons x a ih =>
    cases b with
    | nil => cases hl
    | cons y b =>
      simp only [leValue] at h
      have := x.isLt
      have := y.isLt
      rw [ih (by simpa using hl) (by omega), BitVec.eq_of_toNat_eq (show x.toNat = y.toNat by omega)]

theorem values_inj {l l' : List (List Byte)} {n : Nat} (h : ∀ b ∈ l, b.length = n) (h' : ∀ b ∈ l', b.length = n)
    (e : l.map leValue = l'.map leValue) : l = l' := by
  induction l generalizing l' with
  | nil => cases l' with
    | nil => rfl
    | cons y l' => cases e
  | cons x l ih =>
    cases l' with
    | nil => cases e
    | cons y l' =>
      simp only [List.map_cons, List.cons.injEq] at e
      rw [leValue_inj (by rw [h x List.mem_cons_self, h' y List.mem_cons_self]) e.1,
        ih (fun b hb => h b (List.mem_cons_of_mem _ hb)) (fun b hb => h' b (List.mem_cons_of_mem _ hb)) e.2]

theorem take_flatten {l : List (List Byte)} {n k j : Nat} (h : ∀ b ∈ l, b.length = n) (hk : k ≤ l.length) (hj : j ≤ n * k) :
    l.flatten.take j = (l.take k).flatten.take j := by
  have : l.flatten = (l.take k).flatten ++ (l.drop k).flatten := by rw [← List.flatten_append, List.take_append_drop]
  rw [this, List.take_append_of_le_length]
  rw [flatten_const (n := n) fun b hb => h b (List.mem_of_mem_take hb), List.length_take, min_eq_left hk]
  exact hj

theorem pointsOf_enc (dec : BitVec 32 → F) (enc : F → BitVec 32) (V : List (Vec3 F)) :
    pointsOf dec ((V.flatMap fun p => [enc p.x, enc p.y, enc p.z]).map BitVec.toNat) =
      V.map fun p => ⟨dec (enc p.x), dec (enc p.y), dec (enc p.z)⟩ := by
  induction V with
  | nil => rfl
  | cons p V ih =>
    simp only [List.flatMap_cons, List.cons_append, List.nil_append, List.map_cons, pointsOf, BitVec.ofNat_toNat, BitVec.setWidth_eq, ih]

omit [Scalar F] in
theorem length_flatMap_three {α β : Type} {f : α → List β} (hf : ∀ a, (f a).length = 3) (l : List α) : (l.flatMap f).length = 3 * l.length := by
  induction l with
  | nil => rfl
  | cons a l ih => rw [List.flatMap_cons, List.length_append, ih, hf, List.length_cons]; omega

theorem isValues_words (ws : List (BitVec 32)) : IsValues 4 (ws.flatMap bytesOf) (ws.map BitVec.toNat) :=
  ⟨ws.map bytesOf, rfl, by intro b hb; obtain ⟨w, -, rfl⟩ := List.mem_map.1 hb; rfl, by rw [List.map_map]; congr 1; funext w; exact (bytesOf_value w).symm⟩

end TinyMesh
