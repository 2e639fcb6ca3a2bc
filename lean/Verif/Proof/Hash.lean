import Verif.Spec.Hash
import Mathlib.Data.List.Perm.Basic
/-
Lemmas for C95: tables represent maps.
-/
namespace TinyMesh
variable {K : Type} {c : HConf K}

theorem vecHash_eq {F : Type} {h : F → BitVec 64} {u v : Vec3 F} (hx : h u.x = h v.x) (hy : h u.y = h v.y) (hz : h u.z = h v.z) :
    vecHash h u = vecHash h v := by
  simp [vecHash, hx, hy, hz]

/-- the table `t` represents the map `s` -/
structure Rep (c : HConf K) (t : HTab K) (s : K → Option Nat) : Prop where
  pos : 0 < t.length
  placed : ∀ (i : Nat) b, t[i]? = some b → ∀ e ∈ b, c.slot t.length e.1 = i
  keys : (t.flatten.map (·.1)).Pairwise fun a b => c.eq a b = false
  val : ∀ k x, s k = some x ↔ ∃ e ∈ t.flatten, c.eq e.1 k = true ∧ e.2 = x

theorem mem_flat {t : HTab K} {e : K × Nat} : e ∈ t.flatten ↔ ∃ (i : Nat) (b : List (K × Nat)), t[i]? = some b ∧ e ∈ b := by
  rw [List.mem_flatten]
  constructor
  · rintro ⟨b, hb, he⟩
    obtain ⟨i, h⟩ := List.mem_iff_getElem?.1 hb
    exact ⟨i, b, h, he⟩
  · rintro ⟨i, b, h, he⟩
    exact ⟨b, List.mem_iff_getElem?.2 ⟨i, h⟩, he⟩

theorem PartEq.ne {eq : K → K → Bool} (P : PartEq eq) {a b : K} : eq a b = false → eq b a = false := by
  intro h
  cases e : eq b a
  · rfl
  · rw [P.symm _ _ e] at h; cases h

theorem slot_lt {n : Nat} (h : 0 < n) (k : K) : c.slot n k < n := Nat.mod_lt _ h

theorem HConf.Respects.slot (R : c.Respects) {a b : K} (h : c.eq a b = true) (n : Nat) : c.slot n a = c.slot n b := by
  simp only [HConf.slot, R a b h]

theorem Rep.find (P : PartEq c.eq) (R : c.Respects) {t : HTab K} {s : K → Option Nat} (r : Rep c t s) (k : K) : c.find t k = s k := by
  have lt := slot_lt (c := c) r.pos k
  have hb := List.getElem?_eq_getElem lt
  unfold HConf.find
  rw [hb]
  simp only
  cases hf : List.find? (fun e => c.eq e.1 k) t[c.slot t.length k] with
  | none =>
    cases hs : s k with
    | none => rfl
    | some x =>
      obtain ⟨e, he, q, -⟩ := (r.val k x).1 hs
      obtain ⟨i, b, hi, he⟩ := mem_flat.1 he
      have := r.placed i b hi e he
      rw [R.slot q] at this
      subst this
      rw [hb] at hi
      cases hi
      have := List.find?_eq_none.1 hf e he
      simp [q] at this
  | some e =>
    have q := List.find?_some hf
    have he := List.mem_of_find?_eq_some hf
    have := (r.val k e.2).2 ⟨e, mem_flat.2 ⟨_, _, hb, he⟩, q, rfl⟩
    rw [this]
    rfl

theorem flatten_modify_cons (t : HTab K) {i : Nat} (hi : i < t.length) (e : K × Nat) : (t.modify i fun b => e :: b).flatten.Perm (e :: t.flatten) := by
  induction t generalizing i with
  | nil => simp at hi
  | cons b t ih =>
    cases i with
    | zero => simp
    | succ i =>
      simp only [List.modify_succ_cons, List.flatten_cons]
      exact ((ih (by simpa using hi)).append_left b).trans List.perm_middle

theorem table_length (c : HConf K) (n : Nat) (es : List (K × Nat)) : (c.table n es).length = n := by simp [HConf.table]

theorem flatten_table (c : HConf K) {n : Nat} (hn : 0 < n) (es : List (K × Nat)) : (c.table n es).flatten.Perm es := by
  induction es with
  | nil =>
    have : (c.table n []).flatten = [] := by simp [HConf.table]
    rw [this]
  | cons e es ih =>
    have : c.table n (e :: es) = (c.table n es).modify (c.slot n e.1) fun b => e :: b := by
      apply List.ext_getElem?
      intro i
      rw [List.getElem?_modify]
      simp only [HConf.table, List.getElem?_map]
      by_cases h : i < n
      · rw [List.getElem?_range h]
        simp only [Option.map_some, List.filter_cons]
        by_cases hs : c.slot n e.1 = i
        · simp [hs]
        · simp [hs]
      · simp [List.getElem?_eq_none (l := List.range n) (by simpa using h)]
    rw [this]
    exact (flatten_modify_cons _ (by rw [table_length]; exact slot_lt hn _) e).trans (ih.cons e)

/-- entries rearranged into another number of buckets -/
theorem Rep.grow (P : PartEq c.eq) {t : HTab K} {s : K → Option Nat} (r : Rep c t s) {n : Nat} (hn : 0 < n) : Rep c (c.table n (c.ord t.flatten)) s where
  pos := by rw [table_length]; exact hn
  placed := by
    intro i b hb e he
    rw [table_length]
    simp only [HConf.table, List.getElem?_map] at hb
    obtain ⟨j, hj, rfl⟩ := Option.map_eq_some_iff.1 hb
    obtain ⟨_, rfl⟩ := List.getElem?_eq_some_iff.1 hj
    simpa using (List.mem_filter.1 he).2
  keys := by
    have p := (flatten_table c hn (c.ord t.flatten)).trans (c.ord_perm _)
    exact (p.map _).pairwise_iff (fun {_ _} h => P.ne h) |>.2 r.keys
  val := by
    have p := (flatten_table c hn (c.ord t.flatten)).trans (c.ord_perm _)
    intro k x
    rw [r.val]
    simp only [p.mem_iff]

theorem Rep.add_same (P : PartEq c.eq) {t : HTab K} {s : K → Option Nat} (r : Rep c t s) {k : K} (x : Nat) (hk : s k = none) :
    Rep c (t.modify (c.slot t.length k) fun b => (k, x) :: b) (setAt c.eq s k x) := by
  have lt := slot_lt (c := c) r.pos k
  have p := flatten_modify_cons t lt (k, x)
  have no : ∀ e ∈ t.flatten, c.eq e.1 k = false := by
    intro e he
    by_contra q
    rw [Bool.not_eq_false] at q
    rw [(r.val k e.2).2 ⟨e, he, q, rfl⟩] at hk
    cases hk
  refine ⟨by simpa using r.pos, ?_, ?_, ?_⟩
  · intro i b hb e he
    rw [List.length_modify]
    rw [List.getElem?_modify] at hb
    obtain ⟨b', hb', rfl⟩ := Option.map_eq_some_iff.1 hb
    by_cases h : c.slot t.length k = i
    · rw [if_pos h] at he
      rcases List.mem_cons.1 he with rfl | he
      · exact h
      · exact r.placed i b' hb' e he
    · rw [if_neg h] at he
      exact r.placed i b' hb' e he
  · rw [(p.map _).pairwise_iff (fun {_ _} h => P.ne h)]
    refine List.pairwise_cons.2 ⟨?_, r.keys⟩
    intro a ha
    obtain ⟨e, he, rfl⟩ := List.mem_map.1 ha
    exact P.ne (no e he)
  · intro k' y
    simp only [p.mem_iff, List.mem_cons, setAt]
    by_cases h : c.eq k k' = true
    · rw [if_pos h]
      constructor
      · intro e; cases e; exact ⟨_, Or.inl rfl, h, rfl⟩
      · rintro ⟨e, rfl | he, q, rfl⟩
        · rfl
        · have := no e he
          rw [P.trans _ _ _ q (P.symm _ _ h)] at this
          cases this
    · rw [if_neg h, r.val]
      constructor
      · rintro ⟨e, he, q⟩; exact ⟨e, Or.inr he, q⟩
      · rintro ⟨e, rfl | he, q⟩
        · exact absurd q.1 h
        · exact ⟨e, he, q⟩

theorem Rep.add (P : PartEq c.eq) {t : HTab K} {s : K → Option Nat} (r : Rep c t s) {k : K} (x : Nat) (hk : s k = none) :
    Rep c (c.add t k x) (setAt c.eq s k x) := by
  unfold HConf.add
  simp only
  split_ifs with h
  · exact r.add_same P x hk
  · exact (r.grow P (Nat.succ_pos _)).add_same P x hk

theorem replace_keys (k : K) (x : Nat) (b : List (K × Nat)) : (c.replace k x b).map (·.1) = b.map (·.1) := by
  induction b with
  | nil => rfl
  | cons e b ih =>
    rw [HConf.replace]
    split_ifs
    · rfl
    · rw [List.map_cons, ih, List.map_cons]

theorem mem_replace (P : PartEq c.eq) (k : K) (x : Nat) {b : List (K × Nat)} (h : (b.map (·.1)).Pairwise fun a b => c.eq a b = false) (e : K × Nat) :
    e ∈ c.replace k x b ↔ (∃ a ∈ b, c.eq a.1 k = true ∧ e = (a.1, x)) ∨ (e ∈ b ∧ c.eq e.1 k = false) := by
  induction b with
  | nil => simp [HConf.replace]
  | cons a b ih =>
    rw [List.map_cons, List.pairwise_cons] at h
    rw [HConf.replace]
    by_cases q : c.eq a.1 k = true
    · rw [if_pos q]
      have no : ∀ e ∈ b, c.eq e.1 k = false := by
        intro e he
        by_contra q'
        rw [Bool.not_eq_false] at q'
        have := h.1 e.1 (List.mem_map_of_mem he)
        rw [P.trans _ _ _ q (P.symm _ _ q')] at this
        cases this
      constructor
      · intro he
        rcases List.mem_cons.1 he with rfl | he
        · exact Or.inl ⟨a, List.mem_cons_self, q, rfl⟩
        · exact Or.inr ⟨List.mem_cons_of_mem _ he, no e he⟩
      · rintro (⟨a', ha', q', rfl⟩ | ⟨he, q'⟩)
        · rcases List.mem_cons.1 ha' with rfl | ha'
          · exact List.mem_cons_self
          · rw [no a' ha'] at q'; cases q'
        · rcases List.mem_cons.1 he with rfl | he
          · rw [q] at q'; cases q'
          · exact List.mem_cons_of_mem _ he
    · rw [if_neg q, List.mem_cons, ih h.2]
      constructor
      · rintro (rfl | ⟨a', ha', r⟩ | ⟨he, q'⟩)
        · exact Or.inr ⟨List.mem_cons_self, by simpa using q⟩
        · exact Or.inl ⟨a', List.mem_cons_of_mem _ ha', r⟩
        · exact Or.inr ⟨List.mem_cons_of_mem _ he, q'⟩
      · rintro (⟨a', ha', r⟩ | ⟨he, q'⟩)
        · rcases List.mem_cons.1 ha' with rfl | ha'
          · exact absurd r.1 q
          · exact Or.inr (Or.inl ⟨a', ha', r⟩)
        · rcases List.mem_cons.1 he with rfl | he
          · exact Or.inl rfl
          · exact Or.inr (Or.inr ⟨he, q'⟩)

theorem modify_keys (t : HTab K) (i : Nat) {f : List (K × Nat) → List (K × Nat)} (hf : ∀ b, (f b).map (·.1) = b.map (·.1)) :
    (t.modify i f).flatten.map (·.1) = t.flatten.map (·.1) := by
  induction t generalizing i with
  | nil => cases i <;> rfl
  | cons b t ih =>
    cases i with
    | zero => simp [hf]
    | succ i => simp [ih]

theorem Rep.replace (P : PartEq c.eq) (R : c.Respects) {t : HTab K} {s : K → Option Nat} (r : Rep c t s) {k : K} (x : Nat) (hk : s k ≠ none) :
    Rep c (t.modify (c.slot t.length k) (c.replace k x)) (setAt c.eq s k x) := by
  have lt := slot_lt (c := c) r.pos k
  have sub : ∀ (i : Nat) b, t[i]? = some b → (b.map (·.1)).Pairwise fun a b => c.eq a b = false := by
    intro i b hb
    have : b.Sublist t.flatten := List.sublist_flatten_of_mem (List.mem_of_getElem? hb)
    exact r.keys.sublist (this.map _)
  have mem : ∀ e, e ∈ (t.modify (c.slot t.length k) (c.replace k x)).flatten ↔
      (∃ a ∈ t.flatten, c.eq a.1 k = true ∧ e = (a.1, x)) ∨ (e ∈ t.flatten ∧ c.eq e.1 k = false) := by
    intro e
    rw [mem_flat]
    constructor
    · rintro ⟨i, b, hb, he⟩
      rw [List.getElem?_modify] at hb
      obtain ⟨b', hb', rfl⟩ := Option.map_eq_some_iff.1 hb
      by_cases h : c.slot t.length k = i
      · rw [if_pos h, mem_replace P k x (sub i b' hb')] at he
        rcases he with ⟨a, ha, q⟩ | ⟨he, q⟩
        · exact Or.inl ⟨a, mem_flat.2 ⟨i, b', hb', ha⟩, q⟩
        · exact Or.inr ⟨mem_flat.2 ⟨i, b', hb', he⟩, q⟩
      · rw [if_neg h] at he
        refine Or.inr ⟨mem_flat.2 ⟨i, b', hb', he⟩, ?_⟩
        by_contra q
        rw [Bool.not_eq_false] at q
        have := r.placed i b' hb' e he
        rw [R.slot q] at this
        exact h this
    · have key : ∀ (i : Nat) (b : List (K × Nat)), t[i]? = some b → (t.modify (c.slot t.length k) (c.replace k x))[i]? =
          some (if c.slot t.length k = i then c.replace k x b else b) := by
        intro i b hb
        rw [List.getElem?_modify, hb]
        rfl
      rintro (⟨a, ha, q⟩ | ⟨he, q⟩)
      · obtain ⟨i, b, hb, ha⟩ := mem_flat.1 ha
        have hs : c.slot t.length k = i := by rw [← R.slot q.1]; exact r.placed i b hb a ha
        refine ⟨i, _, key i b hb, ?_⟩
        rw [if_pos hs, mem_replace P k x (sub i b hb)]
        exact Or.inl ⟨a, ha, q⟩
      · obtain ⟨i, b, hb, he⟩ := mem_flat.1 he
        refine ⟨i, _, key i b hb, ?_⟩
        split_ifs
        · rw [mem_replace P k x (sub i b hb)]
          exact Or.inr ⟨he, q⟩
        · exact he
  refine ⟨by simpa using r.pos, ?_, ?_, ?_⟩
  · intro i b hb e he
    rw [List.length_modify]
    rw [List.getElem?_modify] at hb
    obtain ⟨b', hb', rfl⟩ := Option.map_eq_some_iff.1 hb
    by_cases h : c.slot t.length k = i
    · rw [if_pos h] at he
      have : e.1 ∈ (c.replace k x b').map (·.1) := List.mem_map_of_mem he
      rw [replace_keys] at this
      obtain ⟨a, ha, e1⟩ := List.mem_map.1 this
      rw [← e1]
      exact r.placed i b' hb' a ha
    · rw [if_neg h] at he
      exact r.placed i b' hb' e he
  · rw [modify_keys t _ (replace_keys k x)]
    exact r.keys
  · obtain ⟨x0, h0⟩ := Option.ne_none_iff_exists'.1 hk
    obtain ⟨a0, ha0, q0, -⟩ := (r.val k x0).1 h0
    intro k' y
    simp only [mem, setAt]
    by_cases h : c.eq k k' = true
    · rw [if_pos h]
      constructor
      · intro e; cases e
        exact ⟨(a0.1, x), Or.inl ⟨a0, ha0, q0, rfl⟩, P.trans _ _ _ q0 h, rfl⟩
      · rintro ⟨e, ⟨a, _, q, rfl⟩ | ⟨he, q'⟩, q, rfl⟩
        · rfl
        · rw [P.trans _ _ _ q (P.symm _ _ h)] at q'
          cases q'
    · rw [if_neg h, r.val]
      constructor
      · rintro ⟨e, he, q⟩
        refine ⟨e, Or.inr ⟨he, ?_⟩, q⟩
        by_contra q'
        rw [Bool.not_eq_false] at q'
        exact h (P.trans _ _ _ (P.symm _ _ q') q.1)
      · rintro ⟨e, ⟨a, _, q', rfl⟩ | ⟨he, _⟩, q⟩
        · exact absurd (P.trans _ _ _ (P.symm _ _ q') q.1) h
        · exact ⟨e, he, q⟩

theorem Rep.put (P : PartEq c.eq) (R : c.Respects) {t : HTab K} {s : K → Option Nat} (r : Rep c t s) (k : K) (x : Nat) :
    Rep c (c.put t k x) (setAt c.eq s k x) := by
  unfold HConf.put
  rw [r.find P R]
  cases h : s k with
  | none => exact r.add P x h
  | some y => exact r.replace P R x (by rw [h]; simp)

theorem Rep.fetch (P : PartEq c.eq) (R : c.Respects) {t : HTab K} {s : K → Option Nat} (r : Rep c t s) (k : K) :
    (c.fetch t k).1 = (s k).getD 0 ∧ Rep c (c.fetch t k).2 (if (s k).isSome then s else setAt c.eq s k 0) := by
  unfold HConf.fetch
  rw [r.find P R]
  cases h : s k with
  | none => exact ⟨rfl, r.add P 0 h⟩
  | some y => exact ⟨rfl, r⟩

theorem Rep.insert (P : PartEq c.eq) (R : c.Respects) {t : HTab K} {s : K → Option Nat} (r : Rep c t s) (k : K) (x : Nat) :
    Rep c (c.insert t k x) (if (s k).isSome then s else setAt c.eq s k x) := by
  unfold HConf.insert
  rw [r.find P R]
  cases h : s k with
  | none => exact r.add P x h
  | some y => exact r

theorem Rep.call (P : PartEq c.eq) (R : c.Respects) {t : HTab K} {s : K → Option Nat} (r : Rep c t s) (o : HOp K) :
    (c.call t o).1 = (mapCall c.eq s o).1 ∧ Rep c (c.call t o).2 (mapCall c.eq s o).2 := by
  cases o with
  | find k => exact ⟨r.find P R k, r⟩
  | put k x => exact ⟨rfl, r.put P R k x⟩
  | fetch k => exact ⟨congrArg some (r.fetch P R k).1, (r.fetch P R k).2⟩
  | insert k x => exact ⟨rfl, r.insert P R k x⟩

theorem Rep.calls (P : PartEq c.eq) (R : c.Respects) {t : HTab K} {s : K → Option Nat} (r : Rep c t s) (os : List (HOp K)) :
    c.calls t os = mapCalls c.eq s os := by
  induction os generalizing t s with
  | nil => rfl
  | cons o os ih =>
    obtain ⟨e, r'⟩ := r.call P R o
    rw [HConf.calls, mapCalls, e, ih r']

theorem rep_empty (c : HConf K) : Rep c HConf.empty (fun _ => none) where
  pos := by simp [HConf.empty]
  placed := by
    intro i b hb e he
    cases i with
    | zero => simp [HConf.empty] at hb; subst hb; simp at he
    | succ i => simp [HConf.empty] at hb
  keys := by simp [HConf.empty]
  val := by simp [HConf.empty]

/-- a key in another bucket than the only entry is not found -/
theorem find_other (c : HConf K) {a b : K} (x n : Nat) (hn : 1 < n) (hp : c.pol 0 1 + 1 = n) (ne : c.slot n a ≠ c.slot n b) :
    c.find (c.add HConf.empty a x) b = none := by
  have e : c.add HConf.empty a x = (c.table n (c.ord [])).modify (c.slot n a) fun l => (a, x) :: l := by
    unfold HConf.add HConf.empty
    simp only [List.length_singleton, List.flatten_cons, List.flatten_nil, List.append_nil, List.length_nil, hp]
    rw [if_neg (by omega), table_length]
  have o : c.ord [] = [] := (c.ord_perm []).eq_nil
  rw [e, o]
  unfold HConf.find
  rw [List.length_modify, table_length, List.getElem?_modify]
  have : (c.table n [])[c.slot n b]? = some [] := by
    simp only [HConf.table, List.filter_nil, List.getElem?_map]
    rw [List.getElem?_range (slot_lt (by omega) b)]
    rfl
  rw [this]
  simp [ne]

section
variable {F : Type} [Scalar F]

/-- an association list as a map -/
theorem lookupPos_snoc (l : List (Vec3 F × Nat)) (p : Vec3 F) (x : Nat) (k : Vec3 F) :
    lookupPos (l ++ [(p, x)]) k = (lookupPos l k).or (if p.eq k then some x else none) := by
  induction l with
  | nil => simp [lookupPos]
  | cons e l ih =>
    obtain ⟨q, i⟩ := e
    simp only [List.cons_append, lookupPos]
    by_cases h : q.eq k = true
    · rw [if_pos h, if_pos h]; rfl
    · rw [if_neg h, if_neg h]; exact ih

/-- an association list after a new key -/
theorem lookupPos_set (P : PartEq (Vec3.eq (F := F))) {l : List (Vec3 F × Nat)} {p : Vec3 F} (x : Nat) (h : lookupPos l p = none) :
    lookupPos (l ++ [(p, x)]) = setAt Vec3.eq (lookupPos l) p x := by
  funext k
  rw [lookupPos_snoc, setAt]
  by_cases q : p.eq k = true
  · rw [if_pos q, if_pos q]
    have : lookupPos l k = none := by
      induction l with
      | nil => rfl
      | cons e l ih =>
        obtain ⟨a, i⟩ := e
        rw [lookupPos] at h ⊢
        split_ifs at h with h1
        rw [if_neg (fun h2 => h1 (P.trans _ _ _ h2 (P.symm _ _ q)))]
        exact ih h
    rw [this]
    rfl
  · rw [if_neg q, if_neg q, Option.or_none]

theorem dedupHash_eq {c : HConf (Vec3 F)} (hc : c.eq = Vec3.eq) (P : PartEq c.eq) (R : c.Respects) (V : List (Vec3 F)) (I : List Nat)
    {t : HTab (Vec3 F)} {l : List (Vec3 F × Nat)} (r : Rep c t (lookupPos l)) : dedupHash c V I t = dedupLoop V I l := by
  have P' : PartEq (Vec3.eq (F := F)) := hc ▸ P
  induction I generalizing t l with
  | nil => rfl
  | cons i I ih =>
    rw [dedupHash, dedupLoop]
    cases hV : V[i]? with
    | none => rfl
    | some p =>
      simp only [r.find P R]
      congr 1
      funext n
      cases hp : lookupPos l p with
      | some k =>
        have f := r.fetch P R p
        rw [hp] at f
        simp only [Option.isNone_some, Bool.false_eq_true, if_false, hp]
        rw [f.1, ih f.2]
        rfl
      | none =>
        have r1 := r.put P R p n
        rw [hc, ← lookupPos_set P' n hp] at r1
        have f := r1.fetch P R p
        simp only [Option.isNone_none, if_true]
        rw [f.1]
        have : Rep c (c.fetch (c.put t p n) p).2 (lookupPos (match lookupPos (l ++ [(p, n)]) p with
            | some _ => l ++ [(p, n)]
            | none => l ++ [(p, n)] ++ [(p, 0)])) := by
          cases h2 : lookupPos (l ++ [(p, n)]) p with
          | some k => rw [h2] at f; exact f.2
          | none =>
            rw [h2, hc] at f
            rw [lookupPos_set P' 0 h2]
            exact f.2
        rw [ih this]
        cases h2 : lookupPos (l ++ [(p, n)]) p <;> rfl

end

end TinyMesh
