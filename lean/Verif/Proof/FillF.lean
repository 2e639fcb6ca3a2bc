import Verif.Proof.FillE
/-
The tables of `holeFillMinDihedral_`, and the whole function.
-/
set_option linter.unusedSimpArgs false
namespace TinyMesh
open Orbit
variable {F : Type}

/-! ### Outcomes of computations that do not change the mesh -/

/-- `x` yields a value that satisfies `Q` and leaves the mesh as it is; unless `E` it may also have undefined behaviour -/
def TabOut {α : Type} (E : Prop) (m : Mesh F) (x : M F α) (Q : α → Prop) : Prop :=
  (¬ E ∧ x m = .err .ub) ∨ ∃ a, x m = .ok a m ∧ Q a

section TabOut
variable {E : Prop} {m : Mesh F} {α β : Type}

theorem TabOut.ok {x : M F α} {Q : α → Prop} {a : α} (h : x m = .ok a m) (q : Q a) : TabOut E m x Q := .inr ⟨a, h, q⟩

theorem TabOut.pure {Q : α → Prop} {a : α} (q : Q a) : TabOut E m (pure a : M F α) Q := .inr ⟨a, rfl, q⟩

theorem TabOut.bind {x : M F α} {f : α → M F β} {Q : α → Prop} {R : β → Prop} (h : TabOut E m x Q)
    (hf : ∀ a, Q a → TabOut E m (f a) R) : TabOut E m (x >>= f) R := by
  rcases h with ⟨e, h⟩ | ⟨a, h, q⟩
  · exact .inl ⟨e, by rw [bind_apply, h]⟩
  · rcases hf a q with ⟨e, h'⟩ | ⟨b, h', r⟩
    · exact .inl ⟨e, by rw [bind_apply, h]; exact h'⟩
    · exact .inr ⟨b, by rw [bind_apply, h]; exact h', r⟩

theorem TabOut.fold {body : Nat → β → M F β} {Inv : Nat → β → Prop} (n : Nat) : ∀ (a : Nat) (b : β),
    (∀ i, a ≤ i → i < a + n → ∀ b, Inv i b → TabOut E m (body i b) (Inv (i + 1))) → Inv a b →
    TabOut E m (foldAll body (List.range' a n) b) (Inv (a + n)) := by
  induction n with
  | zero => intro a b _ h; exact .pure h
  | succ n ih =>
    intro a b hb h
    rw [List.range'_succ]
    refine TabOut.bind (hb a (Nat.le_refl a) (by omega) b h) fun c hc => ?_
    have := ih (a + 1) c (fun i h1 h2 => hb i (by omega) (by omega)) hc
    rwa [show a + 1 + n = a + (n + 1) by omega] at this

end TabOut

/-! ### The tables -/

/-- the position of a vertex of the mesh -/
def PosIn (m : Mesh F) (x : Vec3 F) : Prop := ∃ v, m.vAlive v = true ∧ x = m.vPos v

/-- angles are bounded: if `E`, then the entries of the table that have been computed are below `1.0e12` -/
structure AngleCap [ScalarX F] (m : Mesh F) (Small : F → Prop) (E : Prop) : Prop where
  zero : Small (Scalar.lit 0 1)
  ang : ∀ a b c d e, PosIn m a → PosIn m b → PosIn m c → PosIn m d → PosIn m e → Small (fillAngle a b c d e)
  max : ∀ a b, Small a → Small b → Small (fmax a b)
  lt : E → ∀ a, Small a → Scalar.lt a (Scalar.lit (10 ^ 12) 1) = true

/-- nothing is known about the angles -/
theorem AngleCap.any [ScalarX F] (m : Mesh F) : AngleCap m (fun _ => True) False :=
  ⟨trivial, fun _ _ _ _ _ _ _ _ _ _ => trivial, fun _ _ _ _ => trivial, False.elim⟩

/-- finite positions, exact arithmetic -/
theorem AngleCap.exact {m : Mesh XR} (p : FinPos m) : AngleCap m (fun x => ∃ r : ℝ, x = .fin r ∧ r ≤ Real.pi) True := by
  obtain ⟨p, hp⟩ := p
  have hv : ∀ x, PosIn m x → ∃ w : Vec3 ℝ, x = w.fin := by
    rintro x ⟨v, a, rfl⟩
    obtain ⟨w, hw, _⟩ := hp v a
    exact ⟨w, hw⟩
  have dh : ∀ a b c d : Vec3 ℝ, ∃ r : ℝ, Vec3.dihedral a.fin b.fin c.fin d.fin = .fin r ∧ 0 ≤ r := by
    intro a b c d
    refine ⟨_, dihedral_ok a b c d, ?_⟩
    split
    · exact le_refl _
    · exact InnerProductGeometry.angle_nonneg _ _
  refine ⟨⟨0, ?_, Real.pi_pos.le⟩, ?_, ?_, ?_⟩
  · rw [show (Scalar.lit 0 1 : XR) = .fin (Scalar.lit 0 1 : ℝ) from rfl, R_lit]; norm_num
  · intro a b c d e ha hb hc hd he
    obtain ⟨a, rfl⟩ := hv a ha
    obtain ⟨b, rfl⟩ := hv b hb
    obtain ⟨c, rfl⟩ := hv c hc
    obtain ⟨d, rfl⟩ := hv d hd
    obtain ⟨e, rfl⟩ := hv e he
    obtain ⟨r, h1, h2⟩ := dh c a b d
    obtain ⟨q, h3, h4⟩ := dh a b c e
    refine ⟨Max.max (Real.pi - r) (Real.pi - q), ?_, max_le (by linarith) (by linarith)⟩
    unfold fillAngle
    rw [h1, h3, ← R_fmax, ← X_fmax]
    rfl
  · rintro _ _ ⟨a, rfl, ha⟩ ⟨b, rfl, hb⟩
    exact ⟨Max.max a b, by rw [X_fmax, R_fmax], max_le ha hb⟩
  · rintro _ _ ⟨a, rfl, ha⟩
    rw [show (Scalar.lit (10 ^ 12) 1 : XR) = .fin (Scalar.lit (10 ^ 12) 1 : ℝ) from rfl, X_lt, R_lt, R_lit]
    have := Real.pi_le_four
    norm_num
    linarith

section Table
variable [ScalarX F] {m : Mesh F} {hs : List Nat} {Small : F → Prop} {E : Prop} {bound : F}

/-- the sides and corners of the face are elements of the mesh -/
theorem boundaryPos_ok (w : m.WF) (ha : ∀ h ∈ hs, m.hAlive h = true) {i : Nat} (hi : i < hs.length) :
    TabOut E m (boundaryPos (hs.map m.hSrc) i) (PosIn m) := by
  have a := w.src_alive _ (ha hs[i] (List.getElem_mem hi))
  refine .ok (a := m.vPos (m.hSrc hs[i])) ?_ ⟨_, a, rfl⟩
  unfold boundaryPos boundaryAt
  rw [List.getElem?_map, List.getElem?_eq_getElem hi]
  exact getPos_ok a

omit [ScalarX F] in
theorem oppositePos_eq (w : m.WF) {h : Nat} (a : m.hAlive h = true) :
    oppositePos h m = .ok (m.vPos (m.hSrc (m.hNext (m.hNext (m.hRev h))))) m := by
  have a1 := w.rev_alive h a
  have a2 := w.next_alive _ a1
  have a3 := w.next_alive _ a2
  have a4 := w.src_alive _ a3
  unfold oppositePos
  rw [bind_apply, getRev_ok a]; dsimp only
  rw [bind_apply, getNext_ok a1]; dsimp only
  rw [bind_apply, getDst_ok a2 a3]; dsimp only
  exact getPos_ok a4

omit [ScalarX F] in
theorem oppositePos_ok (w : m.WF) {h : Nat} (a : m.hAlive h = true) : TabOut E m (oppositePos h) (PosIn m) :=
  .ok (oppositePos_eq w a) ⟨_, w.src_alive _ (w.next_alive _ (w.next_alive _ (w.rev_alive h a))), rfl⟩

theorem he_alive (nd : hs.Nodup) (ha : ∀ h ∈ hs, m.hAlive h = true) {i : Nat} (hi : i + 1 < hs.length) :
    m.hAlive ((startMaps hs).he i (i + 1)) = true := by
  unfold HeMaps.he
  rw [startMaps_side nd (e := (i, i + 1)) ⟨by dsimp only; omega, (Nat.mod_eq_of_lt hi).symm⟩,
    List.getElem?_eq_getElem (by omega)]
  exact ha _ (List.getElem_mem _)

/-- the tables when the entries in `done` have been computed -/
structure TabInv (n : Nat) (Small : F → Prop) (E : Prop) (done : Nat → Nat → Prop) (t : FillTab F) : Prop where
  rng : ∀ a b c, t.o a b = some c → a < c ∧ c < b
  fin : E → ∀ a b, done a b → b < n → Small (t.angle a b) ∧ (a + 2 ≤ b → t.o a b ≠ none)
  rest : ∀ a b, ¬ done a b → t.angle a b = Scalar.lit (10 ^ 12) 1

theorem TabInv.congr {n : Nat} {d d' : Nat → Nat → Prop} {t : FillTab F} (h : TabInv n Small E d t)
    (h1 : ∀ a b, b < n → d' a b → d a b) (h2 : ∀ a b, d a b → d' a b) : TabInv n Small E d' t :=
  ⟨h.rng, fun e a b hd hb => h.fin e a b (h1 a b hb hd) hb, fun a b hd => h.rest a b (fun x => hd (h2 a b x))⟩

theorem put2_same {β : Type} (f : Nat → Nat → β) (i k : Nat) (x : β) : put2 f i k x i k = x := if_pos ⟨rfl, rfl⟩

theorem put2_ne {β : Type} (f : Nat → Nat → β) {i k a b : Nat} (x : β) (h : ¬ (a = i ∧ b = k)) : put2 f i k x a b = f a b := if_neg h

/-- one entry is set -/
theorem TabInv.put {n i k : Nat} {d : Nat → Nat → Prop} {t : FillTab F} (h : TabInv n Small E d t) {ar an : F} {c : Option Nat}
    (hc : ∀ x, c = some x → i < x ∧ x < k) (hs : E → Small an) (hn : i + 2 ≤ k → c ≠ none) :
    TabInv n Small E (fun a b => d a b ∨ (a = i ∧ b = k)) ⟨put2 t.area i k ar, put2 t.angle i k an, put2 t.o i k c⟩ := by
  refine ⟨?_, ?_, ?_⟩
  · intro a b x hx
    dsimp only at hx
    by_cases e : a = i ∧ b = k
    · obtain ⟨rfl, rfl⟩ := e
      rw [put2_same] at hx
      exact hc x hx
    · rw [put2_ne _ _ e] at hx
      exact h.rng a b x hx
  · intro e' a b hd hb
    dsimp only
    by_cases e : a = i ∧ b = k
    · obtain ⟨rfl, rfl⟩ := e
      rw [put2_same, put2_same]
      exact ⟨hs e', hn⟩
    · rw [put2_ne _ _ e, put2_ne _ _ e]
      exact h.fin e' a b (hd.resolve_right e) hb
  · intro a b hd
    dsimp only
    rw [put2_ne _ _ (fun e => hd (.inr e))]
    exact h.rest a b (fun x => hd (.inl x))

theorem fillInit_ok (w : m.WF) (nd : hs.Nodup) (ha : ∀ h ∈ hs, m.hAlive h = true) (c : AngleCap m Small E) :
    TabOut E m (foldAll (fillInitStep (hs.map m.hSrc) (startMaps hs)) (List.range ((hs.map m.hSrc).length - 1)) FillTab.init)
      (TabInv hs.length Small E (fun a b => a < b ∧ b < a + 3)) := by
  rw [List.length_map, List.range_eq_range']
  have step : ∀ i, 0 ≤ i → i < 0 + (hs.length - 1) → ∀ t,
      TabInv hs.length Small E (fun a b => a < i ∧ (b = a + 1 ∨ b = a + 2)) t →
      TabOut E m (fillInitStep (hs.map m.hSrc) (startMaps hs) i t)
        (TabInv hs.length Small E (fun a b => a < i + 1 ∧ (b = a + 1 ∨ b = a + 2))) := by
    intro i _ hi t ht
    have t1 := ht.put (i := i) (k := i + 1) (ar := Scalar.lit 0 1) (an := Scalar.lit 0 1) (c := none) (by simp) (fun _ => c.zero)
      (by omega)
    unfold fillInitStep
    dsimp only
    rw [List.length_map]
    split
    · next h2 =>
      refine (boundaryPos_ok w ha (by omega)).bind fun v0 p0 => ?_
      refine (boundaryPos_ok w ha (by omega)).bind fun v1 p1 => ?_
      refine (boundaryPos_ok w ha (by omega)).bind fun v2 p2 => ?_
      refine (oppositePos_ok w (he_alive nd ha (by omega))).bind fun v3 p3 => ?_
      refine (oppositePos_ok w (he_alive nd ha (by omega))).bind fun v4 p4 => ?_
      refine .pure ?_
      refine (t1.put (i := i) (k := i + 2) (c := some (i + 1)) (by rintro x h; cases h; omega)
        (fun _ => c.ang v0 v1 v2 v3 v4 p0 p1 p2 p3 p4) (by simp)).congr ?_ ?_
      · intro a b hb hd; omega
      · intro a b hd; omega
    · next h2 =>
      refine .pure (t1.congr ?_ ?_)
      · intro a b hb hd; omega
      · intro a b hd; omega
  have h0 : TabInv hs.length Small E (fun a b => a < 0 ∧ (b = a + 1 ∨ b = a + 2)) (FillTab.init : FillTab F) :=
    ⟨by intro a b x h; exact absurd h (by simp [FillTab.init]), fun _ a b h => by omega, fun _ _ _ => rfl⟩
  rcases TabOut.fold (hs.length - 1) 0 FillTab.init step h0 with h | ⟨t, h1, h2⟩
  · exact .inl h
  · exact .inr ⟨t, h1, h2.congr (fun a b hb hd => by omega) (fun a b hd => by omega)⟩

theorem fillOpposite_ok (w : m.WF) (nd : hs.Nodup) (ha : ∀ h ∈ hs, m.hAlive h = true) {d : Nat → Nat → Prop} {t : FillTab F}
    (ht : TabInv hs.length Small E d t) {i k : Nat} (h1 : i < k) (h2 : k < hs.length) (hd : d i k) :
    TabOut E m (fillOpposite (hs.map m.hSrc) (startMaps hs) t i k) (PosIn m) := by
  unfold fillOpposite
  split
  · next e => subst e; exact oppositePos_ok w (he_alive nd ha h2)
  · next e =>
    cases ho : t.o i k with
    | some x =>
      have := ht.rng i k x ho
      exact boundaryPos_ok w ha (by omega)
    | none =>
      refine .inl ⟨fun e' => ?_, rfl⟩
      exact (ht.fin e' i k hd h2).2 (by omega) ho

/-- the entries computed before the entry `(i, i + j)` -/
def DoneTo (j i : Nat) (a b : Nat) : Prop := a < b ∧ (b < a + j ∨ (b = a + j ∧ a < i))

/-- the tables while the entry `(i, k)` is computed: the candidates up to `c` have been tried -/
structure CellInv (n : Nat) (Small : F → Prop) (E : Prop) (j i c : Nat) (t : FillTab F) : Prop where
  rng : ∀ a b x, t.o a b = some x → a < x ∧ x < b
  fin : E → ∀ a b, DoneTo j i a b → b < n → Small (t.angle a b) ∧ (a + 2 ≤ b → t.o a b ≠ none)
  rest : ∀ a b, ¬ DoneTo j (i + 1) a b → t.angle a b = Scalar.lit (10 ^ 12) 1
  first : c = i + 1 → t.angle i (i + j) = Scalar.lit (10 ^ 12) 1
  cur : E → c ≠ i + 1 → Small (t.angle i (i + j)) ∧ t.o i (i + j) ≠ none

theorem fillStep_ok (w : m.WF) (nd : hs.Nodup) (ha : ∀ h ∈ hs, m.hAlive h = true) (cap : AngleCap m Small E) {j i c : Nat}
    {t : FillTab F} (hik : i + j < hs.length) (h1 : i < c) (h2 : c < i + j) (ht : CellInv hs.length Small E j i c t) :
    TabOut E m (fillStep (hs.map m.hSrc) (startMaps hs) bound i (i + j) c t) (CellInv hs.length Small E j i (c + 1)) := by
  have d1 : DoneTo j i i c := ⟨h1, .inl (by omega)⟩
  have d2 : DoneTo j i c (i + j) := ⟨h2, .inl (by omega)⟩
  -- the opposite corners only depend on entries that have been computed
  have opp : ∀ a b, a < b → b < hs.length → DoneTo j i a b →
      TabOut E m (fillOpposite (hs.map m.hSrc) (startMaps hs) t a b) (PosIn m) := by
    intro a b h1 h2 hd
    unfold fillOpposite
    split
    · next e => subst e; exact oppositePos_ok w (he_alive nd ha h2)
    · next e =>
      cases ho : t.o a b with
      | some x =>
        have := ht.rng a b x ho
        exact boundaryPos_ok w ha (by omega)
      | none =>
        refine .inl ⟨fun e' => ?_, rfl⟩
        exact (ht.fin e' a b hd h2).2 (by omega) ho
  unfold fillStep
  refine (boundaryPos_ok w ha (by omega)).bind fun v0 p0 => ?_
  refine (boundaryPos_ok w ha (by omega)).bind fun v1 p1 => ?_
  refine (boundaryPos_ok w ha (by omega)).bind fun v2 p2 => ?_
  refine (opp i c h1 (by omega) d1).bind fun v3 p3 => ?_
  refine (opp c (i + j) h2 hik d2).bind fun v4 p4 => ?_
  have small : E → Small (fmax (fillAngle v0 v1 v2 v3 v4) (fmax (t.angle i c) (t.angle c (i + j)))) := fun e =>
    cap.max _ _ (cap.ang _ _ _ _ _ p0 p1 p2 p3 p4)
      (cap.max _ _ (ht.fin e i c d1 (by omega)).1 (ht.fin e c (i + j) d2 hik).1)
  have ne : ∀ a b, DoneTo j i a b → ¬ (a = i ∧ b = i + j) := by
    rintro a b ⟨_, h⟩ ⟨rfl, rfl⟩; omega
  have ne' : ∀ a b, ¬ DoneTo j (i + 1) a b → ¬ (a = i ∧ b = i + j) := by
    rintro a b h ⟨rfl, rfl⟩; exact h ⟨by omega, .inr ⟨rfl, by omega⟩⟩
  dsimp only
  split
  · refine .pure ⟨?_, ?_, ?_, fun e => by omega, ?_⟩
    · intro a b x hx
      dsimp only at hx
      by_cases e : a = i ∧ b = i + j
      · obtain ⟨rfl, rfl⟩ := e
        rw [put2_same] at hx
        cases hx
        exact ⟨h1, h2⟩
      · rw [put2_ne _ _ e] at hx
        exact ht.rng a b x hx
    · intro e' a b hd hb
      dsimp only
      rw [put2_ne _ _ (ne a b hd), put2_ne _ _ (ne a b hd)]
      exact ht.fin e' a b hd hb
    · intro a b hd
      dsimp only
      rw [put2_ne _ _ (ne' a b hd)]
      exact ht.rest a b hd
    · intro e' _
      dsimp only
      rw [put2_same, put2_same]
      exact ⟨small e', by simp⟩
  · next hc =>
    refine .pure ⟨ht.rng, ht.fin, ht.rest, fun e => by omega, fun e' _ => ?_⟩
    by_cases e : c = i + 1
    · exfalso
      apply hc
      rw [ht.first e, cap.lt e' _ (small e')]
      rfl
    · exact ht.cur e' e

theorem fillCell_ok (w : m.WF) (nd : hs.Nodup) (ha : ∀ h ∈ hs, m.hAlive h = true) (cap : AngleCap m Small E) {j i : Nat}
    (h3 : 2 ≤ j) (hik : i + j < hs.length) {t : FillTab F} (ht : TabInv hs.length Small E (DoneTo j i) t) :
    TabOut E m (fillCell (hs.map m.hSrc) (startMaps hs) bound j i t) (TabInv hs.length Small E (DoneTo j (i + 1))) := by
  have h0 : CellInv hs.length Small E j i (i + 1) t := by
    refine ⟨ht.rng, ht.fin, ?_, ?_, fun _ h => absurd rfl h⟩
    · intro a b hd
      exact ht.rest a b (fun x => hd ⟨x.1, by have := x.2; omega⟩)
    · intro _
      exact ht.rest _ _ (by rintro ⟨_, h⟩; omega)
  rcases TabOut.fold (E := E) (m := m) (body := fillStep (hs.map m.hSrc) (startMaps hs) bound i (i + j)) (Inv := CellInv hs.length Small E j i)
    (j - 1) (i + 1) t (fun c h1 h2 t ht => fillStep_ok w nd ha cap hik (by omega) (by omega) ht) h0 with h | ⟨t', h1, h2⟩
  · exact .inl h
  · refine .inr ⟨t', h1, h2.rng, ?_, h2.rest⟩
    intro e a b hd hb
    by_cases hx : a = i ∧ b = i + j
    · obtain ⟨rfl, rfl⟩ := hx
      have := h2.cur e (by omega)
      exact ⟨this.1, fun _ => this.2⟩
    · refine h2.fin e a b ⟨hd.1, ?_⟩ hb
      have := hd.2
      omega

theorem fillRow_ok (w : m.WF) (nd : hs.Nodup) (ha : ∀ h ∈ hs, m.hAlive h = true) (cap : AngleCap m Small E) {j : Nat}
    (h3 : 2 ≤ j) {t : FillTab F} (ht : TabInv hs.length Small E (DoneTo j 0) t) :
    TabOut E m (fillRow (hs.map m.hSrc) (startMaps hs) bound j t) (TabInv hs.length Small E (DoneTo (j + 1) 0)) := by
  unfold fillRow
  rw [List.length_map, List.range_eq_range']
  rcases TabOut.fold (E := E) (m := m) (body := fillCell (hs.map m.hSrc) (startMaps hs) bound j)
    (Inv := fun i => TabInv hs.length Small E (DoneTo j i))
    (hs.length - j) 0 t (fun i h1 h2 t ht => fillCell_ok w nd ha cap h3 (by omega) ht) ht with h | ⟨t', h1, h2⟩
  · exact .inl h
  · refine .inr ⟨t', h1, h2.congr ?_ ?_⟩
    · rintro a b hb ⟨d1, d2⟩
      exact ⟨d1, by omega⟩
    · rintro a b ⟨d1, d2⟩
      exact ⟨d1, by omega⟩

theorem fillTable_ok (w : m.WF) (nd : hs.Nodup) (ha : ∀ h ∈ hs, m.hAlive h = true) (cap : AngleCap m Small E) :
    TabOut E m (fillTable (hs.map m.hSrc) (startMaps hs) bound)
      (fun t => TableRange hs.length t.o ∧ (E → ∀ i k, i + 2 ≤ k → k < hs.length → t.o i k ≠ none)) := by
  unfold fillTable
  refine (fillInit_ok w nd ha cap).bind fun t ht => ?_
  rw [List.length_map]
  have ht : TabInv hs.length Small E (DoneTo 3 0) t :=
    ht.congr (fun a b _ h => ⟨h.1, by have := h.2; omega⟩) (fun a b h => ⟨h.1, by omega⟩)
  rcases TabOut.fold (E := E) (m := m) (body := fillRow (hs.map m.hSrc) (startMaps hs) bound)
    (Inv := fun j => TabInv hs.length Small E (DoneTo j 0))
    (hs.length - 3) 3 t (fun j h1 h2 t ht => fillRow_ok w nd ha cap (by omega) ht) ht with h | ⟨t', h1, h2⟩
  · exact .inl h
  · refine .inr ⟨t', h1, fun i k x _ _ hx => h2.rng i k x hx, ?_⟩
    intro e i k h3 h4
    exact (h2.fin e i k ⟨by omega, by omega⟩ h4).2 h3

/-- `holeFillMinDihedral_` on a face with at least three sides -/
theorem holeFill_ok (w : m.WF) (cap : AngleCap m Small E) {f : Nat} (af : m.fAlive f = true)
    (h3 : 3 ≤ (orbit m.hNext (m.fHe f)).length) :
    (¬ E ∧ holeFillMinDihedral f bound m = .err .ub) ∨
    ∃ m' tris He, holeFillMinDihedral f bound m = .ok () m' ∧ Poly (orbit m.hNext (m.fHe f)).length tris ∧
      Patched m m' f (orbit m.hNext (m.fHe f)) tris He := by
  have l := w.faceLoop af
  have ha : ∀ h ∈ orbit m.hNext (m.fHe f), m.hAlive h = true := fun h hh => ((l.mem h).1 hh).1
  unfold holeFillMinDihedral
  rw [bind_apply, w.faceVerts_ok af]
  dsimp only
  rw [bind_apply, w.faceList_ok af]
  dsimp only
  rw [List.length_map]
  change (¬ E ∧ (fillTable _ (startMaps _) bound >>= _) m = _) ∨ ∃ m' tris He, (fillTable _ (startMaps _) bound >>= _) m = _ ∧ _
  rcases fillTable_ok (bound := bound) w l.nodup ha cap with ⟨e, h⟩ | ⟨t, h, tr, tf⟩
  · exact .inl ⟨e, by rw [bind_apply, h]⟩
  · rw [bind_apply, h]
    dsimp only
    rcases fillTris_ok tr ((orbit m.hNext (m.fHe f)).length + 1) [(0, (orbit m.hNext (m.fHe f)).length - 1)] []
      (by simp; omega) (by simp; omega) with ⟨h1, i, k, h2, h4, h5⟩ | ⟨⟨tris, ls⟩, h1, h2, h4⟩
    · rw [h1]
      exact .inl ⟨fun e => tf e i k h2 h4 h5, rfl⟩
    · rw [h1]
      dsimp only at h2 h4
      rw [List.forall₂_cons_left_iff] at h2
      obtain ⟨x, xs, h5, h6, rfl⟩ := h2
      rw [List.forall₂_nil_left_iff] at h6
      subst h6
      have p := Triangulation.poly (tris := tris) h3 h5 (by simpa using h4)
      obtain ⟨m', He, r, P⟩ := patch_ok w af p
      exact .inr ⟨m', tris, He, r, p, P⟩

end Table
end TinyMesh
