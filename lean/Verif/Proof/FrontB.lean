import Verif.Proof.FrontA
/-
Two changes of the links: a new edge that ends at a new vertex, and a new edge that cuts a triangle off a face.
-/
namespace TinyMesh

theorem dead_ne {A : Nat → Bool} {x y : Nat} (hx : A x = true) (hy : A y = false) : x ≠ y := by
  rintro rfl
  rw [hx] at hy
  exact absurd hy (by simp)

namespace Links
variable {L L' : Links}

/-! ### A new vertex -/

/-- a new edge `C`, `C'` from the corner behind `a` to a new vertex `x` -/
structure Mev (L L' : Links) (a C C' x : Nat) : Prop where
  al : ∀ h, L'.hA h = true ↔ h = C ∨ h = C' ∨ L.hA h = true
  nxa : L'.nx a = C
  nxC : L'.nx C = C'
  nxC' : L'.nx C' = L.nx a
  nxo : ∀ {h}, L.hA h = true → h ≠ a → L'.nx h = L.nx h
  rvC : L'.rv C = C'
  rvC' : L'.rv C' = C
  rvo : ∀ {h}, L.hA h = true → L'.rv h = L.rv h
  srC : L'.sr C = L.sr (L.nx a)
  srC' : L'.sr C' = x
  sro : ∀ {h}, L.hA h = true → L'.sr h = L.sr h
  fcC : L'.fc C = L.fc a
  fcC' : L'.fc C' = L.fc a
  fco : ∀ {h}, L.hA h = true → L'.fc h = L.fc h
  va : ∀ v, L'.vA v = true ↔ v = x ∨ L.vA v = true
  vhx : L'.vh x = C'
  vho : ∀ {v}, L.vA v = true → L'.vh v = L.vh v
  fa : ∀ f, L'.fA f = true ↔ L.fA f = true
  fho : ∀ {f}, L.fA f = true → L'.fh f = L.fh f

/-- the links after `Mev` -/
def mev (L : Links) (a C C' x : Nat) : Links where
  hA := upd (upd L.hA C true) C' true
  nx := upd (upd (upd L.nx C' (L.nx a)) C C') a C
  rv := upd (upd L.rv C C') C' C
  sr := upd (upd L.sr C (L.sr (L.nx a))) C' x
  fc := upd (upd L.fc C (L.fc a)) C' (L.fc a)
  vA := upd L.vA x true
  vh := upd L.vh x C'
  fA := L.fA
  fh := L.fh

theorem mev_rel {a C C' x : Nat} (ha : L.hA a = true) (dC : L.hA C = false) (dC' : L.hA C' = false) (hC : C ≠ C')
    (dx : L.vA x = false) : L.Mev (L.mev a C C' x) a C C' x := by
  have ne1 : ∀ {h}, L.hA h = true → h ≠ C := fun hh => dead_ne hh dC
  have ne2 : ∀ {h}, L.hA h = true → h ≠ C' := fun hh => dead_ne hh dC'
  have vx : ∀ {v}, L.vA v = true → v ≠ x := fun hh => dead_ne hh dx
  have hC' := hC.symm
  constructor
  · intro h
    show upd (upd L.hA C true) C' true h = true ↔ _
    unfold upd
    split
    · simp [*]
    · split <;> simp [*]
  · exact upd_same _ _ _
  · show upd (upd (upd L.nx C' (L.nx a)) C C') a C C = C'
    rw [upd_ne _ _ (ne1 ha).symm, upd_same]
  · show upd (upd (upd L.nx C' (L.nx a)) C C') a C C' = _
    rw [upd_ne _ _ (ne2 ha).symm, upd_ne _ _ hC', upd_same]
  · intro h hh hha
    show upd (upd (upd L.nx C' (L.nx a)) C C') a C h = _
    rw [upd_ne _ _ hha, upd_ne _ _ (ne1 hh), upd_ne _ _ (ne2 hh)]
  · show upd (upd L.rv C C') C' C C = _
    rw [upd_ne _ _ hC, upd_same]
  · exact upd_same _ _ _
  · intro h hh
    show upd (upd L.rv C C') C' C h = _
    rw [upd_ne _ _ (ne2 hh), upd_ne _ _ (ne1 hh)]
  · show upd (upd L.sr C (L.sr (L.nx a))) C' x C = _
    rw [upd_ne _ _ hC, upd_same]
  · exact upd_same _ _ _
  · intro h hh
    show upd (upd L.sr C (L.sr (L.nx a))) C' x h = _
    rw [upd_ne _ _ (ne2 hh), upd_ne _ _ (ne1 hh)]
  · show upd (upd L.fc C (L.fc a)) C' (L.fc a) C = _
    rw [upd_ne _ _ hC, upd_same]
  · exact upd_same _ _ _
  · intro h hh
    show upd (upd L.fc C (L.fc a)) C' (L.fc a) h = _
    rw [upd_ne _ _ (ne2 hh), upd_ne _ _ (ne1 hh)]
  · intro v
    show upd L.vA x true v = true ↔ _
    unfold upd
    split <;> simp [*]
  · exact upd_same _ _ _
  · intro v hv
    exact upd_ne _ _ (vx hv)
  · intro f; exact Iff.rfl
  · intro f _; rfl

theorem Ok.mev {a C C' x : Nat} (K : L.Ok) (R : L.Mev L' a C C' x) (ha : L.hA a = true) (dC : L.hA C = false) (dC' : L.hA C' = false)
    (hC : C ≠ C') (dx : L.vA x = false) : L'.Ok := by
  have ne1 : ∀ {h}, L.hA h = true → h ≠ C := fun hh => dead_ne hh dC
  have ne2 : ∀ {h}, L.hA h = true → h ≠ C' := fun hh => dead_ne hh dC'
  have vx : ∀ {v}, L.vA v = true → v ≠ x := fun hh => dead_ne hh dx
  have hC' := hC.symm
  have old : ∀ {h}, L.hA h = true → L'.hA h = true := fun hh => (R.al _).2 (.inr (.inr hh))
  have aC : L'.hA C = true := (R.al _).2 (.inl rfl)
  have aC' : L'.hA C' = true := (R.al _).2 (.inr (.inl rfl))
  have na := K.next_alive a ha
  have ra := K.rev_alive a ha
  have rC := R.rvC
  have rC' := R.rvC'
  have rra : L'.nx (L'.rv (L.rv a)) = C := by rw [R.rvo ra, K.rev_rev a ha, R.nxa]
  -- steps
  have st : ∀ h, L.hA h = true → L.hA (L.nx h) = true ∧ Reach L'.nx h (L.nx h) := by
    intro h hh
    refine ⟨K.next_alive h hh, ?_⟩
    by_cases e : h = a
    · subst e
      exact (Reach.one R.nxa).trans ((Reach.one R.nxC).trans (.one R.nxC'))
    · exact .one (R.nxo hh e)
  have st2 : ∀ h, L.hA h = true → L.hA (L.nx (L.rv h)) = true ∧ Reach (fun x => L'.nx (L'.rv x)) h (L.nx (L.rv h)) := by
    intro h hh
    have rh := K.rev_alive h hh
    refine ⟨K.next_alive _ rh, ?_⟩
    by_cases e : L.rv h = a
    · have s1 : Reach (fun x => L'.nx (L'.rv x)) h C := .one (by rw [R.rvo hh, e, R.nxa])
      have s2 : Reach (fun x => L'.nx (L'.rv x)) C (L.nx (L.rv h)) := .one (by rw [rC, R.nxC', e])
      exact s1.trans s2
    · exact .one (by rw [R.rvo hh, R.nxo rh e])
  constructor
  · intro h hh
    rcases (R.al h).1 hh with rfl | rfl | hh
    · rw [R.nxC]; exact aC'
    · rw [R.nxC']; exact old na
    · by_cases e : h = a
      · rw [e, R.nxa]; exact aC
      · rw [R.nxo hh e]; exact old (K.next_alive h hh)
  · intro h hh
    rcases (R.al h).1 hh with rfl | rfl | hh
    · rw [rC]; exact aC'
    · rw [rC']; exact aC
    · rw [R.rvo hh]; exact old (K.rev_alive h hh)
  · intro h hh
    rcases (R.al h).1 hh with rfl | rfl | hh
    · rw [R.srC]; exact (R.va _).2 (.inr (K.src_alive _ na))
    · rw [R.srC']; exact (R.va _).2 (.inl rfl)
    · rw [R.sro hh]; exact (R.va _).2 (.inr (K.src_alive _ hh))
  · intro h hh
    rcases (R.al h).1 hh with rfl | rfl | hh
    · rw [R.fcC]; exact (R.fa _).2 (K.face_alive _ ha)
    · rw [R.fcC']; exact (R.fa _).2 (K.face_alive _ ha)
    · rw [R.fco hh]; exact (R.fa _).2 (K.face_alive _ hh)
  · intro h hh
    rcases (R.al h).1 hh with rfl | rfl | hh
    · rw [rC, rC']
    · rw [rC', rC]
    · rw [R.rvo hh, R.rvo (K.rev_alive h hh)]; exact K.rev_rev h hh
  · intro h hh
    rcases (R.al h).1 hh with rfl | rfl | hh
    · rw [rC]; exact hC'
    · rw [rC']; exact hC
    · rw [R.rvo hh]; exact K.rev_ne h hh
  · intro h hh
    rcases (R.al h).1 hh with rfl | rfl | hh
    · rw [rC, R.nxC]
    · rw [rC', R.nxC', R.srC, R.sro na]
    · rw [R.rvo hh, R.sro (K.rev_alive h hh)]
      by_cases e : h = a
      · subst e
        rw [R.nxa, R.srC]; exact K.src_rev h hh
      · rw [R.nxo hh e, R.sro (K.next_alive h hh)]; exact K.src_rev h hh
  · have key : ∀ h, L'.hA h = true → (h = C ∧ L'.nx h = C') ∨ (h = C' ∧ L'.nx h = L.nx a) ∨ (h = a ∧ L'.nx h = C) ∨
        (L.hA h = true ∧ h ≠ a ∧ L'.nx h = L.nx h) := by
      intro h hh
      rcases (R.al h).1 hh with rfl | rfl | hh
      · exact .inl ⟨rfl, R.nxC⟩
      · exact .inr (.inl ⟨rfl, R.nxC'⟩)
      · by_cases e : h = a
        · subst e; exact .inr (.inr (.inl ⟨rfl, R.nxa⟩))
        · exact .inr (.inr (.inr ⟨hh, e, R.nxo hh e⟩))
    have nC : ∀ {h}, L.hA h = true → L.nx h ≠ C := fun hh => ne1 (K.next_alive _ hh)
    have nC' : ∀ {h}, L.hA h = true → L.nx h ≠ C' := fun hh => ne2 (K.next_alive _ hh)
    intro h h' hh hh' e
    rcases key h hh with ⟨e1, n⟩ | ⟨e1, n⟩ | ⟨e1, n⟩ | ⟨o, oa, n⟩ <;> rcases key h' hh' with ⟨e1', n'⟩ | ⟨e1', n'⟩ | ⟨e1', n'⟩ | ⟨o', oa', n'⟩ <;>
      rw [n, n'] at e
    · rw [e1, e1']
    · exact absurd e.symm (nC' ha)
    · exact absurd e hC'
    · exact absurd e.symm (nC' o')
    · exact absurd e (nC' ha)
    · rw [e1, e1']
    · exact absurd e (nC ha)
    · exact absurd (K.next_inj _ _ ha o' e).symm oa'
    · exact absurd e hC
    · exact absurd e.symm (nC ha)
    · rw [e1, e1']
    · exact absurd e.symm (nC o')
    · exact absurd e (nC' o)
    · exact absurd (K.next_inj _ _ o ha e) oa
    · exact absurd e (nC o)
    · exact K.next_inj _ _ o o' e
  · intro h hh
    rcases (R.al h).1 hh with rfl | rfl | hh
    · rw [R.nxC, R.fcC, R.fcC']
    · rw [R.nxC', R.fco na, R.fcC', K.face_next a ha]
    · by_cases e : h = a
      · rw [e, R.nxa, R.fcC, R.fco ha]
      · rw [R.nxo hh e, R.fco (K.next_alive h hh), R.fco hh]; exact K.face_next h hh
  · intro f hf
    have hf := (R.fa f).1 hf
    have := K.fHe_ok f hf
    rw [R.fho hf, R.fco this.1]
    exact ⟨old this.1, this.2⟩
  · intro v hv
    rcases (R.va v).1 hv with rfl | hv
    · rw [R.vhx, R.srC']
      exact ⟨aC', rfl⟩
    · have := K.vHe_ok v hv
      rw [R.vho hv, R.sro this.1]
      exact ⟨old this.1, this.2⟩
  · intro h h' hh hh' e
    refine Reach.ext (S := fun h => L.hA h = true) (S' := fun h => L'.hA h = true) (k := L.fc) (k' := L'.fc) st K.face_conn ?_ hh hh' e
    intro h hh
    rcases (R.al h).1 hh with rfl | rfl | hh
    · exact ⟨a, ha, R.fcC.symm, (Reach.one R.nxC).trans ((Reach.one R.nxC').trans
        (Reach.lift st na (K.face_conn _ _ na ha (K.face_next a ha)))), .one R.nxa⟩
    · exact ⟨a, ha, R.fcC'.symm, (Reach.one R.nxC').trans
        (Reach.lift st na (K.face_conn _ _ na ha (K.face_next a ha))), (Reach.one R.nxa).trans (.one R.nxC)⟩
    · exact ⟨h, hh, (R.fco hh).symm, .refl _ h, .refl _ h⟩
  · intro h h' hh hh' e
    -- the ring of the new vertex has one element
    by_cases hx : h = C' ∨ h' = C'
    · have one : ∀ h, L'.hA h = true → L'.sr h = x → h = C' := by
        intro h hh e
        rcases (R.al h).1 hh with rfl | rfl | hh
        · rw [R.srC] at e; exact absurd e (vx (K.src_alive _ na))
        · rfl
        · rw [R.sro hh] at e; exact absurd e (vx (K.src_alive _ hh))
      have : h = C' ∧ h' = C' := by
        rcases hx with rfl | rfl
        · exact ⟨rfl, one _ hh' (by rw [← e, R.srC'])⟩
        · exact ⟨one _ hh (by rw [e, R.srC']), rfl⟩
      rw [this.1, this.2]
      exact .refl _ _
    · have hx : h ≠ C' ∧ h' ≠ C' := ⟨fun e => hx (.inl e), fun e => hx (.inr e)⟩
      refine Reach.ext (S := fun h => L.hA h = true) (S' := fun h => L'.hA h = true ∧ h ≠ C') (k := L.sr) (k' := L'.sr) st2 K.ring_conn ?_
        ⟨hh, hx.1⟩ ⟨hh', hx.2⟩ e
      intro h hh
      rcases (R.al h).1 hh.1 with rfl | rfl | hh1
      · refine ⟨L.rv a, ra, by rw [K.src_rev a ha, R.srC], ?_, .one rra⟩
        have s1 : Reach (fun x => L'.nx (L'.rv x)) h (L.nx a) := .one (by rw [rC, R.nxC'])
        exact s1.trans (Reach.lift st2 na (K.ring_conn _ _ na ra (K.src_rev a ha).symm))
      · exact absurd rfl hh.2
      · exact ⟨h, hh1, (R.sro hh1).symm, .refl _ h, .refl _ h⟩

/-! ### A triangle cut off -/

/-- `p`, `a`, `b`, `q` follow each other on a face; a new edge `A`, `B` cuts off the triangle `g` with the sides `a`, `b`, `B` -/
structure Ear (L L' : Links) (p a b q A B g : Nat) : Prop where
  al : ∀ h, L'.hA h = true ↔ h = A ∨ h = B ∨ L.hA h = true
  nxp : L'.nx p = A
  nxA : L'.nx A = q
  nxb : L'.nx b = B
  nxB : L'.nx B = a
  nxo : ∀ {h}, L.hA h = true → h ≠ p → h ≠ b → L'.nx h = L.nx h
  rvA : L'.rv A = B
  rvB : L'.rv B = A
  rvo : ∀ {h}, L.hA h = true → L'.rv h = L.rv h
  srA : L'.sr A = L.sr a
  srB : L'.sr B = L.sr q
  sro : ∀ {h}, L.hA h = true → L'.sr h = L.sr h
  fcA : L'.fc A = L.fc a
  fcB : L'.fc B = g
  fca : L'.fc a = g
  fcb : L'.fc b = g
  fco : ∀ {h}, L.hA h = true → h ≠ a → h ≠ b → L'.fc h = L.fc h
  va : ∀ v, L'.vA v = true ↔ L.vA v = true
  vho : ∀ {v}, L'.vA v = true → L'.hA (L'.vh v) = true ∧ L'.sr (L'.vh v) = v
  fa : ∀ f, L'.fA f = true ↔ f = g ∨ L.fA f = true
  fhg : L'.hA (L'.fh g) = true ∧ L'.fc (L'.fh g) = g
  fhf : L'.hA (L'.fh (L.fc a)) = true ∧ L'.fc (L'.fh (L.fc a)) = L.fc a
  fho : ∀ {f}, L.fA f = true → f ≠ L.fc a → L'.fh f = L.fh f

/-- the links after `Ear` -/
def ear (L : Links) (p a b q A B g : Nat) : Links where
  hA := upd (upd L.hA A true) B true
  nx := upd (upd (upd (upd L.nx A q) B a) p A) b B
  rv := upd (upd L.rv A B) B A
  sr := upd (upd L.sr A (L.sr a)) B (L.sr q)
  fc := upd (upd (upd (upd L.fc A (L.fc a)) B g) a g) b g
  vA := L.vA
  vh := L.vh
  fA := upd L.fA g true
  fh := upd (upd L.fh (L.fc a) A) g a

theorem ear_rel {p a b q A B g : Nat} (K : L.Ok) (hp : L.hA p = true) (ha : L.hA a = true) (hb : L.hA b = true) (hf : L.fA (L.fc a) = true) (pb : p ≠ b)
    (ab : a ≠ b) (dA : L.hA A = false) (dB : L.hA B = false) (hAB : A ≠ B) (dg : L.fA g = false) :
    L.Ear (L.ear p a b q A B g) p a b q A B g := by
  have ne1 : ∀ {h}, L.hA h = true → h ≠ A := fun hh => dead_ne hh dA
  have ne2 : ∀ {h}, L.hA h = true → h ≠ B := fun hh => dead_ne hh dB
  have fg : ∀ {v}, L.fA v = true → v ≠ g := fun hh => dead_ne hh dg
  have al : ∀ h, (L.ear p a b q A B g).hA h = true ↔ h = A ∨ h = B ∨ L.hA h = true := by
    intro h
    show upd (upd L.hA A true) B true h = true ↔ _
    unfold upd
    split
    · simp [*]
    · split <;> simp [*]
  have fcA : (L.ear p a b q A B g).fc A = L.fc a := by
    show upd (upd (upd (upd L.fc A (L.fc a)) B g) a g) b g A = _
    rw [upd_ne _ _ (ne1 hb).symm, upd_ne _ _ (ne1 ha).symm, upd_ne _ _ hAB, upd_same]
  have fca : (L.ear p a b q A B g).fc a = g := by
    show upd (upd (upd (upd L.fc A (L.fc a)) B g) a g) b g a = _
    rw [upd_ne _ _ ab, upd_same]
  constructor
  · exact al
  · show upd (upd (upd (upd L.nx A q) B a) p A) b B p = _
    rw [upd_ne _ _ pb, upd_same]
  · show upd (upd (upd (upd L.nx A q) B a) p A) b B A = _
    rw [upd_ne _ _ (ne1 hb).symm, upd_ne _ _ (ne1 hp).symm, upd_ne _ _ hAB, upd_same]
  · exact upd_same _ _ _
  · show upd (upd (upd (upd L.nx A q) B a) p A) b B B = _
    rw [upd_ne _ _ (ne2 hb).symm, upd_ne _ _ (ne2 hp).symm, upd_same]
  · intro h hh h1 h2
    show upd (upd (upd (upd L.nx A q) B a) p A) b B h = _
    rw [upd_ne _ _ h2, upd_ne _ _ h1, upd_ne _ _ (ne2 hh), upd_ne _ _ (ne1 hh)]
  · show upd (upd L.rv A B) B A A = _
    rw [upd_ne _ _ hAB, upd_same]
  · exact upd_same _ _ _
  · intro h hh
    show upd (upd L.rv A B) B A h = _
    rw [upd_ne _ _ (ne2 hh), upd_ne _ _ (ne1 hh)]
  · show upd (upd L.sr A (L.sr a)) B (L.sr q) A = _
    rw [upd_ne _ _ hAB, upd_same]
  · exact upd_same _ _ _
  · intro h hh
    show upd (upd L.sr A (L.sr a)) B (L.sr q) h = _
    rw [upd_ne _ _ (ne2 hh), upd_ne _ _ (ne1 hh)]
  · exact fcA
  · show upd (upd (upd (upd L.fc A (L.fc a)) B g) a g) b g B = _
    rw [upd_ne _ _ (ne2 hb).symm, upd_ne _ _ (ne2 ha).symm, upd_same]
  · exact fca
  · exact upd_same _ _ _
  · intro h hh h1 h2
    show upd (upd (upd (upd L.fc A (L.fc a)) B g) a g) b g h = _
    rw [upd_ne _ _ h2, upd_ne _ _ h1, upd_ne _ _ (ne2 hh), upd_ne _ _ (ne1 hh)]
  · intro v; exact Iff.rfl
  · intro v hv
    have := K.vHe_ok v hv
    refine ⟨(al _).2 (.inr (.inr this.1)), ?_⟩
    show upd (upd L.sr A (L.sr a)) B (L.sr q) (L.vh v) = v
    rw [upd_ne _ _ (ne2 this.1), upd_ne _ _ (ne1 this.1)]
    exact this.2
  · intro f
    show upd L.fA g true f = true ↔ _
    unfold upd
    split <;> simp [*]
  · have : (L.ear p a b q A B g).fh g = a := upd_same _ _ _
    rw [this]
    exact ⟨(al a).2 (.inr (.inr ha)), fca⟩
  · have : (L.ear p a b q A B g).fh (L.fc a) = A := by
      show upd (upd L.fh (L.fc a) A) g a (L.fc a) = A
      rw [upd_ne _ _ (fg hf), upd_same]
    rw [this]
    exact ⟨(al A).2 (.inl rfl), fcA⟩
  · intro f h1 h2
    show upd (upd L.fh (L.fc a) A) g a f = _
    rw [upd_ne _ _ (fg h1), upd_ne _ _ h2]

theorem Ok.ear {p a b q A B g : Nat} (K : L.Ok) (R : L.Ear L' p a b q A B g) (hp : L.hA p = true) (np : L.nx p = a) (na : L.nx a = b)
    (nb : L.nx b = q) (pa : p ≠ a) (pb : p ≠ b) (dA : L.hA A = false) (dB : L.hA B = false)
    (hAB : A ≠ B) (dg : L.fA g = false) : L'.Ok := by
  have ne1 : ∀ {h}, L.hA h = true → h ≠ A := fun hh => dead_ne hh dA
  have ne2 : ∀ {h}, L.hA h = true → h ≠ B := fun hh => dead_ne hh dB
  have fg : ∀ {v}, L.fA v = true → v ≠ g := fun hh => dead_ne hh dg
  have hBA := hAB.symm
  have ha : L.hA a = true := by rw [← np]; exact K.next_alive p hp
  have hb : L.hA b = true := by rw [← na]; exact K.next_alive a ha
  have hq : L.hA q = true := by rw [← nb]; exact K.next_alive b hb
  have ab : a ≠ b := by
    intro e
    exact pa (K.next_inj p a hp ha (by rw [np, na, e]))
  have qa : q ≠ a := by
    intro e
    exact pb (K.next_inj p b hp hb (by rw [np, nb, e]))
  have qb : q ≠ b := by
    intro e
    exact ab (K.next_inj a b ha hb (by rw [na, nb, e]))
  have fa_ : L.fc a = L.fc p := by rw [← np]; exact K.face_next p hp
  have fb_ : L.fc b = L.fc a := by rw [← na]; exact K.face_next a ha
  have fq_ : L.fc q = L.fc a := by rw [← nb, K.face_next b hb]; exact fb_
  have old : ∀ {h}, L.hA h = true → L'.hA h = true := fun hh => (R.al _).2 (.inr (.inr hh))
  have aA : L'.hA A = true := (R.al _).2 (.inl rfl)
  have aB : L'.hA B = true := (R.al _).2 (.inr (.inl rfl))
  have rA := R.rvA
  have rB := R.rvB
  -- ring steps
  have st2 : ∀ h, L.hA h = true → L.hA (L.nx (L.rv h)) = true ∧ Reach (fun x => L'.nx (L'.rv x)) h (L.nx (L.rv h)) := by
    intro h hh
    have rh := K.rev_alive h hh
    refine ⟨K.next_alive _ rh, ?_⟩
    by_cases e : L.rv h = p
    · have s1 : Reach (fun x => L'.nx (L'.rv x)) h A := .one (by rw [R.rvo hh, e, R.nxp])
      have s2 : Reach (fun x => L'.nx (L'.rv x)) A (L.nx (L.rv h)) := .one (by rw [rA, R.nxB, e, np])
      exact s1.trans s2
    · by_cases e' : L.rv h = b
      · have s1 : Reach (fun x => L'.nx (L'.rv x)) h B := .one (by rw [R.rvo hh, e', R.nxb])
        have s2 : Reach (fun x => L'.nx (L'.rv x)) B (L.nx (L.rv h)) := .one (by rw [rB, R.nxA, e', nb])
        exact s1.trans s2
      · exact .one (by rw [R.rvo hh, R.nxo rh e e'])
  have nxa : L'.nx a = b := by rw [R.nxo ha (Ne.symm pa) ab, na]
  constructor
  · intro h hh
    rcases (R.al h).1 hh with rfl | rfl | hh
    · rw [R.nxA]; exact old hq
    · rw [R.nxB]; exact old ha
    · by_cases e : h = p
      · rw [e, R.nxp]; exact aA
      · by_cases e' : h = b
        · rw [e', R.nxb]; exact aB
        · rw [R.nxo hh e e']; exact old (K.next_alive h hh)
  · intro h hh
    rcases (R.al h).1 hh with rfl | rfl | hh
    · rw [rA]; exact aB
    · rw [rB]; exact aA
    · rw [R.rvo hh]; exact old (K.rev_alive h hh)
  · intro h hh
    rcases (R.al h).1 hh with rfl | rfl | hh
    · rw [R.srA]; exact (R.va _).2 (K.src_alive _ ha)
    · rw [R.srB]; exact (R.va _).2 (K.src_alive _ hq)
    · rw [R.sro hh]; exact (R.va _).2 (K.src_alive _ hh)
  · intro h hh
    rcases (R.al h).1 hh with rfl | rfl | hh
    · rw [R.fcA]; exact (R.fa _).2 (.inr (K.face_alive _ ha))
    · rw [R.fcB]; exact (R.fa _).2 (.inl rfl)
    · by_cases e : h = a
      · rw [e, R.fca]; exact (R.fa _).2 (.inl rfl)
      · by_cases e' : h = b
        · rw [e', R.fcb]; exact (R.fa _).2 (.inl rfl)
        · rw [R.fco hh e e']; exact (R.fa _).2 (.inr (K.face_alive _ hh))
  · intro h hh
    rcases (R.al h).1 hh with rfl | rfl | hh
    · rw [rA, rB]
    · rw [rB, rA]
    · rw [R.rvo hh, R.rvo (K.rev_alive h hh)]; exact K.rev_rev h hh
  · intro h hh
    rcases (R.al h).1 hh with rfl | rfl | hh
    · rw [rA]; exact hBA
    · rw [rB]; exact hAB
    · rw [R.rvo hh]; exact K.rev_ne h hh
  · intro h hh
    rcases (R.al h).1 hh with rfl | rfl | hh
    · rw [rA, R.nxA, R.srB, R.sro hq]
    · rw [rB, R.nxB, R.srA, R.sro ha]
    · rw [R.rvo hh, R.sro (K.rev_alive h hh), K.src_rev h hh]
      by_cases e : h = p
      · rw [e, R.nxp, R.srA, np]
      · by_cases e' : h = b
        · rw [e', R.nxb, R.srB, nb]
        · rw [R.nxo hh e e', R.sro (K.next_alive h hh)]
  · have key : ∀ h, L'.hA h = true → (h = A ∧ L'.nx h = q) ∨ (h = B ∧ L'.nx h = a) ∨ (h = p ∧ L'.nx h = A) ∨ (h = b ∧ L'.nx h = B) ∨
        (L.hA h = true ∧ h ≠ p ∧ h ≠ b ∧ L'.nx h = L.nx h) := by
      intro h hh
      rcases (R.al h).1 hh with rfl | rfl | hh
      · exact .inl ⟨rfl, R.nxA⟩
      · exact .inr (.inl ⟨rfl, R.nxB⟩)
      · by_cases e : h = p
        · subst e; exact .inr (.inr (.inl ⟨rfl, R.nxp⟩))
        · by_cases e' : h = b
          · subst e'; exact .inr (.inr (.inr (.inl ⟨rfl, R.nxb⟩)))
          · exact .inr (.inr (.inr (.inr ⟨hh, e, e', R.nxo hh e e'⟩)))
    have nA : ∀ {h}, L.hA h = true → L.nx h ≠ A := fun hh => ne1 (K.next_alive _ hh)
    have nB : ∀ {h}, L.hA h = true → L.nx h ≠ B := fun hh => ne2 (K.next_alive _ hh)
    intro h h' hh hh' e
    rcases key h hh with ⟨e1, n⟩ | ⟨e1, n⟩ | ⟨e1, n⟩ | ⟨e1, n⟩ | ⟨o, o1, o2, n⟩ <;>
      rcases key h' hh' with ⟨e1', n'⟩ | ⟨e1', n'⟩ | ⟨e1', n'⟩ | ⟨e1', n'⟩ | ⟨o', o1', o2', n'⟩ <;> rw [n, n'] at e
    · rw [e1, e1']
    · exact absurd e qa
    · exact absurd e (ne1 hq)
    · exact absurd e (ne2 hq)
    · exact absurd (K.next_inj _ _ hb o' (by rw [nb, e])).symm o2'
    · exact absurd e.symm qa
    · rw [e1, e1']
    · exact absurd e (ne1 ha)
    · exact absurd e (ne2 ha)
    · exact absurd (K.next_inj _ _ hp o' (by rw [np, e])).symm o1'
    · exact absurd e.symm (ne1 hq)
    · exact absurd e.symm (ne1 ha)
    · rw [e1, e1']
    · exact absurd e hAB
    · exact absurd e.symm (nA o')
    · exact absurd e.symm (ne2 hq)
    · exact absurd e.symm (ne2 ha)
    · exact absurd e hBA
    · rw [e1, e1']
    · exact absurd e.symm (nB o')
    · exact absurd (K.next_inj _ _ hb o (by rw [nb, e])).symm o2
    · exact absurd (K.next_inj _ _ hp o (by rw [np, e])).symm o1
    · exact absurd e (nA o)
    · exact absurd e (nB o)
    · exact K.next_inj _ _ o o' e
  · intro h hh
    rcases (R.al h).1 hh with rfl | rfl | hh
    · rw [R.nxA, R.fco hq qa qb, R.fcA, fq_]
    · rw [R.nxB, R.fca, R.fcB]
    · by_cases e : h = p
      · rw [e, R.nxp, R.fcA, R.fco hp pa pb, fa_]
      · by_cases e' : h = b
        · rw [e', R.nxb, R.fcb, R.fcB]
        · by_cases e2 : h = a
          · rw [e2, nxa, R.fca, R.fcb]
          · have h1 : L.nx h ≠ a := fun e3 => e (K.next_inj _ _ hh hp (by rw [e3, np]))
            have h2 : L.nx h ≠ b := fun e3 => e2 (K.next_inj _ _ hh ha (by rw [e3, na]))
            rw [R.nxo hh e e', R.fco (K.next_alive h hh) h1 h2, R.fco hh e2 e']; exact K.face_next h hh
  · intro f hf
    rcases (R.fa f).1 hf with rfl | hf
    · exact R.fhg
    · by_cases e : f = L.fc a
      · rw [e]; exact R.fhf
      · have := K.fHe_ok f hf
        rw [R.fho hf e, R.fco this.1 (fun h => e (by rw [← this.2, h])) (fun h => e (by rw [← this.2, h, fb_]))]
        exact ⟨old this.1, this.2⟩
  · intro v hv; exact R.vho hv
  · intro h h' hh hh' e
    by_cases fgc : L'.fc h = g
    · -- the triangle
      have tri : ∀ h, L'.hA h = true → L'.fc h = g → Reach L'.nx h a ∧ Reach L'.nx a h := by
        intro h hh e
        rcases (R.al h).1 hh with rfl | rfl | hh
        · rw [R.fcA] at e; exact absurd e (fg (K.face_alive _ ha))
        · exact ⟨.one R.nxB, (Reach.one nxa).trans (.one R.nxb)⟩
        · by_cases e1 : h = a
          · rw [e1]; exact ⟨.refl _ _, .refl _ _⟩
          · by_cases e2 : h = b
            · rw [e2]; exact ⟨(Reach.one R.nxb).trans (.one R.nxB), .one nxa⟩
            · rw [R.fco hh e1 e2] at e
              exact absurd e (fg (K.face_alive _ hh))
      exact (tri h hh fgc).1.trans (tri h' hh' (by rw [← e, fgc])).2
    · -- the rest
      have conn : ∀ h h', (L.hA h = true ∧ h ≠ a ∧ h ≠ b) → (L.hA h' = true ∧ h' ≠ a ∧ h' ≠ b) → L.fc h = L.fc h' → Reach L'.nx h h' := by
        intro h h' hh hh' e
        obtain ⟨n, hn⟩ := K.face_conn h h' hh.1 hh'.1 e
        refine Reach.bypass (S := fun h => L.hA h = true) (D := fun h => h = a ∨ h = b) (l := 3) (by omega) K.next_alive ?_ n hh.1
          (fun h => by rcases h with h | h; exact hh.2.1 h; exact hh.2.2 h) (fun h => by rcases h with h | h; exact hh'.2.1 h; exact hh'.2.2 h) hn
        intro h hh d
        have d1 : h ≠ a := fun e => d (.inl e)
        have d2 : h ≠ b := fun e => d (.inr e)
        by_cases e : h = p
        · subst e
          have i2 : L.nx^[2] h = b := by rw [Function.iterate_succ_apply', Function.iterate_one, np, na]
          have i3 : L.nx^[3] h = q := by rw [Function.iterate_succ_apply', i2, nb]
          refine .inr ⟨?_, ?_, ?_⟩
          · intro i h1 h2
            have : i = 1 ∨ i = 2 := by omega
            rcases this with rfl | rfl
            · exact .inl np
            · exact .inr i2
          · rw [i3]
            rintro (h | h)
            · exact qa h
            · exact qb h
          · rw [i3]
            exact (Reach.one R.nxp).trans (.one R.nxA)
        · refine .inl ⟨?_, .one (R.nxo hh e d2)⟩
          rintro (h1 | h1)
          · exact e (K.next_inj _ _ hh hp (by rw [h1, np]))
          · exact d1 (K.next_inj _ _ hh ha (by rw [h1, na]))
      have rep : ∀ h, L'.hA h = true → L'.fc h ≠ g → ∃ o, (L.hA o = true ∧ o ≠ a ∧ o ≠ b) ∧ L.fc o = L'.fc h ∧ Reach L'.nx h o ∧ Reach L'.nx o h := by
        intro h hh e
        rcases (R.al h).1 hh with rfl | rfl | hh
        · refine ⟨p, ⟨hp, pa, pb⟩, by rw [R.fcA, fa_], ?_, .one R.nxp⟩
          exact (Reach.one R.nxA).trans (conn q p ⟨hq, qa, qb⟩ ⟨hp, pa, pb⟩ (by rw [fq_, fa_]))
        · exact absurd R.fcB e
        · have e1 : h ≠ a := by rintro rfl; exact e R.fca
          have e2 : h ≠ b := by rintro rfl; exact e R.fcb
          exact ⟨h, ⟨hh, e1, e2⟩, (R.fco hh e1 e2).symm, .refl _ _, .refl _ _⟩
      obtain ⟨o, o1, o2, o3, -⟩ := rep h hh fgc
      obtain ⟨o', o1', o2', -, o4'⟩ := rep h' hh' (by rw [← e]; exact fgc)
      exact o3.trans ((conn o o' o1 o1' (by rw [o2, o2', e])).trans o4')
  · intro h h' hh hh' e
    refine Reach.ext (S := fun h => L.hA h = true) (S' := fun h => L'.hA h = true) (k := L.sr) (k' := L'.sr) st2 K.ring_conn ?_ hh hh' e
    intro h hh
    rcases (R.al h).1 hh with rfl | rfl | hh
    · refine ⟨a, ha, R.srA.symm, .one (by rw [rA, R.nxB]), ?_⟩
      have rp := K.rev_alive p hp
      have s1 : Reach (fun x => L'.nx (L'.rv x)) (L.rv p) h := .one (by rw [R.rvo rp, K.rev_rev p hp, R.nxp])
      exact (Reach.lift st2 ha (K.ring_conn _ _ ha rp (by rw [K.src_rev p hp, np]))).trans s1
    · refine ⟨q, hq, R.srB.symm, .one (by rw [rB, R.nxA]), ?_⟩
      have rb := K.rev_alive b hb
      have s1 : Reach (fun x => L'.nx (L'.rv x)) (L.rv b) h := .one (by rw [R.rvo rb, K.rev_rev b hb, R.nxb])
      exact (Reach.lift st2 hq (K.ring_conn _ _ hq rb (by rw [K.src_rev b hb, nb]))).trans s1
    · exact ⟨h, hh, (R.sro hh).symm, .refl _ h, .refl _ h⟩

end Links
end TinyMesh
