import Verif.Proof.FrontJ
/-
A round that merges two vertices of the front.
-/
namespace TinyMesh
open Orbit
variable {F : Type} {m : Mesh F}

/-- the links after the side `b` of the hole and the triangle `t` behind it have been contracted, as a table; `a` and `q` are the sides before
and after `b`, `c0`, `c1`, `c2` those of the triangle -/
structure Links.MergeTab (L L' : Links) (f a b q c0 c1 c2 t : Nat) : Prop where
  al : ∀ h, L'.hA h = true ↔ h ≠ b ∧ h ≠ c0 ∧ h ≠ c1 ∧ h ≠ c2 ∧ L.hA h = true
  nxa : L'.nx a = q
  nxo : ∀ {h}, h ≠ a → L'.nx h = L.nx h
  rv1 : L'.rv (L.rv c1) = L.rv c2
  rv2 : L'.rv (L.rv c2) = L.rv c1
  rvo : ∀ {h}, h ≠ L.rv c1 → h ≠ L.rv c2 → L'.rv h = L.rv h
  sr1 : ∀ {h}, L.hA h = true → L.sr h = L.sr b → L'.sr h = L.sr q
  sro : ∀ {h}, L.hA h = true → L.sr h ≠ L.sr b → L'.sr h = L.sr h
  fco : ∀ h, L'.fc h = L.fc h
  va : ∀ v, L'.vA v = true ↔ v ≠ L.sr b ∧ L.vA v = true
  vh2 : L'.vh (L.sr c2) = L.rv c1
  vhw : L.sr q ≠ L.sr c2 → L'.vh (L.sr q) = L.rv c2
  vho : ∀ {v}, v ≠ L.sr q → v ≠ L.sr c2 → L'.vh v = L.vh v
  fa : ∀ g, L'.fA g = true ↔ g ≠ t ∧ L.fA g = true
  fhf : L'.fh f = q
  fho : ∀ {g}, g ≠ f → L'.fh g = L.fh g

theorem Links.Ok.merge {L L' : Links} (K : L.Ok) {f a b q c0 c1 c2 t : Nat} (T : L.MergeTab L' f a b q c0 c1 c2 t)
    (aa : L.hA a = true) (ab : L.hA b = true) (fb : L.fc b = f) (na : L.nx a = b) (nb : L.nx b = q) (eab : a ≠ b)
    (rb : L.rv b = c0) (n0 : L.nx c0 = c1) (n1 : L.nx c1 = c2) (n2 : L.nx c2 = c0) (ft : L.fc c0 = t) (tf : t ≠ f) (bq : b ≠ q)
    (vv : L.sr b ≠ L.sr q) : L'.Ok := by
  have aq : L.hA q = true := nb ▸ K.next_alive b ab
  have h0 : L.hA c0 = true := rb ▸ K.rev_alive b ab
  have h1 : L.hA c1 = true := n0 ▸ K.next_alive _ h0
  have h2 : L.hA c2 = true := n1 ▸ K.next_alive _ h1
  have f1 : L.fc c1 = t := by rw [← n0, K.face_next _ h0, ft]
  have f2 : L.fc c2 = t := by rw [← n1, K.face_next _ h1, f1]
  have fa : L.fc a = f := by rw [← K.face_next _ aa, na, fb]
  have fq : L.fc q = f := by rw [← nb, K.face_next _ ab, fb]
  have s0 : L.sr c0 = L.sr q := by rw [← rb, K.src_rev _ ab, nb]
  have r0 : L.rv c0 = b := by rw [← rb, K.rev_rev _ ab]
  have s1 : L.sr c1 = L.sr b := by rw [← n0, ← K.src_rev _ h0, r0]
  have c01 : c0 ≠ c1 := by rintro rfl; exact vv (by rw [← s1, s0])
  have c12 : c1 ≠ c2 := by
    intro e
    have : c0 = c1 := K.next_inj _ _ h0 h1 (by rw [n0, n1, e])
    exact c01 this
  have c02 : c0 ≠ c2 := by
    intro e
    have : L.nx c0 = c0 := by rw [e, n2, e]
    rw [n0] at this
    exact c01 this.symm
  have s_o1 : L.sr (L.rv c1) = L.sr c2 := by rw [K.src_rev _ h1, n1]
  have s_o2 : L.sr (L.rv c2) = L.sr q := by rw [K.src_rev _ h2, n2, s0]
  have ao1 := K.rev_alive _ h1
  have ao2 := K.rev_alive _ h2
  have bt : ∀ {h}, L.fc h = t → h ≠ b ∧ h ≠ a ∧ h ≠ q := fun {h} e => ⟨fun e' => tf (by rw [← e, e', fb]), fun e' => tf (by rw [← e, e', fa]),
    fun e' => tf (by rw [← e, e', fq])⟩
  have inj : ∀ {x y}, L.hA x = true → L.hA y = true → L.rv x = L.rv y → x = y := fun {x y} hx hy e => by rw [← K.rev_rev x hx, e, K.rev_rev y hy]
  -- the partners of the removed sides stay
  have o1b : L.rv c1 ≠ b := fun e => c01 (inj h0 h1 (by rw [r0, e]))
  have o2b : L.rv c2 ≠ b := fun e => c02 (inj h0 h2 (by rw [r0, e]))
  have o10 : L.rv c1 ≠ c0 := fun e => (bt f1).1 (inj ab h1 (by rw [rb, e])).symm
  have o20 : L.rv c2 ≠ c0 := fun e => (bt f2).1 (inj ab h2 (by rw [rb, e])).symm
  have o11 : L.rv c1 ≠ c1 := K.rev_ne _ h1
  have o22 : L.rv c2 ≠ c2 := K.rev_ne _ h2
  have o12 : L.rv c1 ≠ c2 := by
    intro e
    have e' : L.rv c2 = c1 := by rw [← e, K.rev_rev _ h1]
    exact vv (by rw [← s1, ← e', s_o2])
  have o21 : L.rv c2 ≠ c1 := fun e => o12 (by rw [← e, K.rev_rev _ h2])
  obtain ⟨L1, hL1⟩ : ∃ L1 : Links, L1 = Links.mk (upd (upd L.hA b false) c0 false) (upd (upd L.nx a q) c2 c1) L.rv
      (fun h => if L.sr h = L.sr b then L.sr q else L.sr h) L.fc (upd L.vA (L.sr b) false) L'.vh L.fA (upd L'.fh t c1) := ⟨_, rfl⟩
  have al1 : ∀ h, L1.hA h = true ↔ h ≠ b ∧ h ≠ c0 ∧ L.hA h = true := by
    intro h
    rw [hL1]
    show upd (upd L.hA b false) c0 false h = true ↔ _
    unfold upd
    split
    · simp [*]
    · split <;> simp [*]
  have va1 : ∀ v, L1.vA v = true ↔ v ≠ L.sr b ∧ L.vA v = true := by
    intro h
    rw [hL1]
    show upd L.vA (L.sr b) false h = true ↔ _
    unfold upd
    split <;> simp [*]
  have vh' : ∀ {v}, v ≠ L.sr b → L.vA v = true → (L'.vh v ≠ b ∧ L'.vh v ≠ c0 ∧ L'.vh v ≠ c1 ∧ L'.vh v ≠ c2 ∧ L.hA (L'.vh v) = true) ∧ L.sr (L'.vh v) = v := by
    intro v e av
    by_cases e2 : v = L.sr c2
    · rw [e2, T.vh2]
      exact ⟨⟨o1b, o10, o11, o12, ao1⟩, s_o1⟩
    · by_cases e1 : v = L.sr q
      · rw [e1, T.vhw (by rw [← e1]; exact e2)]
        exact ⟨⟨o2b, o20, o21, o22, ao2⟩, s_o2⟩
      · rw [T.vho e1 e2]
        have := K.vHe_ok v av
        refine ⟨⟨?_, ?_, ?_, ?_, this.1⟩, this.2⟩
        · intro e'; rw [e'] at this; exact e this.2.symm
        · intro e'; rw [e', s0] at this; exact e1 this.2.symm
        · intro e'; rw [e', s1] at this; exact e this.2.symm
        · intro e'; rw [e'] at this; exact e2 this.2.symm
  have fh' : ∀ {g}, g ≠ t → L.fA g = true → (L'.fh g ≠ b ∧ L'.fh g ≠ c0 ∧ L'.fh g ≠ c1 ∧ L'.fh g ≠ c2 ∧ L.hA (L'.fh g) = true) ∧ L.fc (L'.fh g) = g := by
    intro g e ag
    by_cases e1 : g = f
    · rw [e1, T.fhf]
      exact ⟨⟨bq.symm, (bt ft).2.2.symm, (bt f1).2.2.symm, (bt f2).2.2.symm, aq⟩, fq⟩
    · rw [T.fho e1]
      have := K.fHe_ok g ag
      refine ⟨⟨?_, ?_, ?_, ?_, this.1⟩, this.2⟩
      · intro e'; rw [e', fb] at this; exact e1 this.2.symm
      · intro e'; rw [e', ft] at this; exact e this.2.symm
      · intro e'; rw [e', f1] at this; exact e this.2.symm
      · intro e'; rw [e', f2] at this; exact e this.2.symm
  have srl : ∀ h, L1.sr h = if L.sr h = L.sr b then L.sr q else L.sr h := fun h => by rw [hL1]
  have nx1 : ∀ h, L1.nx h = if h = c2 then c1 else if h = a then q else L.nx h := fun h => by rw [hL1]; rfl
  have rv1 : L1.rv = L.rv := by rw [hL1]
  have fc1 : L1.fc = L.fc := by rw [hL1]
  have fA1 : L1.fA = L.fA := by rw [hL1]
  have vh1 : L1.vh = L'.vh := by rw [hL1]
  have fh1 : ∀ g, L1.fh g = if g = t then c1 else L'.fh g := fun g => by rw [hL1]; rfl
  have a2 : c2 ≠ a := (bt f2).2.1
  have R1 : L.Contract L1 a b c2 c0 := by
    constructor
    · exact al1
    · rw [nx1, if_neg a2.symm, if_pos rfl, nb]
    · rw [nx1, if_pos rfl, n0]
    · intro h hh e1 e2
      rw [nx1, if_neg e2, if_neg e1]
    · intro h hh; rw [rv1]
    · intro h hh e; rw [srl, if_pos e, s0]
    · intro h hh e; rw [srl, if_neg e]
    · intro h hh; rw [fc1]
    · exact va1
    · intro v hv
      have ⟨e, av⟩ := (va1 v).1 hv
      have ⟨⟨q1, q2, q3, q4, q5⟩, q6⟩ := vh' e av
      rw [vh1, srl, q6, if_neg e]
      exact ⟨(al1 _).2 ⟨q1, q2, q5⟩, rfl⟩
    · intro g; rw [fA1]
    · intro g hg
      rw [fA1] at hg
      rw [fh1, fc1]
      by_cases e : g = t
      · rw [if_pos e, e, f1]
        exact ⟨(al1 _).2 ⟨(bt f1).1, c01.symm, h1⟩, rfl⟩
      · rw [if_neg e]
        have ⟨⟨q1, q2, q3, q4, q5⟩, q6⟩ := fh' e hg
        exact ⟨(al1 _).2 ⟨q1, q2, q5⟩, q6⟩
  have K1 := K.contract R1 ab rb aa h2 na n2 eab c02.symm (bt ft).2.1.symm (bt f2).1 (by rw [s0]; exact vv)
  have R2 : L1.Digon L' c1 c2 t := by
    have A : ∀ {h}, L'.hA h = true → h ≠ b ∧ h ≠ c0 ∧ h ≠ c1 ∧ h ≠ c2 ∧ L.hA h = true := fun hh => (T.al _).1 hh
    constructor
    · intro h; rw [T.al, al1]; tauto
    · intro h hh
      have ⟨q1, q2, q3, q4, q5⟩ := A hh
      rw [nx1, if_neg q4]
      by_cases e : h = a
      · rw [if_pos e, e, T.nxa]
      · rw [if_neg e, T.nxo e]
    · rw [rv1, T.rv1]
    · rw [rv1, T.rv2]
    · intro h hh e1 e2
      rw [rv1] at e1 e2 ⊢
      exact T.rvo e1 e2
    · intro h hh
      have ⟨q1, q2, q3, q4, q5⟩ := A hh
      rw [srl]
      by_cases e : L.sr h = L.sr b
      · rw [if_pos e, T.sr1 q5 e]
      · rw [if_neg e, T.sro q5 e]
    · intro h hh; rw [T.fco, fc1]
    · intro v; rw [T.va, va1]
    · intro v hv
      have ⟨e, av⟩ := (T.va v).1 hv
      have ⟨q1, q6⟩ := vh' e av
      exact ⟨(T.al _).2 q1, by rw [T.sro q1.2.2.2.2 (by rw [q6]; exact e), q6]⟩
    · intro g; rw [T.fa, fA1]
    · intro g hg
      have ⟨e, ag⟩ := (T.fa g).1 hg
      have ⟨q1, q6⟩ := fh' e ag
      exact ⟨(T.al _).2 q1, by rw [T.fco, q6]⟩
  exact K1.digon R2 ((al1 _).2 ⟨(bt f1).1, c01.symm, h1⟩) (by rw [nx1, if_neg c12, if_neg (bt f1).2.1, n1]) (by rw [nx1, if_pos rfl]) c12
    (by rw [fc1, f1]) (by rw [rv1]; exact o12)

end TinyMesh
