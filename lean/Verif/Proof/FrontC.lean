import Verif.Proof.FrontB
/-
Two changes of the links that remove elements: an edge whose ends become one vertex, and a face with two sides.
-/
namespace TinyMesh

theorem Reach.first {s : Nat → Nat} {h t : Nat} (r : Reach s h t) : ∃ n, s^[n] h = t ∧ ∀ k, k < n → s^[k] h ≠ t := by
  classical
  have r' : ∃ n, s^[n] h = t := r
  exact ⟨Nat.find r', Nat.find_spec r', fun k hk => Nat.find_min r' hk⟩

namespace Links
variable {L L' : Links}

/-! ### One edge less -/

/-- the edge `c`, `c'` is removed and its two ends become one vertex; `p` and `p'` are the half-edges before `c` and `c'` -/
structure Contract (L L' : Links) (p c p' c' : Nat) : Prop where
  al : ∀ h, L'.hA h = true ↔ h ≠ c ∧ h ≠ c' ∧ L.hA h = true
  nxp : L'.nx p = L.nx c
  nxp' : L'.nx p' = L.nx c'
  nxo : ∀ {h}, L'.hA h = true → h ≠ p → h ≠ p' → L'.nx h = L.nx h
  rvo : ∀ {h}, L'.hA h = true → L'.rv h = L.rv h
  sr1 : ∀ {h}, L'.hA h = true → L.sr h = L.sr c → L'.sr h = L.sr c'
  sro : ∀ {h}, L'.hA h = true → L.sr h ≠ L.sr c → L'.sr h = L.sr h
  fco : ∀ {h}, L'.hA h = true → L'.fc h = L.fc h
  va : ∀ v, L'.vA v = true ↔ v ≠ L.sr c ∧ L.vA v = true
  vho : ∀ {v}, L'.vA v = true → L'.hA (L'.vh v) = true ∧ L'.sr (L'.vh v) = v
  fa : ∀ f, L'.fA f = true ↔ L.fA f = true
  fho : ∀ {f}, L'.fA f = true → L'.hA (L'.fh f) = true ∧ L'.fc (L'.fh f) = f

theorem Ok.contract {p c p' c' : Nat} (K : L.Ok) (R : L.Contract L' p c p' c') (hc : L.hA c = true) (rc : L.rv c = c') (hp : L.hA p = true)
    (hp' : L.hA p' = true) (np : L.nx p = c) (np' : L.nx p' = c') (pc : p ≠ c) (pc' : p' ≠ c') (x1 : p ≠ c') (x2 : p' ≠ c)
    (vv : L.sr c ≠ L.sr c') : L'.Ok := by
  have hc' : L.hA c' = true := by rw [← rc]; exact K.rev_alive c hc
  have rc' : L.rv c' = c := by rw [← rc]; exact K.rev_rev c hc
  have pp : p ≠ p' := by
    rintro rfl
    rw [np] at np'
    rw [np'] at vv
    exact vv rfl
  have cc' : c ≠ c' := by rintro rfl; exact vv rfl
  have A : ∀ {h}, L'.hA h = true → L.hA h = true := fun hh => ((R.al _).1 hh).2.2
  have ap : L'.hA p = true := (R.al _).2 ⟨pc, x1, hp⟩
  have ap' : L'.hA p' = true := (R.al _).2 ⟨x2, pc', hp'⟩
  have nn : ∀ {h}, L.hA h = true → h ≠ p → h ≠ p' → L.nx h ≠ c ∧ L.nx h ≠ c' := fun hh h1 h2 =>
    ⟨fun e => h1 (K.next_inj _ _ hh hp (by rw [e, np])), fun e => h2 (K.next_inj _ _ hh hp' (by rw [e, np']))⟩
  -- the two new successors
  have nc1 : L.nx c ≠ c := fun e => pc (K.next_inj _ _ hp hc (by rw [np, e]))
  have nc2 : L.nx c ≠ c' := fun e => x2 (K.next_inj _ _ hp' hc (by rw [np', e]))
  have nc3 : L.nx c' ≠ c' := fun e => pc' (K.next_inj _ _ hp' hc' (by rw [np', e]))
  have nc4 : L.nx c' ≠ c := fun e => x1 (K.next_inj _ _ hp hc' (by rw [np, e]))
  have anc : L'.hA (L.nx c) = true := (R.al _).2 ⟨nc1, nc2, K.next_alive c hc⟩
  have anc' : L'.hA (L.nx c') = true := (R.al _).2 ⟨nc4, nc3, K.next_alive c' hc'⟩
  have rr : ∀ {h}, L'.hA h = true → L'.hA (L.rv h) = true := by
    intro h hh
    have ⟨h1, h2, h3⟩ := (R.al h).1 hh
    refine (R.al _).2 ⟨fun e => h2 ?_, fun e => h1 ?_, K.rev_alive h h3⟩
    · rw [← K.rev_rev h h3, e, rc]
    · rw [← K.rev_rev h h3, e, rc']
  have na' : ∀ h, L'.hA h = true → L'.hA (L'.nx h) = true := by
    intro h hh
    by_cases e : h = p
    · rw [e, R.nxp]; exact anc
    · by_cases e' : h = p'
      · rw [e', R.nxp']; exact anc'
      · rw [R.nxo hh e e']
        have := nn (A hh) e e'
        exact (R.al _).2 ⟨this.1, this.2, K.next_alive h (A hh)⟩
  -- sources
  have srn : ∀ {h}, L.hA h = true → L'.hA h = true → (L'.sr h = if L.sr h = L.sr c then L.sr c' else L.sr h) := by
    intro h _ hh
    split
    · next e => exact R.sr1 hh e
    · next e => exact R.sro hh e
  have snc : L.sr (L.nx c) = L.sr c' := by rw [← K.src_rev c hc, rc]
  have snc' : L.sr (L.nx c') = L.sr c := by rw [← K.src_rev c' hc', rc']
  constructor
  · exact na'
  · intro h hh
    rw [R.rvo hh]
    exact rr hh
  · intro h hh
    rw [srn (A hh) hh]
    split
    · exact (R.va _).2 ⟨Ne.symm vv, K.src_alive _ hc'⟩
    · next e => exact (R.va _).2 ⟨e, K.src_alive _ (A hh)⟩
  · intro h hh
    rw [R.fco hh]
    exact (R.fa _).2 (K.face_alive _ (A hh))
  · intro h hh
    rw [R.rvo hh, R.rvo (rr hh), K.rev_rev h (A hh)]
  · intro h hh
    rw [R.rvo hh]
    exact K.rev_ne h (A hh)
  · intro h hh
    rw [R.rvo hh, srn (K.rev_alive h (A hh)) (rr hh), K.src_rev h (A hh)]
    by_cases e : h = p
    · rw [e, np, if_pos rfl, R.nxp, srn (A anc) anc, snc, if_neg (Ne.symm vv)]
    · by_cases e' : h = p'
      · rw [e', np', if_neg (Ne.symm vv), R.nxp', srn (A anc') anc', snc', if_pos rfl]
      · have := na' h hh
        rw [R.nxo hh e e'] at this ⊢
        rw [srn (A this) this]
  · intro h h' hh hh' e
    have key : ∀ h, L'.hA h = true → (h = p ∧ L'.nx h = L.nx c) ∨ (h = p' ∧ L'.nx h = L.nx c') ∨ (h ≠ c ∧ h ≠ c' ∧ L'.nx h = L.nx h) := by
      intro h hh
      by_cases e : h = p
      · subst e; exact .inl ⟨rfl, R.nxp⟩
      · by_cases e' : h = p'
        · subst e'; exact .inr (.inl ⟨rfl, R.nxp'⟩)
        · exact .inr (.inr ⟨((R.al h).1 hh).1, ((R.al h).1 hh).2.1, R.nxo hh e e'⟩)
    rcases key h hh with ⟨e1, n⟩ | ⟨e1, n⟩ | ⟨o1, o2, n⟩ <;> rcases key h' hh' with ⟨e1', n'⟩ | ⟨e1', n'⟩ | ⟨o1', o2', n'⟩ <;> rw [n, n'] at e
    · rw [e1, e1']
    · exact absurd (K.next_inj _ _ hc hc' e) cc'
    · exact absurd (K.next_inj _ _ hc (A hh') e).symm o1'
    · exact absurd (K.next_inj _ _ hc' hc e).symm cc'
    · rw [e1, e1']
    · exact absurd (K.next_inj _ _ hc' (A hh') e).symm o2'
    · exact absurd (K.next_inj _ _ (A hh) hc e) o1
    · exact absurd (K.next_inj _ _ (A hh) hc' e) o2
    · exact K.next_inj _ _ (A hh) (A hh') e
  · intro h hh
    rw [R.fco (na' h hh), R.fco hh]
    by_cases e : h = p
    · rw [e, R.nxp, K.face_next c hc, ← np, K.face_next p hp]
    · by_cases e' : h = p'
      · rw [e', R.nxp', K.face_next c' hc', ← np', K.face_next p' hp']
      · rw [R.nxo hh e e', K.face_next h (A hh)]
  · intro f hf; exact R.fho hf
  · intro v hv; exact R.vho hv
  · intro h h' hh hh' e
    rw [R.fco hh, R.fco hh'] at e
    obtain ⟨n, hn⟩ := K.face_conn h h' (A hh) (A hh') e
    have nd : ∀ {h}, L'.hA h = true → ¬(h = c ∨ h = c') := fun hh e => by
      rcases e with e | e
      · exact ((R.al _).1 hh).1 e
      · exact ((R.al _).1 hh).2.1 e
    refine Reach.bypass (S := fun h => L.hA h = true) (D := fun h => h = c ∨ h = c') (l := 2) (by omega) K.next_alive ?_ n (A hh) (nd hh) (nd hh') hn
    intro h hh d
    have ah : L'.hA h = true := (R.al _).2 ⟨fun e => d (.inl e), fun e => d (.inr e), hh⟩
    have i2 : L.nx^[2] h = L.nx (L.nx h) := rfl
    by_cases e : h = p
    · refine .inr ⟨fun i h1 h2 => ?_, ?_, ?_⟩
      · have : i = 1 := by omega
        subst this
        exact .inl (by rw [Function.iterate_one, e, np])
      · rw [i2, e, np]; exact nd anc
      · rw [i2, e, np]; exact .one R.nxp
    · by_cases e' : h = p'
      · refine .inr ⟨fun i h1 h2 => ?_, ?_, ?_⟩
        · have : i = 1 := by omega
          subst this
          exact .inr (by rw [Function.iterate_one, e', np'])
        · rw [i2, e', np']; exact nd anc'
        · rw [i2, e', np']; exact .one R.nxp'
      · exact .inl ⟨fun x => x.elim (nn hh e e').1 (nn hh e e').2, .one (R.nxo ah e e')⟩
  · -- the rings
    have step : ∀ h, L.hA h = true → L.hA (L.nx (L.rv h)) = true ∧ L.sr (L.nx (L.rv h)) = L.sr h := by
      intro h hh
      have := K.rev_alive h hh
      exact ⟨K.next_alive _ this, by rw [← K.src_rev _ this, K.rev_rev h hh]⟩
    have steps : ∀ (i : Nat) h, L.hA h = true → L.hA ((fun x => L.nx (L.rv x))^[i] h) = true ∧ L.sr ((fun x => L.nx (L.rv x))^[i] h) = L.sr h := by
      intro i
      induction i with
      | zero => exact fun h hh => ⟨hh, rfl⟩
      | succ i ih =>
        intro h hh
        rw [Function.iterate_succ_apply']
        have h1 := ih h hh
        have h2 := step _ h1.1
        exact ⟨h2.1, h2.2.trans h1.2⟩
    -- a step of the old ring that does not lead to a removed half-edge
    have same : ∀ h, L.hA h = true → h ≠ c → h ≠ c' → L.nx (L.rv h) ≠ c → L.nx (L.rv h) ≠ c' → L'.nx (L'.rv h) = L.nx (L.rv h) := by
      intro h hh h1 h2 h3 h4
      have ah : L'.hA h = true := (R.al _).2 ⟨h1, h2, hh⟩
      rw [R.rvo ah]
      exact R.nxo (rr ah) (fun e => h3 (by rw [e, np])) (fun e => h4 (by rw [e, np']))
    have inj : ∀ h h', L.hA h = true → L.hA h' = true → L.nx (L.rv h) = L.nx (L.rv h') → h = h' := by
      intro h h' hh hh' e
      have := K.next_inj _ _ (K.rev_alive h hh) (K.rev_alive h' hh') e
      rw [← K.rev_rev h hh, this, K.rev_rev h' hh']
    -- one end of the edge: `d` the removed half-edge, `x` the one before it in the ring
    have half : ∀ d e x, (d = c ∧ e = c' ∨ d = c' ∧ e = c) → L.hA d = true → L.hA x = true → L.sr x = L.sr d → L.nx (L.rv x) = d →
        (∀ h, L.hA h = true → h ≠ d → L.sr h = L.sr d → Reach (fun x => L'.nx (L'.rv x)) h x ∧
          Reach (fun x => L'.nx (L'.rv x)) (L.nx (L.rv d)) h) := by
      intro d e x hde hd hx sx nx h hh hne hs
      have dd : ∀ y, L.sr y = L.sr d → y ≠ e := by
        rintro y h1 rfl
        rcases hde with ⟨rfl, rfl⟩ | ⟨rfl, rfl⟩
        · exact vv h1.symm
        · exact vv h1
      have sm : ∀ y, L.hA y = true → L.sr y = L.sr d → y ≠ d → L.nx (L.rv y) ≠ d → L'.nx (L'.rv y) = L.nx (L.rv y) := by
        intro y hy sy h1 h2
        have h3 := dd y sy
        have h4 := dd (L.nx (L.rv y)) (by rw [(step y hy).2, sy])
        rcases hde with ⟨rfl, rfl⟩ | ⟨rfl, rfl⟩
        · exact same y hy h1 h3 h2 h4
        · exact same y hy h3 h1 h4 h2
      constructor
      · obtain ⟨n, hn, hk⟩ := (K.ring_conn h x hh hx (by rw [hs, sx])).first
        rw [← hn]
        refine Reach.path n ?_
        intro i hi
        have st := steps i h hh
        refine sm _ st.1 (by rw [st.2, hs]) ?_ ?_
        · intro e1
          rcases i with - | i
          · exact hne e1
          · rw [Function.iterate_succ_apply'] at e1
            have st' := steps i h hh
            have := inj _ x st'.1 hx (by rw [nx]; exact e1)
            exact hk i (by omega) this
        · intro e1
          exact hk i hi (inj _ x st.1 hx (by rw [nx]; exact e1))
      · have hsd := step d hd
        obtain ⟨n, hn, hk⟩ := (K.ring_conn (L.nx (L.rv d)) h hsd.1 hh (by rw [hsd.2, hs])).avoid (c := d) hne
        rw [← hn]
        refine Reach.path n ?_
        intro i hi
        have st := steps i (L.nx (L.rv d)) hsd.1
        refine sm _ st.1 (by rw [st.2, hsd.2]) (hk i (by omega)) ?_
        intro e1
        refine hk (i + 1) (by omega) ?_
        rw [Function.iterate_succ_apply']
        exact e1
    have rp := K.rev_alive p hp
    have rp' := K.rev_alive p' hp'
    have half1 := half c c' (L.rv p) (.inl ⟨rfl, rfl⟩) hc rp (by rw [K.src_rev p hp, np]) (by rw [K.rev_rev p hp, np])
    have half2 := half c' c (L.rv p') (.inr ⟨rfl, rfl⟩) hc' rp' (by rw [K.src_rev p' hp', np']) (by rw [K.rev_rev p' hp', np'])
    -- the joints
    have j1 : Reach (fun x => L'.nx (L'.rv x)) (L.rv p) (L.nx (L.rv c')) := .one (by rw [R.rvo (rr ap), K.rev_rev p hp, R.nxp, rc'])
    have j2 : Reach (fun x => L'.nx (L'.rv x)) (L.rv p') (L.nx (L.rv c)) := .one (by rw [R.rvo (rr ap'), K.rev_rev p' hp', R.nxp', rc])
    have n1 : L.rv p ≠ c := fun e => x1 (by rw [← K.rev_rev p hp, e, rc])
    have n2 : L.rv p' ≠ c' := fun e => x2 (by rw [← K.rev_rev p' hp', e, rc'])
    have ac : ∀ h, L'.hA h = true → L.sr h = L.sr c → Reach (fun x => L'.nx (L'.rv x)) h (L.rv p) ∧ Reach (fun x => L'.nx (L'.rv x)) (L.nx (L.rv c)) h :=
      fun h hh e => half1 h (A hh) ((R.al h).1 hh).1 e
    have ac' : ∀ h, L'.hA h = true → L.sr h = L.sr c' → Reach (fun x => L'.nx (L'.rv x)) h (L.rv p') ∧ Reach (fun x => L'.nx (L'.rv x)) (L.nx (L.rv c')) h :=
      fun h hh e => half2 h (A hh) ((R.al h).1 hh).2.1 e
    have b1 : Reach (fun x => L'.nx (L'.rv x)) (L.nx (L.rv c')) (L.rv p') := (half2 (L.rv p') rp' n2 (by rw [K.src_rev p' hp', np'])).2
    have b2 : Reach (fun x => L'.nx (L'.rv x)) (L.nx (L.rv c)) (L.rv p) := (half1 (L.rv p) rp n1 (by rw [K.src_rev p hp, np])).2
    intro h h' hh hh' e
    by_cases z : L'.sr h = L.sr c'
    · have tot : ∀ h, L'.hA h = true → L'.sr h = L.sr c' → L.sr h = L.sr c ∨ L.sr h = L.sr c' := by
        intro h hh e
        by_cases e' : L.sr h = L.sr c
        · exact .inl e'
        · rw [R.sro hh e'] at e; exact .inr e
      have z' : L'.sr h' = L.sr c' := by rw [← e, z]
      have tp : Reach (fun x => L'.nx (L'.rv x)) h (L.rv p) := by
        rcases tot h hh z with q | q
        · exact (ac h hh q).1
        · exact (ac' h hh q).1.trans (j2.trans b2)
      refine tp.trans (j1.trans ?_)
      rcases tot h' hh' z' with q | q
      · exact b1.trans (j2.trans (ac h' hh' q).2)
      · exact (ac' h' hh' q).2
    · have nz : ∀ h, L'.hA h = true → L'.sr h ≠ L.sr c' → L.sr h ≠ L.sr c ∧ L.sr h ≠ L.sr c' ∧ L'.sr h = L.sr h := by
        intro h hh z
        have h1 : L.sr h ≠ L.sr c := fun e => z (R.sr1 hh e)
        have h2 := R.sro hh h1
        exact ⟨h1, by rw [← h2]; exact z, h2⟩
      obtain ⟨z1, z2, z3⟩ := nz h hh z
      obtain ⟨-, -, z3'⟩ := nz h' hh' (by rw [← e]; exact z)
      obtain ⟨n, hn⟩ := K.ring_conn h h' (A hh) (A hh') (by rw [← z3, ← z3', e])
      rw [← hn]
      refine Reach.path n fun i _ => ?_
      have st := steps i h (A hh)
      have q1 : ∀ {d}, L.sr h ≠ L.sr d → (fun x => L.nx (L.rv x))^[i] h ≠ d := fun zd e => zd (by rw [← st.2, e])
      have q2 : ∀ {d}, L.sr h ≠ L.sr d → L.nx (L.rv ((fun x => L.nx (L.rv x))^[i] h)) ≠ d := fun zd e => zd (by rw [← st.2, ← (step _ st.1).2, e])
      exact same _ st.1 (q1 z1) (q1 z2) (q2 z1) (q2 z2)

/-! ### A face with two sides -/

/-- the face `t` with the two sides `d1` and `d2` is removed, and the half-edges on the other sides become partners -/
structure Digon (L L' : Links) (d1 d2 t : Nat) : Prop where
  al : ∀ h, L'.hA h = true ↔ h ≠ d1 ∧ h ≠ d2 ∧ L.hA h = true
  nxo : ∀ {h}, L'.hA h = true → L'.nx h = L.nx h
  rv1 : L'.rv (L.rv d1) = L.rv d2
  rv2 : L'.rv (L.rv d2) = L.rv d1
  rvo : ∀ {h}, L'.hA h = true → h ≠ L.rv d1 → h ≠ L.rv d2 → L'.rv h = L.rv h
  sro : ∀ {h}, L'.hA h = true → L'.sr h = L.sr h
  fco : ∀ {h}, L'.hA h = true → L'.fc h = L.fc h
  va : ∀ v, L'.vA v = true ↔ L.vA v = true
  vho : ∀ {v}, L'.vA v = true → L'.hA (L'.vh v) = true ∧ L'.sr (L'.vh v) = v
  fa : ∀ f, L'.fA f = true ↔ f ≠ t ∧ L.fA f = true
  fho : ∀ {f}, L'.fA f = true → L'.hA (L'.fh f) = true ∧ L'.fc (L'.fh f) = f

theorem Ok.digon {d1 d2 t : Nat} (K : L.Ok) (R : L.Digon L' d1 d2 t) (h1 : L.hA d1 = true) (n1 : L.nx d1 = d2) (n2 : L.nx d2 = d1) (ne : d1 ≠ d2)
    (ft : L.fc d1 = t) (r12 : L.rv d1 ≠ d2) : L'.Ok := by
  have h2 : L.hA d2 = true := by rw [← n1]; exact K.next_alive d1 h1
  have ft2 : L.fc d2 = t := by rw [← n1, K.face_next d1 h1, ft]
  have r21 : L.rv d2 ≠ d1 := fun e => r12 (by rw [← e, K.rev_rev d2 h2])
  have A : ∀ {h}, L'.hA h = true → L.hA h = true := fun hh => ((R.al _).1 hh).2.2
  have ro1 : L.hA (L.rv d1) = true := K.rev_alive d1 h1
  have ro2 : L.hA (L.rv d2) = true := K.rev_alive d2 h2
  have a1 : L'.hA (L.rv d1) = true := (R.al _).2 ⟨K.rev_ne d1 h1, r12, ro1⟩
  have a2 : L'.hA (L.rv d2) = true := (R.al _).2 ⟨r21, K.rev_ne d2 h2, ro2⟩
  have oo : L.rv d1 ≠ L.rv d2 := fun e => ne (by rw [← K.rev_rev d1 h1, e, K.rev_rev d2 h2])
  have nn : ∀ {h}, L'.hA h = true → L'.hA (L.nx h) = true := by
    intro h hh
    have ⟨q1, q2, q3⟩ := (R.al h).1 hh
    exact (R.al _).2 ⟨fun e => q2 (K.next_inj _ _ q3 h2 (by rw [e, n2])), fun e => q1 (K.next_inj _ _ q3 h1 (by rw [e, n1])), K.next_alive h q3⟩
  have rr : ∀ {h}, L'.hA h = true → h ≠ L.rv d1 → h ≠ L.rv d2 → L'.hA (L.rv h) = true := by
    intro h hh z1 z2
    have q3 := A hh
    exact (R.al _).2 ⟨fun e => z1 (by rw [← e, K.rev_rev h q3]), fun e => z2 (by rw [← e, K.rev_rev h q3]), K.rev_alive h q3⟩
  have onT : ∀ h, L.hA h = true → L.fc h = t → h = d1 ∨ h = d2 := by
    intro h hh e
    obtain ⟨n, hn⟩ := K.face_conn d1 h h1 hh (by rw [ft, e])
    clear e hh
    induction n generalizing h with
    | zero => exact .inl hn.symm
    | succ n ih =>
      rw [Function.iterate_succ_apply'] at hn
      rcases ih _ rfl with e | e
      · rw [e, n1] at hn; exact .inr hn.symm
      · rw [e, n2] at hn; exact .inl hn.symm
  have nt : ∀ {h}, L'.hA h = true → L.fc h ≠ t := by
    intro h hh e
    have ⟨q1, q2, q3⟩ := (R.al h).1 hh
    rcases onT h q3 e with e | e
    · exact q1 e
    · exact q2 e
  have s1 : L.sr (L.rv d1) = L.sr d2 := by rw [K.src_rev d1 h1, n1]
  have s2 : L.sr (L.rv d2) = L.sr d1 := by rw [K.src_rev d2 h2, n2]
  have s3 : L.sr (L.nx (L.rv d1)) = L.sr d1 := by rw [← K.src_rev _ ro1, K.rev_rev d1 h1]
  have s4 : L.sr (L.nx (L.rv d2)) = L.sr d2 := by rw [← K.src_rev _ ro2, K.rev_rev d2 h2]
  constructor
  · intro h hh; rw [R.nxo hh]; exact nn hh
  · intro h hh
    by_cases z1 : h = L.rv d1
    · rw [z1, R.rv1]; exact a2
    · by_cases z2 : h = L.rv d2
      · rw [z2, R.rv2]; exact a1
      · rw [R.rvo hh z1 z2]; exact rr hh z1 z2
  · intro h hh; rw [R.sro hh]; exact (R.va _).2 (K.src_alive h (A hh))
  · intro h hh; rw [R.fco hh]; exact (R.fa _).2 ⟨nt hh, K.face_alive h (A hh)⟩
  · intro h hh
    by_cases z1 : h = L.rv d1
    · rw [z1, R.rv1, R.rv2]
    · by_cases z2 : h = L.rv d2
      · rw [z2, R.rv2, R.rv1]
      · have q1 : L.rv h ≠ L.rv d1 := fun e => ((R.al h).1 hh).1 (by rw [← K.rev_rev h (A hh), e, K.rev_rev d1 h1])
        have q2 : L.rv h ≠ L.rv d2 := fun e => ((R.al h).1 hh).2.1 (by rw [← K.rev_rev h (A hh), e, K.rev_rev d2 h2])
        rw [R.rvo hh z1 z2, R.rvo (rr hh z1 z2) q1 q2, K.rev_rev h (A hh)]
  · intro h hh
    by_cases z1 : h = L.rv d1
    · rw [z1, R.rv1]; exact oo.symm
    · by_cases z2 : h = L.rv d2
      · rw [z2, R.rv2]; exact oo
      · rw [R.rvo hh z1 z2]; exact K.rev_ne h (A hh)
  · intro h hh
    rw [R.nxo hh, R.sro (nn hh)]
    by_cases z1 : h = L.rv d1
    · rw [z1, R.rv1, R.sro a2, s2, s3]
    · by_cases z2 : h = L.rv d2
      · rw [z2, R.rv2, R.sro a1, s1, s4]
      · rw [R.rvo hh z1 z2, R.sro (rr hh z1 z2), K.src_rev h (A hh)]
  · intro h h' hh hh' e
    rw [R.nxo hh, R.nxo hh'] at e
    exact K.next_inj _ _ (A hh) (A hh') e
  · intro h hh
    rw [R.nxo hh, R.fco (nn hh), R.fco hh, K.face_next h (A hh)]
  · intro f hf; exact R.fho hf
  · intro v hv; exact R.vho hv
  · intro h h' hh hh' e
    rw [R.fco hh, R.fco hh'] at e
    refine Reach.lift (S := fun h => L'.hA h = true) (fun h hh => ⟨nn hh, .one (R.nxo hh)⟩) hh (K.face_conn _ _ (A hh) (A hh') e)
  · intro h h' hh hh' e
    rw [R.sro hh, R.sro hh'] at e
    obtain ⟨n, hn⟩ := K.ring_conn h h' (A hh) (A hh') e
    have nd : ∀ {h}, L'.hA h = true → ¬(h = d1 ∨ h = d2) := fun hh e => by
      rcases e with e | e
      · exact ((R.al _).1 hh).1 e
      · exact ((R.al _).1 hh).2.1 e
    refine Reach.bypass (S := fun h => L.hA h = true) (D := fun h => h = d1 ∨ h = d2) (l := 2) (by omega)
      (fun h hh => K.next_alive _ (K.rev_alive h hh)) ?_ n (A hh) (nd hh) (nd hh') hn
    intro h hh d
    have ah : L'.hA h = true := (R.al _).2 ⟨fun e => d (.inl e), fun e => d (.inr e), hh⟩
    have i2 : (fun x => L.nx (L.rv x))^[2] h = L.nx (L.rv (L.nx (L.rv h))) := rfl
    by_cases z1 : h = L.rv d1
    · have e1 : L.nx (L.rv h) = d2 := by rw [z1, K.rev_rev d1 h1, n1]
      refine .inr ⟨fun i g1 g2 => ?_, ?_, ?_⟩
      · have : i = 1 := by omega
        subst this
        exact .inr e1
      · rw [i2, e1]; exact nd (nn a2)
      · rw [i2, e1]; exact .one (by rw [z1, R.rv1, R.nxo a2])
    · by_cases z2 : h = L.rv d2
      · have e1 : L.nx (L.rv h) = d1 := by rw [z2, K.rev_rev d2 h2, n2]
        refine .inr ⟨fun i g1 g2 => ?_, ?_, ?_⟩
        · have : i = 1 := by omega
          subst this
          exact .inl e1
        · rw [i2, e1]; exact nd (nn a1)
        · rw [i2, e1]; exact .one (by rw [z2, R.rv2, R.nxo a1])
      · have q := rr ah z1 z2
        exact .inl ⟨nd (nn q), .one (by rw [R.rvo ah z1 z2, R.nxo q])⟩

end Links
end TinyMesh
