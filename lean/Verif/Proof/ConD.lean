import Verif.Proof.ConC
import Verif.Proof.Collapse
/-
`construct`, second loop: moving the half-edge of each vertex to the end of its fan.
-/
set_option linter.unusedSimpArgs false
namespace TinyMesh
open Orbit
variable {F : Type} {m m' : Mesh F}

/-- triangles, glued along edges, without holes -/
structure TriMesh (m : Mesh F) : Prop where
  hd : Dense m.hAlive m.hIdx m.hes
  vd : Dense m.vAlive m.vIdx m.vs
  fd : Dense m.fAlive m.fIdx m.fs
  hB : ∀ h, m.hAlive h = true → 0 < h ∧ h < m.hFresh
  vB : ∀ h, m.vAlive h = true → 0 < h ∧ h < m.vFresh
  fB : ∀ h, m.fAlive h = true → 0 < h ∧ h < m.fFresh
  h0 : 0 < m.hFresh
  f0 : 0 < m.fFresh
  next_alive : ∀ h, m.hAlive h = true → m.hAlive (m.hNext h) = true
  src_alive : ∀ h, m.hAlive h = true → m.vAlive (m.hSrc h) = true
  face_alive : ∀ h, m.hAlive h = true → m.fAlive (m.hFace h) = true
  tri : ∀ h, m.hAlive h = true → m.hNext (m.hNext (m.hNext h)) = h
  face_next : ∀ h, m.hAlive h = true → m.hFace (m.hNext h) = m.hFace h
  face_tri : ∀ h h', m.hAlive h = true → m.hAlive h' = true → m.hFace h' = m.hFace h →
    h' = h ∨ h' = m.hNext h ∨ h' = m.hNext (m.hNext h)
  fHe_ok : ∀ f, m.fAlive f = true → m.hAlive (m.fHe f) = true ∧ m.hFace (m.fHe f) = f
  bd : ∀ h, m.hAlive h = true → m.hBd h = false
  rev_alive : ∀ h, m.hAlive h = true → m.hRev h ≠ 0 → m.hAlive (m.hRev h) = true
  rev_rev : ∀ h, m.hAlive h = true → m.hRev h ≠ 0 → m.hRev (m.hRev h) = h
  rev_ne : ∀ h, m.hAlive h = true → m.hRev h ≠ h
  src_rev : ∀ h, m.hAlive h = true → m.hRev h ≠ 0 → m.hSrc (m.hRev h) = m.hSrc (m.hNext h)
  no_loop : ∀ h, m.hAlive h = true → m.hSrc h ≠ m.hSrc (m.hNext h)
  no_dup : ∀ h h', m.hAlive h = true → m.hAlive h' = true → m.hSrc h = m.hSrc h' →
    m.hSrc (m.hNext h) = m.hSrc (m.hNext h') → h = h'
  /-- opposite half-edges know each other -/
  opp : ∀ h h', m.hAlive h = true → m.hAlive h' = true → m.hSrc h = m.hSrc (m.hNext h') →
    m.hSrc (m.hNext h) = m.hSrc h' → m.hRev h = h'

theorem InvA.triMesh {pd : PD} {acc : List Tri} (I : InvA m pd acc) : TriMesh m := by
  have N := I.vd.nodup
  have key : ∀ h, m.hAlive h = true → ∃ a b, pd.pair a b = h ∧ m.hRev h = pd.pair b a ∧
      m.vs[a]? = some (m.hSrc h) ∧ m.vs[b]? = some (m.hSrc (m.hNext h)) ∧ a ≠ b := by
    intro h a
    obtain ⟨x, y, e1, e2⟩ := I.pair_all h a
    have h0 : h ≠ 0 := by have := (I.hB h a).1; omega
    obtain ⟨_, q2, q3, q4⟩ := I.pair_ok x y (e1 ▸ h0)
    rw [e1] at q2 q3
    exact ⟨x, y, e1, e2, q2, q3, q4⟩
  have inj := fun {a b a' b' : Nat} => I.pair_inj (a := a) (b := b) (a' := a') (b' := b')
  exact {
    hd := I.hd, vd := I.vd, fd := I.fd, hB := I.hB, vB := I.vB, fB := I.fB, h0 := I.h0, f0 := I.f0
    next_alive := I.next_alive, src_alive := I.src_alive, face_alive := I.face_alive, tri := I.tri
    face_next := I.face_next, face_tri := I.face_tri, fHe_ok := I.fHe_ok, bd := I.bd
    rev_alive := by
      intro h a hr
      obtain ⟨x, y, e1, e2, _⟩ := key h a
      rw [e2] at hr ⊢
      exact (I.pair_ok _ _ hr).1
    rev_rev := by
      intro h a hr
      obtain ⟨x, y, e1, e2, _⟩ := key h a
      rw [e2] at hr
      obtain ⟨x', y', e1', e2', _⟩ := key _ (I.pair_ok _ _ hr).1
      obtain ⟨rfl, rfl⟩ := inj hr e1'.symm
      rw [e2, e2', e1]
    rev_ne := by
      intro h a e
      obtain ⟨x, y, e1, e2, _, _, ne⟩ := key h a
      have h0 : h ≠ 0 := by have := (I.hB h a).1; omega
      rw [e2, ← e1] at e
      exact ne (inj (e1 ▸ h0) e.symm).1
    src_rev := by
      intro h a hr
      obtain ⟨x, y, e1, e2, q1, q2, _⟩ := key h a
      rw [e2] at hr ⊢
      obtain ⟨_, q3, _, _⟩ := I.pair_ok _ _ hr
      rw [q3] at q2
      exact Option.some.inj q2
    no_loop := by
      intro h a e
      obtain ⟨x, y, e1, e2, q1, q2, ne⟩ := key h a
      exact ne (nodup_getElem?_inj N q1 (e ▸ q2))
    no_dup := by
      intro h h' a a' e e'
      obtain ⟨x, y, e1, e2, q1, q2, ne⟩ := key h a
      obtain ⟨x', y', e1', e2', q1', q2', ne'⟩ := key h' a'
      have := nodup_getElem?_inj N q1 (e ▸ q1')
      have := nodup_getElem?_inj N q2 (e' ▸ q2')
      subst x y
      rw [← e1, ← e1']
    opp := by
      intro h h' a a' e e'
      obtain ⟨x, y, e1, e2, q1, q2, ne⟩ := key h a
      obtain ⟨x', y', e1', e2', q1', q2', ne'⟩ := key h' a'
      have := nodup_getElem?_inj N q1 (e ▸ q2')
      have := nodup_getElem?_inj N q2 (e' ▸ q1')
      subst x y
      rw [e2, e1'] }

theorem TriMesh.setVHe (T : TriMesh m) (V : Nat → Nat) : TriMesh { m with vHe := V } := by
  cases T; constructor <;> assumption

namespace TriMesh
variable (T : TriMesh m)
include T

theorem ne0 {h : Nat} (a : m.HA h) : h ≠ 0 := by have := (T.hB h a).1; omega

theorem next_inj {h h' : Nat} (a : m.HA h) (a' : m.HA h') (e : m.hNext h = m.hNext h') : h = h' := by
  rw [← T.tri h a, ← T.tri h' a', e]

theorem sig_alive {h : Nat} (a : m.HA h) (r : m.hRev h ≠ 0) : m.HA (m.sig h) :=
  T.next_alive _ (T.rev_alive h a r)

theorem sig_src {h : Nat} (a : m.HA h) (r : m.hRev h ≠ 0) : m.hSrc (m.sig h) = m.hSrc h := by
  have := T.src_rev _ (T.rev_alive h a r) (by rw [T.rev_rev h a r]; exact T.ne0 a)
  rw [T.rev_rev h a r] at this
  exact this.symm

theorem sig_inj {x y : Nat} (ax : m.HA x) (ay : m.HA y) (rx : m.hRev x ≠ 0) (ry : m.hRev y ≠ 0)
    (e : m.sig x = m.sig y) : x = y := by
  have := T.next_inj (T.rev_alive x ax rx) (T.rev_alive y ay ry) e
  rw [← T.rev_rev x ax rx, this, T.rev_rev y ay ry]

theorem chain {x : Nat} (ax : m.HA x) :
    ∃ n, n ≤ m.hFresh ∧ (∀ i, i < n → m.hRev (m.sig^[i] x) ≠ 0) ∧ (∀ i, 0 < i → i < n → m.sig^[i] x ≠ x) ∧
      (∀ i, i ≤ n → m.HA (m.sig^[i] x)) ∧ (m.hRev (m.sig^[n] x) = 0 ∨ (0 < n ∧ m.sig^[n] x = x)) := by
  obtain ⟨n, h1, h2, h3, h4, h5⟩ := chain_ends (f := m.sig) (S := m.HA) (D := fun x => m.hRev x ≠ 0) (N := m.hFresh)
    (fun x a r => T.sig_alive a r) (fun x y ax ay rx ry e => T.sig_inj ax ay rx ry e) (fun x a => (T.hB x a).2) ax
  exact ⟨n, h1, h2, h3, h4, h5.imp_left (fun h => by simpa using h)⟩

theorem chain_src {x : Nat} (ax : m.HA x) {n : Nat} (hD : ∀ i, i < n → m.hRev (m.sig^[i] x) ≠ 0)
    (hS : ∀ i, i ≤ n → m.HA (m.sig^[i] x)) : ∀ i, i ≤ n → m.hSrc (m.sig^[i] x) = m.hSrc x := by
  intro i
  induction i with
  | zero => intro _; rfl
  | succ i ih =>
    intro hi
    rw [Function.iterate_succ_apply', T.sig_src (hS i (by omega)) (hD i (by omega)), ih (by omega)]

end TriMesh

theorem advanceLoop_spec (T : TriMesh m) {v s : Nat} (av : m.vAlive v = true) (hs : m.vHe v = s) (as : m.HA s)
    (hsv : m.hSrc s = v) : ∃ x, advanceLoop v m.hFresh s m = .ok () { m with vHe := upd m.vHe v x } ∧
      m.HA x ∧ m.hSrc x = v := by
  obtain ⟨n, n1, n2, n3, n4, n5⟩ := T.chain as
  have src := T.chain_src as n2 n4
  have hn : n < m.hFresh + 1 := by omega
  have upid : ({ m with vHe := upd m.vHe v s } : Mesh F) = m := by
    have : upd m.vHe v s = m.vHe := by
      funext y; by_cases c : y = v <;> simp [upd, c, hs]
    rw [this]
  rcases n5 with n5 | ⟨n5, n6⟩
  · refine ⟨m.sig^[n] s, ?_, n4 n (Nat.le_refl _), (src n (Nat.le_refl _)).trans hsv⟩
    by_cases hsmall : n < m.hFresh
    · have loop : ∀ k i fuel, i + k = n → k < fuel →
          advanceLoop v fuel (m.sig^[i] s) m = .ok () { m with vHe := upd m.vHe v (m.sig^[n] s) } := by
        intro k
        induction k with
        | zero =>
          intro i fuel e hf
          obtain ⟨fuel, rfl⟩ : ∃ f, fuel = f + 1 := ⟨fuel - 1, by omega⟩
          have : i = n := by omega
          subst this
          simp [advanceLoop, getRev_ok (n4 i (Nat.le_refl _)), n5, setVHe, av]
        | succ k ih =>
          intro i fuel e hf
          obtain ⟨fuel, rfl⟩ : ∃ f, fuel = f + 1 := ⟨fuel - 1, by omega⟩
          have r := n2 i (by omega)
          have ai := n4 i (by omega)
          simp only [advanceLoop, bind_apply, getRev_ok ai, r, if_false, getNext_ok (T.rev_alive _ ai r), getVHe_ok av, hs]
          have e1 : m.hNext (m.hRev (m.sig^[i] s)) = m.sig^[i + 1] s := by
            rw [Function.iterate_succ_apply']; rfl
          rw [e1]
          by_cases c : m.sig^[i + 1] s = s
          · exfalso
            by_cases c2 : i + 1 < n
            · exact n3 (i + 1) (by omega) c2 c
            · have : i + 1 = n := by omega
              rw [this] at c
              rw [c] at n5
              exact n2 0 (by omega) n5
          · rw [if_neg c]
            exact ih (i + 1) fuel (by omega) (by omega)
      exact loop n 0 m.hFresh (by omega) hsmall
    · -- n distinct live half-edges and one more would not fit below `hFresh`
      exfalso
      have hn' : n = m.hFresh := by omega
      have inj : ∀ a b, a < b → b ≤ n → m.sig^[a] s ≠ m.sig^[b] s := by
        intro a
        induction a with
        | zero =>
          intro b h0 hb e
          by_cases c : b < n
          · exact n3 b h0 c e.symm
          · have : b = n := by omega
            subst this
            rw [← e] at n5
            exact n2 0 h0 n5
        | succ a ih =>
          intro b hab hb e
          obtain ⟨b, rfl⟩ : ∃ c, b = c + 1 := ⟨b - 1, by omega⟩
          rw [Function.iterate_succ_apply', Function.iterate_succ_apply'] at e
          exact ih b (by omega) (by omega) (T.sig_inj (n4 a (by omega)) (n4 b (by omega)) (n2 a (by omega)) (n2 b (by omega)) e)
      have hmap : ∀ i ∈ Finset.range (n + 1), m.sig^[i] s ∈ Finset.range n := by
        intro i hi
        rw [Finset.mem_range] at hi ⊢
        have := (T.hB _ (n4 i (by omega))).2
        omega
      obtain ⟨i, hi, j, hj, hne, he⟩ := Finset.exists_ne_map_eq_of_card_lt_of_maps_to
        (by simp : (Finset.range n).card < (Finset.range (n + 1)).card) hmap
      rw [Finset.mem_range] at hi hj
      rcases Nat.lt_or_gt_of_ne hne with h | h
      · exact inj i j h (by omega) he
      · exact inj j i h (by omega) he.symm
  · refine ⟨s, ?_, as, hsv⟩
    rw [upid]
    have loop : ∀ k i fuel, i + k = n → 0 < k → k ≤ fuel → advanceLoop v fuel (m.sig^[i] s) m = .ok () m := by
      intro k
      induction k with
      | zero => intro i fuel _ h; omega
      | succ k ih =>
        intro i fuel e _ hf
        obtain ⟨fuel, rfl⟩ : ∃ f, fuel = f + 1 := ⟨fuel - 1, by omega⟩
        have r := n2 i (by omega)
        have ai := n4 i (by omega)
        simp only [advanceLoop, bind_apply, getRev_ok ai, r, if_false, getNext_ok (T.rev_alive _ ai r), getVHe_ok av, hs]
        have e1 : m.hNext (m.hRev (m.sig^[i] s)) = m.sig^[i + 1] s := by
          rw [Function.iterate_succ_apply']; rfl
        rw [e1]
        by_cases c2 : i + 1 < n
        · rw [if_neg (n3 (i + 1) (by omega) c2)]
          exact ih (i + 1) fuel (by omega) (by omega) (by omega)
        · have : i + 1 = n := by omega
          rw [this, if_pos n6]
          rfl
    exact loop n 0 m.hFresh (by omega) n5 n1

theorem advanceVs_spec : ∀ (vs : List Nat) (m : Mesh F), TriMesh m → (∀ v ∈ vs, m.vAlive v = true) →
    (∀ v, m.vAlive v = true → m.vHe v = 0 ∨ (m.HA (m.vHe v) ∧ m.hSrc (m.vHe v) = v)) →
    (∃ V, advanceVs vs m = .ok () { m with vHe := V } ∧ (∀ v ∈ vs, m.vHe v ≠ 0) ∧
      (∀ v, m.vAlive v = true → m.vHe v ≠ 0 → m.HA (V v) ∧ m.hSrc (V v) = v)) ∨
    (advanceVs vs m = .err .ub ∧ ∃ v ∈ vs, m.vHe v = 0) := by
  intro vs
  induction vs with
  | nil =>
    intro m T _ hv
    exact Or.inl ⟨m.vHe, rfl, by simp, fun v a h => (hv v a).resolve_left h⟩
  | cons v vs ih =>
    intro m T hvs hv
    have av := hvs v (by simp)
    simp only [advanceVs, bind_apply, getVHe_ok av, read_apply]
    rcases hv v av with h0 | ⟨h1, h2⟩
    · right
      refine ⟨?_, v, by simp, h0⟩
      have hfr := T.h0
      obtain ⟨k, hk⟩ : ∃ k, m.hFresh = k + 1 := ⟨m.hFresh - 1, by omega⟩
      have hd : m.hAlive 0 = false := by
        cases h : m.hAlive 0 with
        | false => rfl
        | true => exact absurd rfl (T.ne0 h)
      simp [h0, hk, advanceLoop, getRev, hd]
    · obtain ⟨x, e, ax, sx⟩ := advanceLoop_spec T av rfl h1 h2
      rw [e]
      simp only
      have hv' : ∀ u, m.vAlive u = true → upd m.vHe v x u = 0 ∨
          (m.HA (upd m.vHe v x u) ∧ m.hSrc (upd m.vHe v x u) = u) := by
        intro u au
        by_cases c : u = v
        · subst c; rw [upd_same]; exact Or.inr ⟨ax, sx⟩
        · rw [upd_ne _ _ c]; exact hv u au
      have hne : ∀ u, m.vHe u ≠ 0 ↔ upd m.vHe v x u ≠ 0 := by
        intro u
        by_cases c : u = v
        · subst c; rw [upd_same]; exact ⟨fun _ => T.ne0 ax, fun _ => T.ne0 h1⟩
        · rw [upd_ne _ _ c]
      rcases ih { m with vHe := upd m.vHe v x } (T.setVHe _) (fun u hu => hvs u (by simp [hu])) hv' with
        ⟨V, eV, h3, h4⟩ | ⟨e', u, hu, hu'⟩
      · left
        refine ⟨V, eV, ?_, ?_⟩
        · intro u hu
          rcases List.mem_cons.1 hu with rfl | hu
          · exact T.ne0 h1
          · exact (hne u).2 (h3 u hu)
        · intro u au hu
          exact h4 u au ((hne u).1 hu)
      · right
        refine ⟨e', u, by simp [hu], ?_⟩
        by_contra c
        exact (hne u).1 c hu'

end TinyMesh
