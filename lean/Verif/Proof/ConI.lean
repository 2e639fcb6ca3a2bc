import Verif.Proof.ConH
/-
`construct`: fans of the input triangles and rings of the mesh.
-/
set_option linter.unusedSimpArgs false
namespace TinyMesh
open Orbit
variable {F : Type} {m m' m0 : Mesh F}

theorem Tri.edge_next {t : Tri} (ht : t.degen = false) {x v y : Nat} (h1 : t.HasEdge x v) (h2 : t.HasEdge v y) :
    (x = t.a ∧ v = t.b ∧ y = t.c) ∨ (x = t.b ∧ v = t.c ∧ y = t.a) ∨ (x = t.c ∧ v = t.a ∧ y = t.b) := by
  obtain ⟨n1, n2, n3⟩ := Tri.ne_of_degen ht
  unfold Tri.HasEdge at h1 h2
  omega

theorem Tri.edge_out {t : Tri} (v : Nat) (h : t.has v) : ∃ u, t.HasEdge v u := by
  rcases h with rfl | rfl | rfl
  · exact ⟨t.b, Or.inl ⟨rfl, rfl⟩⟩
  · exact ⟨t.c, Or.inr (Or.inl ⟨rfl, rfl⟩)⟩
  · exact ⟨t.a, Or.inr (Or.inr ⟨rfl, rfl⟩)⟩

theorem Tri.edge_has {t : Tri} {v u : Nat} (h : t.HasEdge v u) : t.has v ∧ t.has u := by
  unfold Tri.HasEdge at h; unfold Tri.has; omega

theorem Tri.edge_out_unique {t : Tri} (ht : t.degen = false) {v u u' : Nat} (h : t.HasEdge v u) (h' : t.HasEdge v u') :
    u = u' := by
  obtain ⟨n1, n2, n3⟩ := Tri.ne_of_degen ht
  unfold Tri.HasEdge at h h'; omega

namespace InvA
variable {pd : PD} {acc : List Tri} (I : InvA m pd acc)
include I

theorem pair_edge {t : Tri} (ht : t ∈ acc) {a b : Nat} (h : t.HasEdge a b) : pd.pair a b ≠ 0 :=
  (I.pair_iff a b).2 ⟨t, ht, h⟩

theorem next_pair {t : Tri} (ht : t ∈ acc) {x v y : Nat} (h1 : t.HasEdge x v) (h2 : t.HasEdge v y) :
    m.hNext (pd.pair x v) = pd.pair v y := by
  obtain ⟨i, hi, rfl⟩ := List.getElem_of_mem ht
  have hif : i < m.fs.length := by rw [I.len]; exact hi
  obtain ⟨g1, g2, g3⟩ := I.faces i hif acc[i] (List.getElem?_eq_getElem hi)
  have al := (I.pair_ok _ _ (I.pair_edge ht (Or.inr (Or.inr ⟨rfl, rfl⟩)))).1
  have g4 := I.tri _ al
  rw [g2, g3] at g4
  rcases Tri.edge_next (I.nondeg _ ht) h1 h2 with ⟨e1, e2, e3⟩ | ⟨e1, e2, e3⟩ | ⟨e1, e2, e3⟩
  · rw [e1, e2, e3]; exact g3
  · rw [e1, e2, e3]; exact g4
  · rw [e1, e2, e3]; exact g2

theorem face_pair {i : Nat} (hi : i < acc.length) {a b : Nat} (h : acc[i].HasEdge a b) :
    m.fs[i]? = some (m.hFace (pd.pair a b)) := by
  have hif : i < m.fs.length := by rw [I.len]; exact hi
  have ht := List.getElem_mem hi
  obtain ⟨g1, g2, g3⟩ := I.faces i hif acc[i] (List.getElem?_eq_getElem hi)
  have e3 := I.pair_ok _ _ (I.pair_edge ht (Or.inr (Or.inr ⟨rfl, rfl⟩)))
  have e1 := I.pair_ok _ _ (I.pair_edge ht (Or.inl ⟨rfl, rfl⟩))
  have hf := (I.fHe_ok _ ((I.fd.mem _).1 (List.getElem_mem hif))).2
  rw [g1] at hf
  have f1 := I.face_next _ e3.1
  rw [g2, hf] at f1
  have f2 := I.face_next _ e1.1
  rw [g3, f1] at f2
  rw [List.getElem?_eq_getElem hif]
  congr 1
  rcases h with ⟨ea, eb⟩ | ⟨ea, eb⟩ | ⟨ea, eb⟩
  · rw [ea, eb]; exact f1.symm
  · rw [ea, eb]; exact f2.symm
  · rw [ea, eb]; exact hf.symm

/-- a directed edge belongs to one triangle only -/
theorem edge_unique {t s : Tri} (ht : t ∈ acc) (hs : s ∈ acc) {a b : Nat} (h1 : t.HasEdge a b) (h2 : s.HasEdge a b) :
    t = s := by
  obtain ⟨i, hi, rfl⟩ := List.getElem_of_mem ht
  obtain ⟨j, hj, rfl⟩ := List.getElem_of_mem hs
  have e1 := I.face_pair hi h1
  have e2 := I.face_pair hj h2
  have := nodup_getElem?_inj I.fd.nodup e1 e2
  subst this
  rfl

theorem rev_pair {a b : Nat} (h : pd.pair a b ≠ 0) : m.hRev (pd.pair a b) = pd.pair b a := by
  obtain ⟨x, y, e1, e2⟩ := I.pair_all _ (I.pair_ok a b h).1
  obtain ⟨rfl, rfl⟩ := I.pair_inj h e1.symm
  exact e2

theorem src_pair {a b v : Nat} (h : pd.pair a b ≠ 0) (hv : m.vs[a]? = some v) : m.hSrc (pd.pair a b) = v := by
  have := (I.pair_ok a b h).2.1
  rw [hv] at this
  exact (Option.some.inj this).symm

/-- every half-edge leaving vertex number `a` belongs to a triangle -/
theorem exists_tri {h a v : Nat} (ah : m.HA h) (hv : m.vs[a]? = some v) (hs : m.hSrc h = v) :
    ∃ t ∈ acc, ∃ u, t.HasEdge a u ∧ h = pd.pair a u := by
  obtain ⟨x, y, e1, e2⟩ := I.pair_all h ah
  have h0 : h ≠ 0 := by have := (I.hB h ah).1; omega
  have hp : pd.pair x y ≠ 0 := e1 ▸ h0
  have hx := (I.pair_ok x y hp).2.1
  rw [e1, hs] at hx
  have := nodup_getElem?_inj I.vd.nodup hx hv
  subst this
  obtain ⟨t, ht, hte⟩ := (I.pair_iff _ _).1 hp
  exact ⟨t, ht, y, hte, e1.symm⟩

end InvA

/-- a vertex has a single fan of input triangles exactly if one ring contains all its triangle half-edges -/
theorem fan_iff {pd : PD} {acc : List Tri} {mA : Mesh F} (I : InvA mA pd acc) {V0 : Nat → Nat} {g : Nat → Nat}
    (C : Closed { mA with vHe := V0 } g m) {a v s : Nat} (hv : mA.vs[a]? = some v) (as : m.HA s) (hs : m.hSrc s = v) :
    (∀ h, mA.HA h → mA.hSrc h = v → h ∈ orbit m.sig s) ↔ SingleFan acc a := by
  have pm := C.permSig
  have lt0 : ∀ h, mA.HA h → h < mA.hFresh := fun h a => C.lt0 a
  -- one step between triangles is one step between half-edges
  have step : ∀ t r u, t ∈ acc → r ∈ acc → t.HasEdge a u → r.HasEdge u a → ∃ w, r.HasEdge a w ∧
      mA.hRev (pd.pair a u) ≠ 0 ∧ mA.sig (pd.pair a u) = pd.pair a w := by
    intro t r u ht hr h1 h2
    obtain ⟨w, hw⟩ := Tri.edge_out a (Tri.edge_has h2).2
    have p1 := I.pair_edge ht h1
    have p2 := I.pair_edge hr h2
    refine ⟨w, hw, ?_, ?_⟩
    · rw [I.rev_pair p1]; exact p2
    · unfold Mesh.sig
      rw [I.rev_pair p1]
      exact I.next_pair hr h2 hw
  have sigT : ∀ h, mA.HA h → mA.hRev h ≠ 0 → m.sig h = mA.sig h := by
    intro h ah hr
    unfold Mesh.sig
    rw [(C.rT h ah hr).1]
    exact C.nT _ (C.T.rev_alive h ah hr)
  constructor
  · intro hall t r ht hr htv hrv
    -- all half-edges in the ring are mapped to triangles
    obtain ⟨u, hu⟩ := Tri.edge_out a htv
    obtain ⟨w, hw⟩ := Tri.edge_out a hrv
    have pu := I.pair_edge ht hu
    have pw := I.pair_edge hr hw
    have au := (I.pair_ok _ _ pu).1
    have aw := (I.pair_ok _ _ pw).1
    have su := I.src_pair pu hv
    have sw := I.src_pair pw hv
    obtain ⟨n, hn⟩ := (pm.mem_orbit as).1 (hall _ au su)
    obtain ⟨k, hk⟩ := (pm.mem_orbit as).1 (hall _ aw sw)
    -- connectivity of half-edges without the holes
    have conn : Relation.EqvGen (fun x y => mA.HA x ∧ mA.hRev x ≠ 0 ∧ mA.sig x = y) (pd.pair a u) (pd.pair a w) := by
      have c0 : Conn m.sig m.HA (pd.pair a u) (pd.pair a w) :=
        (hn ▸ (Conn.iter pm as n)).symm.trans (hk ▸ (Conn.iter pm as k))
      have hmap : ∀ x y, Conn m.sig m.HA x y →
          Relation.EqvGen (fun x y => mA.HA x ∧ mA.hRev x ≠ 0 ∧ mA.sig x = y)
            (if mA.hFresh ≤ x then m.sig x else x) (if mA.hFresh ≤ y then m.sig y else y) := by
        intro x y hc
        induction hc with
        | rel x y hxy =>
          obtain ⟨ax, e⟩ := hxy
          subst e
          rcases C.cases ax with ⟨h1, h2⟩ | h1 | ⟨h1, h2⟩
          · have e := sigT x h1 h2
            have : mA.HA (mA.sig x) := C.T.sig_alive h1 h2
            rw [if_neg (by have := lt0 x h1; omega), e, if_neg (by have := lt0 _ this; omega)]
            exact Relation.EqvGen.rel _ _ ⟨h1, h2, rfl⟩
          · obtain ⟨w1, w2⟩ := C.sig_bnd h1
            have w1 : mA.hFresh ≤ m.sig x := w1
            rw [if_neg (by have := lt0 x h1.1; omega), if_pos w1]
            -- `m.sig x` is the hole half-edge whose fan ends at `x`
            obtain ⟨q1, q2, q3, _⟩ := C.bnd_rev h1
            have hnx := (C.holeNext _ q1 q2).2.2.1
            rw [q3] at hnx
            obtain ⟨r1, r2, _, _⟩ := C.holeRev _ w1 w2
            have hx : x = g (m.hRev (m.sig x)) := hnx
            obtain ⟨n, _, n2, n3, n4⟩ := C.S.turn _ r1
            have e1 : m.sig (m.sig x) = mA.hNext (m.hRev (m.sig x)) := C.nT _ r1.1
            rw [e1]
            refine Relation.EqvGen.symm _ _ ?_
            rw [← hx] at n4
            have : ∀ i, i ≤ n → Relation.EqvGen (fun x y => mA.HA x ∧ mA.hRev x ≠ 0 ∧ mA.sig x = y)
                (mA.hNext (m.hRev (m.sig x))) (mA.sig^[i] (mA.hNext (m.hRev (m.sig x)))) := by
              intro i
              induction i with
              | zero => intro _; exact Relation.EqvGen.refl _
              | succ i ih =>
                intro hi
                refine Relation.EqvGen.trans _ _ _ (ih (by omega)) (Relation.EqvGen.rel _ _ ⟨n3 i (by omega), n2 i (by omega), ?_⟩)
                rw [Function.iterate_succ_apply']
            have := this n (Nat.le_refl _)
            have e4 : mA.sig^[n] (mA.hNext (m.hRev (m.sig x))) = x := n4.symm
            rw [e4] at this
            exact this
          · have h1 : mA.hFresh ≤ x := h1
            obtain ⟨r1, r2, _, _⟩ := C.holeRev _ h1 h2
            have e1 : m.sig x = mA.hNext (m.hRev x) := C.nT _ r1.1
            have : mA.HA (m.sig x) := by rw [e1]; exact C.T.next_alive _ r1.1
            rw [if_pos h1, if_neg (by have := lt0 _ this; omega)]
            exact Relation.EqvGen.refl _
        | refl x => exact Relation.EqvGen.refl _
        | symm x y _ ih => exact Relation.EqvGen.symm _ _ ih
        | trans x y z _ _ ih1 ih2 => exact Relation.EqvGen.trans _ _ _ ih1 ih2
      have := hmap _ _ c0
      rw [if_neg (by have := lt0 _ au; omega), if_neg (by have := lt0 _ aw; omega)] at this
      exact this
    -- half-edges to triangles
    have sgsrc : ∀ x, mA.HA x → mA.hRev x ≠ 0 → mA.hSrc (mA.sig x) = mA.hSrc x := fun x ax rx => C.T.sig_src ax rx
    have lift : ∀ x y, Relation.EqvGen (fun x y => mA.HA x ∧ mA.hRev x ≠ 0 ∧ mA.sig x = y) x y →
        (mA.HA x ∧ mA.hSrc x = v ↔ mA.HA y ∧ mA.hSrc y = v) ∧
        (mA.HA x → mA.hSrc x = v → ∀ p q, p ∈ acc → q ∈ acc → ∀ u w, p.HasEdge a u → x = pd.pair a u →
          q.HasEdge a w → y = pd.pair a w → Relation.EqvGen (FanStep acc a) p q) := by
      intro x y hc
      induction hc with
      | rel x y hxy =>
        obtain ⟨ax, rx, e⟩ := hxy
        subst e
        have ay : mA.HA (mA.sig x) := C.T.sig_alive ax rx
        refine ⟨⟨fun h => ⟨ay, by rw [sgsrc x ax rx]; exact h.2⟩, fun h => ⟨ax, by rw [← sgsrc x ax rx]; exact h.2⟩⟩, ?_⟩
        intro _ hsx p q hp hq u w hu ex hw ey
        have pu := I.pair_edge hp hu
        rw [ex, I.rev_pair pu] at rx
        obtain ⟨r, hr, hre⟩ := (I.pair_iff _ _).1 rx
        obtain ⟨w', hw', _, e'⟩ := step p r u hp hr hu hre
        rw [ex, e'] at ey
        have hww := (I.pair_inj (I.pair_edge hr hw') ey).2
        subst hww
        have := I.edge_unique hr hq hw' hw
        subst this
        exact Relation.EqvGen.rel _ _ ⟨hp, hr, u, (Tri.mem_edges _ _ _).2 hu, (Tri.mem_edges _ _ _).2 hre⟩
      | refl x =>
        refine ⟨Iff.rfl, ?_⟩
        intro _ _ p q hp hq u w hu ex hw ey
        have h0 := I.pair_edge hp hu
        have hww := (I.pair_inj h0 (ex.symm.trans ey)).2
        subst hww
        have := I.edge_unique hp hq hu hw
        subst this
        exact Relation.EqvGen.refl _
      | symm x y _ ih =>
        refine ⟨ih.1.symm, ?_⟩
        intro ay hsy p q hp hq u w hu ex hw ey
        obtain ⟨ax, hsx⟩ := ih.1.2 ⟨ay, hsy⟩
        exact Relation.EqvGen.symm _ _ (ih.2 ax hsx q p hq hp w u hw ey hu ex)
      | trans x y z _ _ ih1 ih2 =>
        refine ⟨ih1.1.trans ih2.1, ?_⟩
        intro ax hsx p q hp hq u w hu ex hw ez
        obtain ⟨ay, hsy⟩ := ih1.1.1 ⟨ax, hsx⟩
        obtain ⟨r, hr, u', hu', ey⟩ := I.exists_tri ay hv hsy
        exact Relation.EqvGen.trans _ _ _ (ih1.2 ax hsx p r hp hr u u' hu ex hu' ey)
          (ih2.2 ay hsy r q hr hq u' w hu' ey hw ez)
    exact (lift _ _ conn).2 au su t r ht hr u w hu rfl hw rfl
  · intro hf h ah hsh
    -- `s` is connected to a triangle half-edge `s'`
    obtain ⟨s', as', hs', hc⟩ : ∃ s', mA.HA s' ∧ mA.hSrc s' = v ∧ Conn m.sig m.HA s s' := by
      rcases (C.hal s).1 as with h1 | h1
      · exact ⟨s, h1, by have := C.sT s h1; rw [← hs]; exact this.symm, Conn.refl _⟩
      · obtain ⟨r1, r2, _, r4⟩ := C.holeRev s h1.1 h1.2
        have e1 : m.sig s = mA.hNext (m.hRev s) := C.nT _ r1.1
        refine ⟨m.sig s, by rw [e1]; exact C.T.next_alive _ r1.1, ?_, Conn.step as⟩
        rw [e1, ← hs]; exact r4.symm
    obtain ⟨t, ht, u, hu, e1⟩ := I.exists_tri as' hv hs'
    obtain ⟨r, hr, w, hw, e2⟩ := I.exists_tri ah hv hsh
    have hfan := hf t r ht hr (Tri.edge_has hu).1 (Tri.edge_has hw).1
    have key : ∀ p q, Relation.EqvGen (FanStep acc a) p q → (p ∈ acc ∧ p.has a ↔ q ∈ acc ∧ q.has a) ∧
        (∀ u w, p ∈ acc → q ∈ acc → p.HasEdge a u → q.HasEdge a w → Conn m.sig m.HA (pd.pair a u) (pd.pair a w)) := by
      intro p q hc
      induction hc with
      | rel p q hpq =>
        obtain ⟨hp, hq, u, h1, h2⟩ := hpq
        rw [Tri.mem_edges] at h1 h2
        refine ⟨⟨fun _ => ⟨hq, (Tri.edge_has h2).2⟩, fun _ => ⟨hp, (Tri.edge_has h1).1⟩⟩, ?_⟩
        intro u' w' _ _ hu' hw'
        obtain ⟨w, hw, r0, e⟩ := step p q u hp hq h1 h2
        have := Tri.edge_out_unique (I.nondeg p hp) h1 hu'
        subst this
        have := Tri.edge_out_unique (I.nondeg q hq) hw hw'
        subst this
        have ap : mA.HA (pd.pair a u) := (I.pair_ok _ _ (I.pair_edge hp h1)).1
        rw [← e, ← sigT _ ap r0]
        exact Conn.step (C.alT ap)
      | refl p =>
        refine ⟨Iff.rfl, ?_⟩
        intro u' w' hp _ hu' hw'
        have := Tri.edge_out_unique (I.nondeg p hp) hu' hw'
        subst this
        exact Conn.refl _
      | symm p q _ ih => exact ⟨ih.1.symm, fun u' w' hp hq hu' hw' => (ih.2 w' u' hq hp hw' hu').symm⟩
      | trans p q r _ _ ih1 ih2 =>
        refine ⟨ih1.1.trans ih2.1, ?_⟩
        intro u' w' hp hr hu' hw'
        obtain ⟨hq, hqa⟩ := ih1.1.1 ⟨hp, (Tri.edge_has hu').1⟩
        obtain ⟨x, hx⟩ := Tri.edge_out a hqa
        exact (ih1.2 u' x hp hq hu' hx).trans (ih2.2 x w' hq hr hx hw')
    have c2 := (key t r hfan).2 u w ht hr hu hw
    rw [← e1, ← e2] at c2
    rw [pm.mem_orbit as]
    exact (hc.trans c2).exists_iter pm as

end TinyMesh
