import Verif.Proof.ConN
import Verif.Proof.ConL
import Verif.Proof.Query
import Verif.Spec.Counts
/-
The half-edges of a mesh that has been built, by the directed edges of the triangles.
-/
namespace TinyMesh
open Orbit
variable {F : Type} {m m' m0 : Mesh F}

/-- `arc a b` is the half-edge of the triangle that runs from `a` to `b` -/
structure Arcs (m : Mesh F) (K : List Tri) (arc : Nat → Nat → Nat) : Prop where
  ok : ∀ a b, EdgeOf K a b → m.hAlive (arc a b) = true ∧ m.vs[a]? = some (m.hSrc (arc a b)) ∧
    m.vs[b]? = some (m.hSrc (m.hNext (arc a b))) ∧ (m.hBd (arc a b) = true ↔ ¬ EdgeOf K b a)
  all : ∀ h, m.hAlive h = true → (∃ a b, EdgeOf K a b ∧ h = arc a b) ∨
    (m.hBd h = true ∧ ∃ a b, EdgeOf K a b ∧ ¬ EdgeOf K b a ∧ m.hRev h = arc a b)
  faces : ∀ (i : Nat) (t : Tri), K[i]? = some t → ∃ f, m.fs[i]? = some f ∧ m.fHe f = arc t.c t.a ∧ m.hNext (arc t.c t.a) = arc t.a t.b ∧
    m.hNext (arc t.a t.b) = arc t.b t.c ∧ m.hNext (arc t.b t.c) = arc t.c t.a
  holes : ∀ (i f : Nat), K.length ≤ i → m.fs[i]? = some f → m.HoleFace f
  len : K.length ≤ m.fs.length
  hlen : m.hes.length = 3 * K.length + boundaryCount K

theorem Closed.nBnd_ge {g : Nat → Nat} (C : Closed m0 g m) : m.hFresh - m0.hFresh ≤ m0.nBnd := by
  have e : m.hFresh - m0.hFresh = ((List.range' m0.hFresh (m.hFresh - m0.hFresh)).map m.hRev).length := by simp
  unfold Mesh.nBnd
  rw [e, List.countP_eq_length_filter]
  refine (List.subperm_of_subset ?_ fun x hx => ?_).length_le
  · refine List.Nodup.map_on (fun x hx y hy e => ?_) List.nodup_range'
    rw [List.mem_range'_1] at hx hy
    have h1 := (C.holeRev x hx.1 (by omega)).2.1
    have h2 := (C.holeRev y hy.1 (by omega)).2.1
    rw [← h1, ← h2, e]
  · obtain ⟨y, hy, rfl⟩ := List.mem_map.1 hx
    rw [List.mem_range'_1] at hy
    obtain ⟨h1, h2⟩ := (C.holeRev y hy.1 (by omega)).1
    exact List.mem_filter.2 ⟨(C.T.hd.mem _).2 h1, by simpa using h2⟩

theorem Built.arcs {ts K : List Tri} (B : Built m0 ts K m) : ∃ arc, Arcs m K arc := by
  obtain ⟨mA, pd, V0, g, mC, V, I, hvs, C, rfl⟩ := B.phases
  have w := B.good.wf
  have hfs : mC.fs = mA.fs ++ List.range' mA.fFresh (mC.fFresh - mA.fFresh) := C.fs
  have ed : ∀ a b, EdgeOf K a b ↔ pd.pair a b ≠ 0 := by
    intro a b
    rw [I.pair_iff]
    simp [EdgeOf, Tri.mem_edges]
  refine ⟨pd.pair, ⟨fun a b h => ?_, fun h ah => ?_, fun i t hi => ?_, fun i f hi hf => ?_, ?_, ?_⟩⟩
  · rw [ed] at h
    obtain ⟨al, h1, h2, -⟩ := I.pair_ok a b h
    have hr := I.rev_pair h
    refine ⟨C.alT al, ?_, ?_, ?_⟩
    · show mC.vs[a]? = some (mC.hSrc _)
      rw [C.vs, C.sT _ al]; exact h1
    · show mC.vs[b]? = some (mC.hSrc (mC.hNext _))
      rw [C.vs, C.nT _ al, C.sT _ (I.next_alive _ al)]; exact h2
    · show mC.hBd _ = true ↔ _
      rw [ed, not_not]
      constructor
      · intro hb
        by_contra h'
        have := (C.rT _ al (by show mA.hRev _ ≠ 0; rw [hr]; exact h')).2
        rw [this] at hb; cases hb
      · intro h'
        exact (C.bnd_rev ⟨al, by show mA.hRev _ = 0; rw [hr, h']⟩).2.2.2
  · rcases (C.hal h).1 ah with h1 | ⟨h1, h2⟩
    · left
      obtain ⟨a, b, e, -⟩ := I.pair_all h h1
      exact ⟨a, b, (ed a b).2 (by rw [e]; have := (I.hB h h1).1; omega), e.symm⟩
    · right
      obtain ⟨⟨al, hb⟩, -, hB, -⟩ := C.holeRev h h1 h2
      obtain ⟨a, b, e, hr⟩ := I.pair_all _ al
      refine ⟨hB, a, b, (ed a b).2 (by rw [e]; have := (I.hB _ al).1; omega), fun h' => (ed b a).1 h' ?_, e.symm⟩
      rw [← hr]; exact hb
  · have hiK : i < K.length := (List.getElem?_eq_some_iff.1 hi).1
    have hiA : i < mA.fs.length := by rw [I.len]; exact hiK
    have htm : t ∈ K := List.mem_of_getElem? hi
    obtain ⟨g1, g2, g3⟩ := I.faces i hiA t hi
    have p1 := I.pair_edge htm (Or.inl ⟨rfl, rfl⟩)
    have p2 := I.pair_edge htm (Or.inr (Or.inl ⟨rfl, rfl⟩))
    have p3 := I.pair_edge htm (Or.inr (Or.inr ⟨rfl, rfl⟩))
    have a1 := (I.pair_ok _ _ p1).1
    have a2 := (I.pair_ok _ _ p2).1
    have a3 := (I.pair_ok _ _ p3).1
    refine ⟨mA.fs[i], ?_, ?_, ?_, ?_, ?_⟩
    · show mC.fs[i]? = _
      rw [hfs, List.getElem?_append_left hiA, List.getElem?_eq_getElem hiA]
    · show mC.fHe _ = _
      rw [C.fOld _ ((I.fd.mem _).1 (List.getElem_mem hiA))]; exact g1
    · show mC.hNext _ = _
      rw [C.nT _ a3]; exact g2
    · show mC.hNext _ = _
      rw [C.nT _ a1]; exact g3
    · show mC.hNext _ = _
      rw [C.nT _ a2]
      exact I.next_pair htm (Or.inr (Or.inl ⟨rfl, rfl⟩)) (Or.inr (Or.inr ⟨rfl, rfl⟩))
  · intro x ax fx
    have ax : mC.HA x := ax
    have fx : mC.hFace x = f := fx
    have hf : mC.fs[i]? = some f := hf
    rw [hfs, List.getElem?_append_right (by rw [I.len]; exact hi)] at hf
    have := List.mem_of_getElem? hf
    rw [List.mem_range'_1] at this
    rcases (C.hal x).1 ax with h1 | ⟨h1, h2⟩
    · have h1 : mA.HA x := h1
      rw [C.fT x h1] at fx
      have := (I.fB _ (I.face_alive x h1)).2
      have fx : mA.hFace x = f := fx
      omega
    · exact (C.holeRev x h1 h2).2.2.1
  · show K.length ≤ mC.fs.length
    rw [hfs, List.length_append, I.len]; omega
  · show mC.hes.length = _
    rw [C.hes, List.length_append, List.length_range']
    have h1 := C.nBnd_le
    have h2 := C.nBnd_ge
    have h3 : ({ mA with vHe := V0 } : Mesh F).nBnd = boundaryCount K := I.nBnd_eq
    have h4 : ({ mA with vHe := V0 } : Mesh F).hes.length = 3 * K.length := I.hlen
    omega

namespace Arcs
variable {K : List Tri} {arc : Nat → Nat → Nat} (A : Arcs m K arc) (w : m.WF)
include A w

theorem idx {a b v : Nat} (ha : m.vs[a]? = some v) (hb : m.vs[b]? = some v) : a = b := by
  obtain ⟨h1, e1⟩ := List.getElem?_eq_some_iff.1 ha
  obtain ⟨h2, e2⟩ := List.getElem?_eq_some_iff.1 hb
  exact (w.vDense.nodup.getElem_inj_iff).1 (e1.trans e2.symm)

/-- ends of a half-edge -/
theorem ends {h : Nat} (ah : m.hAlive h = true) : ∃ a b, (EdgeOf K a b ∨ EdgeOf K b a) ∧ m.vs[a]? = some (m.hSrc h) ∧
    m.vs[b]? = some (m.hSrc (m.hNext h)) ∧ (m.hBd h = true ↔ ¬ (EdgeOf K a b ∧ EdgeOf K b a)) := by
  rcases A.all h ah with ⟨a, b, e, rfl⟩ | ⟨hb, a, b, e, ne, hr⟩
  · obtain ⟨-, h1, h2, h3⟩ := A.ok a b e
    exact ⟨a, b, Or.inl e, h1, h2, h3.trans ⟨fun n k => n k.2, fun n k => n ⟨e, k⟩⟩⟩
  · obtain ⟨al, h1, h2, -⟩ := A.ok a b e
    have ar := w.rev_alive _ ah
    refine ⟨b, a, Or.inr e, ?_, ?_, iff_of_true hb fun k => ne k.1⟩
    · rw [h2, ← hr, ← w.src_rev _ ar, w.rev_rev _ ah]
    · rw [h1, ← hr, w.src_rev _ ah]

theorem joined {a b u v : Nat} (ha : m.vs[a]? = some u) (hb : m.vs[b]? = some v) : m.Joined u v ↔ EdgeOf K a b ∨ EdgeOf K b a := by
  constructor
  · rintro ⟨h, ah, rfl, rfl⟩
    obtain ⟨a', b', e, h1, h2, -⟩ := A.ends w ah
    rw [A.idx w ha h1, A.idx w hb h2]
    exact e
  · rintro (e | e)
    · obtain ⟨al, h1, h2, -⟩ := A.ok a b e
      rw [ha] at h1; rw [hb] at h2
      exact ⟨_, al, (Option.some.inj h1).symm, (Option.some.inj h2).symm⟩
    · obtain ⟨al, h1, h2, -⟩ := A.ok b a e
      rw [hb] at h1; rw [ha] at h2
      refine ⟨m.hRev (arc b a), w.rev_alive _ al, ?_, ?_⟩
      · rw [w.src_rev _ al]; exact (Option.some.inj h2).symm
      · rw [← w.src_rev _ (w.rev_alive _ al), w.rev_rev _ al]; exact (Option.some.inj h1).symm

theorem rim {a v : Nat} (ha : m.vs[a]? = some v) : (∃ h, m.hAlive h = true ∧ m.hSrc h = v ∧ m.hBd h = true) ↔ OnRim K a := by
  constructor
  · rintro ⟨h, ah, rfl, hb⟩
    obtain ⟨a', b, e, h1, -, h3⟩ := A.ends w ah
    obtain rfl := A.idx w ha h1
    have := h3.1 hb
    refine ⟨b, ?_⟩
    tauto
  · rintro ⟨b, ⟨e, ne⟩ | ⟨e, ne⟩⟩
    · obtain ⟨al, h1, -, h3⟩ := A.ok a b e
      rw [ha] at h1
      exact ⟨_, al, (Option.some.inj h1).symm, h3.2 ne⟩
    · obtain ⟨al, -, h2, h3⟩ := A.ok b a e
      rw [ha] at h2
      have hb := h3.2 ne
      have ar := w.rev_alive _ al
      refine ⟨m.hRev (arc b a), ar, by rw [w.src_rev _ al]; exact (Option.some.inj h2).symm, ?_⟩
      obtain ⟨x, y, -, k1, k2, k3⟩ := A.ends w ar
      obtain ⟨x', y', -, l1, l2, l3⟩ := A.ends w al
      rw [w.src_rev _ al] at k1
      rw [← w.src_rev _ ar, w.rev_rev _ al] at k2
      obtain rfl := A.idx w k1 l2
      obtain rfl := A.idx w k2 l1
      rw [k3]
      have := l3.1 hb
      tauto

theorem together {a b u v : Nat} (ha : m.vs[a]? = some u) (hb : m.vs[b]? = some v) :
    m.Together u v ↔ Relation.EqvGen (EdgeOf K) a b := by
  constructor
  · intro h
    have key : ∀ u v, m.Together u v → u = v ∨ ∃ a b, m.vs[a]? = some u ∧ m.vs[b]? = some v ∧ Relation.EqvGen (EdgeOf K) a b := by
      intro u v h
      induction h with
      | rel x y h =>
        obtain ⟨h, ah, rfl, rfl⟩ := h
        obtain ⟨a, b, e, h1, h2, -⟩ := A.ends w ah
        refine Or.inr ⟨a, b, h1, h2, ?_⟩
        rcases e with e | e
        · exact .rel _ _ e
        · exact .symm _ _ (.rel _ _ e)
      | refl x => exact Or.inl rfl
      | symm x y _ ih =>
        rcases ih with rfl | ⟨a, b, h1, h2, h3⟩
        · exact Or.inl rfl
        · exact Or.inr ⟨b, a, h2, h1, .symm _ _ h3⟩
      | trans x y z _ _ ih ih' =>
        rcases ih with rfl | ⟨a, b, h1, h2, h3⟩
        · exact ih'
        · rcases ih' with rfl | ⟨c, d, h4, h5, h6⟩
          · exact Or.inr ⟨a, b, h1, h2, h3⟩
          · obtain rfl := A.idx w h2 h4
            exact Or.inr ⟨a, d, h1, h5, .trans _ _ _ h3 h6⟩
    rcases key u v h with rfl | ⟨a', b', h1, h2, h3⟩
    · rw [A.idx w ha hb]; exact .refl _
    · rw [A.idx w ha h1, A.idx w hb h2]; exact h3
  · intro h
    have key : ∀ a b, Relation.EqvGen (EdgeOf K) a b → a = b ∨ ∃ u v, m.vs[a]? = some u ∧ m.vs[b]? = some v ∧ m.Together u v := by
      intro a b h
      induction h with
      | rel x y h =>
        obtain ⟨al, h1, h2, -⟩ := A.ok x y h
        exact Or.inr ⟨_, _, h1, h2, .rel _ _ ⟨_, al, rfl, rfl⟩⟩
      | refl x => exact Or.inl rfl
      | symm x y _ ih =>
        rcases ih with rfl | ⟨a, b, h1, h2, h3⟩
        · exact Or.inl rfl
        · exact Or.inr ⟨b, a, h2, h1, .symm _ _ h3⟩
      | trans x y z _ _ ih ih' =>
        rcases ih with rfl | ⟨a, b, h1, h2, h3⟩
        · exact ih'
        · rcases ih' with rfl | ⟨c, d, h4, h5, h6⟩
          · exact Or.inr ⟨a, b, h1, h2, h3⟩
          · rw [h2] at h4
            cases Option.some.inj h4
            exact Or.inr ⟨a, d, h1, h5, .trans _ _ _ h3 h6⟩
    rcases key a b h with rfl | ⟨u', v', h1, h2, h3⟩
    · rw [ha] at hb
      cases Option.some.inj hb
      exact .refl _
    · rw [ha] at h1; rw [hb] at h2
      cases Option.some.inj h1
      cases Option.some.inj h2
      exact h3

open Classical in
theorem degree (s : m.Simple) {a v : Nat} (ha : m.vs[a]? = some v) :
    m.outDeg v = ((Finset.range m.vs.length).filter fun b => EdgeOf K a b ∨ EdgeOf K b a).card := by
  have e : m.outDeg v = (m.hes.filter fun h => m.hSrc h == v).toFinset.card := by
    rw [List.toFinset_card_of_nodup (w.hDense.nodup.filter _), Mesh.outDeg, List.countP_eq_length_filter]
  have hx : ∀ x, m.vAlive x = true → m.vs[m.vs.idxOf x]? = some x := fun x ax => by
    have := (w.vDense.mem x).2 ax
    rw [List.getElem?_eq_getElem (List.idxOf_lt_length_iff.2 this), List.getElem_idxOf]
  rw [e]
  refine Finset.card_bij (fun h _ => m.vs.idxOf (m.hSrc (m.hNext h))) ?_ ?_ ?_
  · intro h hh
    rw [List.mem_toFinset, List.mem_filter, w.hDense.mem] at hh
    have at' := w.src_alive _ (w.next_alive _ hh.1)
    rw [Finset.mem_filter, Finset.mem_range]
    have k := hx _ at'
    exact ⟨(List.getElem?_eq_some_iff.1 k).1, (A.joined w ha k).1 ⟨h, hh.1, by simpa using hh.2, rfl⟩⟩
  · intro h hh h' hh' e
    rw [List.mem_toFinset, List.mem_filter, w.hDense.mem] at hh hh'
    have k := hx _ (w.src_alive _ (w.next_alive _ hh.1))
    have k' := hx _ (w.src_alive _ (w.next_alive _ hh'.1))
    rw [e, k'] at k
    have h2 := hh.2
    have h2' := hh'.2
    simp only [beq_iff_eq] at h2 h2'
    exact s.no_dup h h' hh.1 hh'.1 (h2.trans h2'.symm) (Option.some.inj k).symm
  · intro b hb
    rw [Finset.mem_filter, Finset.mem_range] at hb
    obtain ⟨h, ah, h1, h2⟩ := (A.joined w ha (List.getElem?_eq_getElem hb.1)).2 hb.2
    refine ⟨h, by rw [List.mem_toFinset, List.mem_filter, w.hDense.mem]; exact ⟨ah, by simpa using h1⟩, ?_⟩
    rw [h2]
    exact w.vDense.nodup.idxOf_getElem b hb.1

end Arcs
end TinyMesh
