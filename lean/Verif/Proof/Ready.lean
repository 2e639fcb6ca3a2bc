import Verif.Props.Built
import Verif.Spec.Start
/-
The rim of a triangle list, and the holes of a mesh that has been built.
-/
namespace TinyMesh
open Relation
section
variable {K : List Tri}

theorem edges_unique (nd : (K.flatMap Tri.edges).Nodup) {t s : Tri} (ht : t ∈ K) (hs : s ∈ K) {e : Nat × Nat} (h1 : e ∈ t.edges) (h2 : e ∈ s.edges) : t = s := by
  induction K with
  | nil => cases ht
  | cons x K ih =>
    rw [List.flatMap_cons, List.nodup_append] at nd
    obtain ⟨-, n2, n3⟩ := nd
    rcases List.mem_cons.1 ht with rfl | kt <;> rcases List.mem_cons.1 hs with rfl | ks
    · rfl
    · exact absurd rfl (n3 e h1 e (List.mem_flatMap.2 ⟨s, ks, h2⟩))
    · exact absurd rfl (n3 e h2 e (List.mem_flatMap.2 ⟨t, kt, h1⟩))
    · exact ih n2 kt ks

theorem Tri.into_unique {t : Tri} (p : t.proper) {u u' v : Nat} (h : (u, v) ∈ t.edges) (h' : (u', v) ∈ t.edges) : u = u' := by
  obtain ⟨p1, p2, p3⟩ := p
  simp only [Tri.edges, List.mem_cons, List.not_mem_nil, or_false, Prod.mk.injEq] at h h'
  rcases h with ⟨rfl, rfl⟩ | ⟨rfl, rfl⟩ | ⟨rfl, rfl⟩ <;> rcases h' with ⟨h1, h2⟩ | ⟨h1, h2⟩ | ⟨h1, h2⟩ <;> simp_all

theorem Tri.has_snd {t : Tri} {u v : Nat} (h : (u, v) ∈ t.edges) : t.has v := by
  simp only [Tri.edges, List.mem_cons, List.not_mem_nil, or_false, Prod.mk.injEq] at h
  unfold Tri.has
  rcases h with ⟨-, rfl⟩ | ⟨-, rfl⟩ | ⟨-, rfl⟩ <;> simp

/-- around a vertex of a manifold triangle list there is at most one free edge that leads to it -/
theorem Manifold.rim_unique (M : Manifold K) {a b v : Nat} (ha : EdgeOf K a v) (na : ¬EdgeOf K v a) (hb : EdgeOf K b v) (nb : ¬EdgeOf K v b) : a = b := by
  obtain ⟨t, ht, e⟩ := ha
  obtain ⟨s, hs, e'⟩ := hb
  have none : ∀ {t u}, t ∈ K → (u, v) ∈ t.edges → ¬EdgeOf K v u → ∀ x, ¬FanStep K v x t := by
    rintro t u ht e nu x ⟨hx, -, u', h1, h2⟩
    exact nu (Tri.into_unique (M.proper t ht) h2 e ▸ ⟨x, hx, h1⟩)
  have uniq : ∀ {x x' y}, FanStep K v x y → FanStep K v x' y → x = x' := by
    rintro x x' y ⟨hx, hy, u, h1, h2⟩ ⟨hx', -, u', h1', h2'⟩
    cases Tri.into_unique (M.proper y hy) h2 h2'
    exact edges_unique M.edges hx hx' h1 h1'
  have key : ∀ x y, EqvGen (FanStep K v) x y → (ReflTransGen (FanStep K v) t x ↔ ReflTransGen (FanStep K v) t y) := by
    intro x y h
    induction h with
    | rel x y h =>
      refine ⟨fun k => k.tail h, fun k => ?_⟩
      rcases k.cases_tail with k | ⟨z, k, k'⟩
      · exact absurd (k ▸ h) (none ht e na x)
      · exact uniq h k' ▸ k
    | refl x => exact Iff.rfl
    | symm x y _ ih => exact ih.symm
    | trans x y z _ _ i j => exact i.trans j
  have st := (key t s (M.fan v t s ht hs (Tri.has_snd e) (Tri.has_snd e'))).1 .refl
  rcases st.cases_tail with k | ⟨z, -, k⟩
  · exact Tri.into_unique (M.proper s hs) (k ▸ e) e'
  · exact absurd k (none hs e' nb z)

theorem isolated_iff {t : Tri} : t.isolated K = true ↔ ∀ e ∈ t.edges, ¬EdgeOf K e.2 e.1 := by
  unfold Tri.isolated EdgeOf
  simp [List.all_eq_true]

end

section
variable {F : Type} [Scalar F] {m : Mesh F} {K : List Tri} {arc : Nat → Nat → Nat}

omit [Scalar F] in
/-- the half-edges of the face of a triangle -/
theorem Arcs.loop (A : Arcs m K arc) (g : m.Good) {i f : Nat} {t : Tri} (hi : K[i]? = some t) (hf : m.fs[i]? = some f) :
    ∀ x, m.hAlive x = true ∧ m.hFace x = f ↔ x = arc t.a t.b ∨ x = arc t.b t.c ∨ x = arc t.c t.a := by
  have w := g.wf
  have tm : t ∈ K := List.mem_of_getElem? hi
  obtain ⟨f', hf', k0, k1, k2, k3⟩ := A.faces i t hi
  rw [hf] at hf'
  cases hf'
  have af := (w.fDense.mem f).1 (List.mem_of_getElem? hf)
  obtain ⟨a1, -⟩ := A.ok t.a t.b ⟨t, tm, by simp [Tri.edges]⟩
  obtain ⟨a2, -⟩ := A.ok t.b t.c ⟨t, tm, by simp [Tri.edges]⟩
  obtain ⟨a3, -⟩ := A.ok t.c t.a ⟨t, tm, by simp [Tri.edges]⟩
  have f3 : m.hFace (arc t.c t.a) = f := by rw [← k0]; exact (w.fHe_ok f af).2
  have f1 : m.hFace (arc t.a t.b) = f := by rw [← k1, w.face_next _ a3, f3]
  have f2 : m.hFace (arc t.b t.c) = f := by rw [← k2, w.face_next _ a1, f1]
  intro x
  constructor
  · rintro ⟨ax, fx⟩
    obtain ⟨n, rfl⟩ := w.face_conn _ x a3 ax (f3.trans fx.symm)
    clear ax fx
    induction n with
    | zero => simp
    | succ n ih =>
      rw [Function.iterate_succ_apply']
      rcases ih with h | h | h <;> rw [h] <;> simp [k1, k2, k3]
  · rintro (rfl | rfl | rfl)
    · exact ⟨a1, f1⟩
    · exact ⟨a2, f2⟩
    · exact ⟨a3, f3⟩

omit [Scalar F] in
/-- a face is the face of a triangle, or a hole none of whose half-edges belongs to a triangle -/
theorem Arcs.kind (A : Arcs m K arc) (g : m.Good) {f : Nat} (af : m.fAlive f = true) :
    (∃ (i : Nat) (t : Tri), K[i]? = some t ∧ m.fs[i]? = some f) ∨ (m.HoleFace f ∧ ∀ a b, EdgeOf K a b → m.hFace (arc a b) ≠ f) := by
  obtain ⟨i, hi, e⟩ := List.mem_iff_getElem.1 ((g.wf.fDense.mem f).2 af)
  have hf : m.fs[i]? = some f := by rw [List.getElem?_eq_getElem hi, e]
  by_cases hk : i < K.length
  · exact .inl ⟨i, K[i], List.getElem?_eq_getElem hk, hf⟩
  · refine .inr ⟨A.holes i f (by omega) hf, ?_⟩
    rintro a b ⟨t, ht, e'⟩ ef
    obtain ⟨j, hj, e2⟩ := List.mem_iff_getElem.1 ht
    have hj' : K[j]? = some t := by rw [List.getElem?_eq_getElem hj, e2]
    obtain ⟨f', hf', -⟩ := A.faces j t hj'
    have : m.hFace (arc a b) = f' := by
      refine ((A.loop g hj' hf' _).2 ?_).2
      simp only [Tri.edges, List.mem_cons, List.not_mem_nil, or_false, Prod.mk.injEq] at e'
      rcases e' with ⟨rfl, rfl⟩ | ⟨rfl, rfl⟩ | ⟨rfl, rfl⟩ <;> simp
    rw [this] at ef
    subst ef
    have := g.wf.fDense.nodup.getElem_inj_iff (hi := hi) (hj := (List.getElem?_eq_some_iff.1 hf').1) |>.1 (by rw [e]; exact (List.getElem?_eq_some_iff.1 hf').2.symm)
    omega

omit [Scalar F] in
theorem Arcs.hole_iff (A : Arcs m K arc) (g : m.Good) {i f : Nat} {t : Tri} (hi : K[i]? = some t) (hf : m.fs[i]? = some f) :
    m.HoleFace f ↔ t.isolated K = true := by
  have tm : t ∈ K := List.mem_of_getElem? hi
  have L := A.loop g hi hf
  rw [isolated_iff]
  constructor
  · intro H e he
    have b := (A.ok e.1 e.2 ⟨t, tm, he⟩).2.2.2
    refine b.1 ?_
    simp only [Tri.edges, List.mem_cons, List.not_mem_nil, or_false] at he
    have := (L (arc e.1 e.2)).2 (by rcases he with rfl | rfl | rfl <;> simp)
    exact H _ this.1 this.2
  · intro H x ax fx
    rcases (L x).1 ⟨ax, fx⟩ with rfl | rfl | rfl
    · exact (A.ok t.a t.b ⟨t, tm, by simp [Tri.edges]⟩).2.2.2.2 (H (t.a, t.b) (by simp [Tri.edges]))
    · exact (A.ok t.b t.c ⟨t, tm, by simp [Tri.edges]⟩).2.2.2.2 (H (t.b, t.c) (by simp [Tri.edges]))
    · exact (A.ok t.c t.a ⟨t, tm, by simp [Tri.edges]⟩).2.2.2.2 (H (t.c, t.a) (by simp [Tri.edges]))

end
end TinyMesh
