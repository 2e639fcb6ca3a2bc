import Verif.Model.Tests
import Verif.Proof.Indices
import Verif.Proof.Examples
import Verif.Proof.Works
import Verif.Proof.SmoothB
/-
The tests of the library on arbitrary meshes.
-/
namespace TinyMesh
open Orbit

section
variable {F : Type} {m : Mesh F}

/-- the loop of a face with three sides -/
theorem Mesh.WF.three_orbit (w : m.WF) {f : Nat} (a : m.fAlive f = true) (h : m.sides f = 3) :
    orbit m.hNext (m.fHe f) = [m.fHe f, m.hNext (m.fHe f), m.hNext (m.hNext (m.fHe f))] := by
  have p3 : period m.hNext (m.fHe f) = 3 := by
    have := w.loop_length a
    rw [h] at this
    simpa [orbit] using this
  unfold orbit
  rw [p3]; rfl

/-- a mesh with a face has vertices and half-edges, and conversely -/
theorem Mesh.WF.none_empty (w : m.WF) : (m.fs ≠ [] ↔ m.hes ≠ []) ∧ (m.vs ≠ [] ↔ m.hes ≠ []) := by
  refine ⟨⟨fun h => ?_, fun h => ?_⟩, ⟨fun h => ?_, fun h => ?_⟩⟩ <;> obtain ⟨x, hx⟩ := List.exists_mem_of_ne_nil _ h
  · exact List.ne_nil_of_mem ((w.hDense.mem _).2 (w.fHe_ok x ((w.fDense.mem x).1 hx)).1)
  · exact List.ne_nil_of_mem ((w.fDense.mem _).2 (w.face_alive x ((w.hDense.mem x).1 hx)))
  · exact List.ne_nil_of_mem ((w.hDense.mem _).2 (w.vHe_ok x ((w.vDense.mem x).1 hx)).1)
  · exact List.ne_nil_of_mem ((w.vDense.mem _).2 (w.src_alive x ((w.hDense.mem x).1 hx)))

/-- every vertex has an edge -/
theorem Mesh.WF.outDeg_pos (w : m.WF) {v : Nat} (a : m.vAlive v = true) : 0 < m.outDeg v := by
  obtain ⟨h, e⟩ := w.vHe_ok v a
  exact List.countP_pos_iff.2 ⟨m.vHe v, (w.hDense.mem _).2 h, by simp [e]⟩

end

section
variable {F : Type} [ScalarX F] {m : Mesh F}

theorem Mesh.WF.toTriangle_ok (w : m.WF) {f : Nat} (a : m.fAlive f = true) (h : m.sides f = 3) :
    toTriangle f m = .ok ⟨m.vPos (m.hSrc (m.fHe f)), m.vPos (m.hSrc (m.hNext (m.fHe f))),
      m.vPos (m.hSrc (m.hNext (m.hNext (m.fHe f))))⟩ m := by
  have a0 := (w.fHe_ok f a).1
  have a1 := w.next_alive _ a0
  unfold toTriangle
  rw [bind_apply, w.faceVerts_ok a]
  dsimp only
  rw [bind_apply, getPosList_ok, w.three_orbit a h]
  · rfl
  · rw [w.three_orbit a h]
    intro v hv
    simp only [List.map_cons, List.map_nil, List.mem_cons, List.not_mem_nil, or_false] at hv
    rcases hv with rfl | rfl | rfl
    · exact w.src_alive _ a0
    · exact w.src_alive _ a1
    · exact w.src_alive _ (w.next_alive _ a1)

theorem Mesh.WF.toTriangle_abort (w : m.WF) {f : Nat} (a : m.fAlive f = true) (h : m.sides f ≠ 3) : toTriangle f m = .err .abort := by
  unfold toTriangle
  rw [bind_apply, w.faceVerts_ok a]
  dsimp only
  rw [bind_apply, getPosList_ok]
  · dsimp only
    have hl : (List.map m.vPos (List.map m.hSrc (orbit m.hNext (m.fHe f)))).length ≠ 3 := by
      simpa [w.loop_length a] using h
    generalize List.map m.vPos (List.map m.hSrc (orbit m.hNext (m.fHe f))) = l at hl
    match l, hl with
    | [], _ => rfl
    | [_], _ => rfl
    | [_, _], _ => rfl
    | [_, _, _], h => simp at h
    | _ :: _ :: _ :: _ :: _, _ => rfl
  · intro v hv
    obtain ⟨h, hh, rfl⟩ := List.mem_map.1 hv
    exact w.src_alive _ ((w.mem_loop a).1 hh).1

theorem Mesh.WF.checkDegrees_ok (w : m.WF) : ∀ l : List Nat, (∀ i ∈ l, i < m.vs.length) → checkDegrees l m = .ok true m
  | [], _ => rfl
  | i :: l, h => by
    have hi := h i (by simp)
    have e : m.vs[i]? = some m.vs[i] := List.getElem?_eq_getElem hi
    have a := (w.vDense.mem _).1 (List.getElem_mem hi)
    unfold checkDegrees
    rw [bind_apply, vertexAt_ok e]
    dsimp only
    rw [bind_apply, w.degree_ok a]
    dsimp only
    rw [bind_apply, w.checkDegrees_ok l fun j hj => h j (by simp [hj])]
    simp [w.outDeg_pos a]

end

/-- the loop of the test computes the smallest distance -/
theorem nearest_ok {m : Mesh XR} (w : m.WF) (h3 : ∀ f, m.fAlive f = true → m.sides f = 3) {p : Nat → Vec3 ℝ} (hp : m.At p) (q : Vec3 ℝ) :
    ∀ (l : List Nat) (r : ℝ), (∀ i ∈ l, i < m.fs.length) →
      nearestLoop q.fin l (.fin r) m = .ok (.fin (l.foldl (fun r i => min r ((m.faceTri p (m.fs.getD i 0)).distance q)) r)) m
  | [], r, _ => rfl
  | i :: l, r, h => by
    have hi := h i (by simp)
    have e : m.fs[i]? = some m.fs[i] := List.getElem?_eq_getElem hi
    have a := (w.fDense.mem _).1 (List.getElem_mem hi)
    have a0 := (w.fHe_ok _ a).1
    have a1 := w.next_alive _ a0
    unfold nearestLoop
    rw [bind_apply, faceAt_ok e]
    dsimp only
    rw [bind_apply, w.toTriangle_ok a (h3 _ a)]
    dsimp only
    rw [hp _ (w.src_alive _ a0), hp _ (w.src_alive _ a1), hp _ (w.src_alive _ (w.next_alive _ a1))]
    have ed : (m.faceTri p m.fs[i]).fin.distance q.fin = .fin ((m.faceTri p m.fs[i]).distance q) := by
      unfold Triangle.distance
      rw [Triangle.closest_fin, Vec3.X_vsub, Vec3.X_vlength]
    have ih := nearest_ok w h3 hp q l (min r ((m.faceTri p (m.fs.getD i 0)).distance q)) fun j hj => h j (by simp [hj])
    rw [List.foldl_cons, ← ih]
    congr 1
    have eg : m.fs.getD i 0 = m.fs[i] := by simp [List.getD, e]
    rw [eg]
    change (if Scalar.lt ((m.faceTri p m.fs[i]).fin.distance q.fin) (XR.fin r) = true then (m.faceTri p m.fs[i]).fin.distance q.fin else XR.fin r) = _
    rw [ed, X_lt]
    split
    · next k => rw [min_eq_right (of_decide_eq_true k).le]
    · next k => rw [min_eq_left (not_lt.1 fun k' => k (decide_eq_true k'))]

theorem foldr_min (a : ℝ) : ∀ (l : List ℝ) (r : ℝ), l.foldr min (min r a) = min a (l.foldr min r)
  | [], r => min_comm _ _
  | x :: l, r => by
    rw [List.foldr_cons, List.foldr_cons, foldr_min a l r, min_left_comm]

theorem foldl_min {α : Type} (g : α → ℝ) : ∀ (l : List α) (r : ℝ), l.foldl (fun r i => min r (g i)) r = (l.map g).foldr min r
  | [], _ => rfl
  | x :: l, r => by
    rw [List.foldl_cons, foldl_min g l, List.map_cons, List.foldr_cons, foldr_min]

/-- what the query of the tree returns -/
theorem bvhOfMesh_ok {lib : Lib XR} (std : lib.Std) {m : Mesh XR} (w : m.WF) (tri : m.TriOrHole) {p : Nat → Vec3 ℝ} (hp : m.At p)
    (near : ∀ v, m.vAlive v = true → (p v).Near) (hne : m.trisR p ≠ []) {q : Vec3 ℝ} (hq : q.Near) :
    bvhOfMesh lib q.fin m = .ok (.fin (minD (m.trisR p) q)) ∧
      ∃ t ∈ m.trisR p, minD (m.trisR p) q = t.distance q ∧ ∀ t' ∈ m.trisR p, t.distance q ≤ t'.distance q := by
  obtain ⟨s, r⟩ := w.soup_ok tri hp
  have near' : ∀ x ∈ (m.soupR p).pos, x.Near := by
    intro x hx
    obtain ⟨v, hv, rfl⟩ := List.mem_map.1 hx
    exact near v ((w.vDense.mem v).1 hv)
  obtain ⟨root, e, -, h⟩ := bvh_build std r.inRange.1 r.inRange.2 r.readTris
  obtain ⟨hb, hl⟩ := h hne
  obtain ⟨t0, h0⟩ := List.exists_mem_of_ne_nil _ hne
  obtain ⟨m0, m1, m2⟩ := r.mem h0
  have nd := near_dist (near' _ m0) (near' _ m1) (near' _ m2) hq
  obtain ⟨t, ht, -, e2, le⟩ := bvh_query hb (fun i hi => hl.mem_iff.2 (List.mem_range.2 hi)) q ⟨t0, h0, nd⟩
  have em := minD_eq ht ((le t0 h0).trans nd.le) le
  refine ⟨?_, t, ht, em, le⟩
  unfold bvhOfMesh
  rw [s]
  simp only [bind, Except.bind]
  have e' : bvhConstruct lib (m.soupR p).fin.pos (m.soupR p).fin.idx = .ok ⟨root, (m.trisR p).map Triangle.fin⟩ := e
  rw [e']
  simp only
  rw [e2, em]

theorem expectNear_self (x : ℝ) : expectNear (XR.fin x) (XR.fin x) = true := by
  unfold expectNear
  rw [X_sub, X_abs, X_lit, X_le, sub_self, abs_zero]
  exact decide_eq_true (by rw [R_lit]; norm_num)

end TinyMesh
