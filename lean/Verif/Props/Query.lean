import Verif.Proof.Count
import Verif.Proof.SimA
import Verif.Props.Construct
/-
C10, C11: circulators and counting.
-/
set_option maxRecDepth 100000
namespace TinyMesh
open Sample Orbit
attribute [local instance] Sample.ratScalar
variable {F : Type} {m : Mesh F}

/-- C10, vertex part: on a consistent mesh the circulator of a vertex terminates without touching invalid memory,
visits each half-edge leaving the vertex exactly once, and `degree` is their number. -/
theorem c10_vertex_circulator (w : m.WF) (v : Nat) (a : m.vAlive v = true) :
    ∃ l, ringList v m = .ok l m ∧ l.Nodup ∧ (∀ h, h ∈ l ↔ (m.hAlive h = true ∧ m.hSrc h = v)) ∧
      degree v m = .ok l.length m := by
  refine ⟨_, w.ringList_ok a, w.permSig.nodup_orbit (w.vHe_ok v a).1, fun h => w.mem_ring a, ?_⟩
  rw [w.degree_ok a, w.ring_length a]

/-- C10, face part: the circulator of a face terminates without touching invalid memory, visits each half-edge of the face
exactly once, and `numCorners` is their number. -/
theorem c10_face_circulator (w : m.WF) (f : Nat) (a : m.fAlive f = true) :
    ∃ l, faceList f m = .ok l m ∧ l.Nodup ∧ (∀ h, h ∈ l ↔ (m.hAlive h = true ∧ m.hFace h = f)) ∧
      numCorners f m = .ok l.length m := by
  refine ⟨_, w.faceList_ok a, w.permNext.nodup_orbit (w.fHe_ok f a).1, fun h => w.mem_loop a, ?_⟩
  rw [w.numCorners_ok a, w.loop_length a]

/-- C10, the elements reached by the vertex circulators: the neighbours are the ends of the half-edges leaving the vertex,
the faces are the faces of these half-edges; a vertex is visited exactly when an edge joins it to the given one, a face
exactly when it has a corner there, and on a mesh without doubled edges no neighbour is visited twice. -/
theorem c10_vertex_elements (w : m.WF) (v : Nat) (a : m.vAlive v = true) :
    ∃ l, ringList v m = .ok l m ∧ ringVerts v m = .ok (l.map (fun h => m.hSrc (m.hRev h))) m ∧
      vertFaces v m = .ok (l.map m.hFace) m ∧
      (∀ u, u ∈ l.map (fun h => m.hSrc (m.hRev h)) ↔
        ∃ h, m.hAlive h = true ∧ m.hSrc h = v ∧ m.hSrc (m.hRev h) = u) ∧
      (∀ f, f ∈ l.map m.hFace ↔ ∃ h, m.hAlive h = true ∧ m.hSrc h = v ∧ m.hFace h = f) ∧
      (m.Simple → (l.map (fun h => m.hSrc (m.hRev h))).Nodup ∧ v ∉ l.map (fun h => m.hSrc (m.hRev h))) := by
  have hm : (orbit m.sig (m.vHe v)).map (fun h => m.hSrc (m.hRev h)) =
      (orbit m.sig (m.vHe v)).map (fun x => m.hSrc (m.hNext x)) :=
    List.map_congr_left fun h hh => w.src_rev h ((w.mem_ring a).1 hh).1
  refine ⟨_, w.ringList_ok a, hm ▸ w.ringVerts_ok a, w.vertFaces_ok a, fun u => ?_, fun f => ?_, fun s => ⟨?_, ?_⟩⟩
  · simp only [List.mem_map, w.mem_ring a, and_assoc]
  · simp only [List.mem_map, w.mem_ring a, and_assoc]
  · rw [hm]
    refine List.Nodup.map_on (fun x hx y hy e => ?_) (w.permSig.nodup_orbit (w.vHe_ok v a).1)
    have hx' := (w.mem_ring a).1 hx
    have hy' := (w.mem_ring a).1 hy
    exact s.no_dup x y hx'.1 hy'.1 (hx'.2.trans hy'.2.symm) e
  · rw [hm]
    intro hv
    obtain ⟨x, hx, e⟩ := List.mem_map.1 hv
    have hx' := (w.mem_ring a).1 hx
    exact s.no_loop x hx'.1 (hx'.2.trans e.symm)

/-- C10, the order of the circulators: each half-edge leaving a vertex is followed by the one after its reverse, so that
consecutive neighbours are corners of a common face; each half-edge of a face is followed by its `next`, and the vertices
of the face are the starts of its half-edges in this order. -/
theorem c10_order (w : m.WF) :
    (∀ v, m.vAlive v = true → ∃ l, ringList v m = .ok l m ∧ l.head? = some (m.vHe v) ∧
      (∀ i, ∀ hi : i + 1 < l.length, l[i + 1] = m.hNext (m.hRev l[i]))) ∧
    (∀ f, m.fAlive f = true → ∃ l, faceList f m = .ok l m ∧ faceVerts f m = .ok (l.map m.hSrc) m ∧
      l.head? = some (m.fHe f) ∧ (∀ i, ∀ hi : i + 1 < l.length, l[i + 1] = m.hNext l[i])) := by
  refine ⟨fun v a => ⟨_, w.ringList_ok a, ?_, fun i hi => ?_⟩,
    fun f a => ⟨_, w.faceList_ok a, w.faceVerts_ok a, ?_, fun i hi => ?_⟩⟩
  · exact w.permSig.orbit_head (w.vHe_ok v a).1
  · simp only [orbit, List.getElem_map, List.getElem_range, Function.iterate_succ_apply']
    rfl
  · exact w.permNext.orbit_head (w.fHe_ok f a).1
  · simp only [orbit, List.getElem_map, List.getElem_range, Function.iterate_succ_apply']

/-- C10, `prev`: the half-edge whose `next` is the given one. -/
theorem c10_prev (w : m.WF) (h : Nat) (a : m.hAlive h = true) :
    ∃ q, getPrev h m = .ok q m ∧ m.hAlive q = true ∧ m.hNext q = h ∧
      ∀ q', m.hAlive q' = true → m.hNext q' = h → q' = q := by
  obtain ⟨q, aq, hn, e⟩ := w.getPrev_ok a
  exact ⟨q, e, aq, hn, fun q' a' h' => w.next_inj q' q a' aq (h'.trans hn.symm)⟩

/-- C10, queries built on the circulators: `isBoundary` of a vertex, `isHole`, `isBoundary` and `isLocked` of a face. -/
theorem c10_flags (w : m.WF) :
    (∀ v, m.vAlive v = true → ∃ b, vIsBoundary v m = .ok b m ∧
      (b = true ↔ ∃ h, m.hAlive h = true ∧ m.hSrc h = v ∧ m.hBd h = true)) ∧
    (∀ f, m.fAlive f = true → ∃ b, fIsHole f m = .ok b m ∧
      (b = true ↔ ∀ h, m.hAlive h = true → m.hFace h = f → m.hBd h = true)) ∧
    (∀ f, m.fAlive f = true → ∃ b, fIsBoundary f m = .ok b m ∧
      (b = true ↔ ∃ h, m.hAlive h = true ∧ m.hFace h = f ∧ m.hBd h = true)) ∧
    (∀ f, m.fAlive f = true → ∃ b, fIsLocked f m = .ok b m ∧
      (b = true ↔ ∃ h, m.hAlive h = true ∧ m.hFace h = f ∧ m.vLock (m.hSrc h) = true)) := by
  refine ⟨fun v a => ⟨_, w.vIsBoundary_ok a, ?_⟩, fun f a => ⟨_, w.fIsHole_ok a, ?_⟩,
    fun f a => ⟨_, w.fIsBoundary_ok a, ?_⟩, fun f a => ⟨_, w.fIsLocked_ok a, ?_⟩⟩
  · rw [List.any_eq_true]; simp only [w.mem_ring a, and_assoc]
  · rw [List.all_eq_true]; simp only [w.mem_loop a, and_imp]
  · rw [List.any_eq_true]; simp only [w.mem_loop a, and_assoc]
  · rw [List.any_eq_true]; simp only [w.mem_loop a, and_assoc]

/-- C11: `numEdges` is half the number of half-edges; the degrees, and likewise the numbers of corners, add up to the
number of half-edges. -/
theorem c11_counts (w : m.WF) :
    (∃ n, numEdges m = .ok n m ∧ 2 * n = m.hes.length) ∧
    (∃ deg : Nat → Nat, (∀ v ∈ m.vs, degree v m = .ok (deg v) m) ∧ (m.vs.map deg).sum = m.hes.length) ∧
    (∃ cor : Nat → Nat, (∀ f ∈ m.fs, numCorners f m = .ok (cor f) m) ∧ (m.fs.map cor).sum = m.hes.length) :=
  ⟨w.numEdges_ok, ⟨m.outDeg, fun _ hv => w.degree_ok ((w.vDense.mem _).1 hv), w.sum_outDeg⟩,
    ⟨m.sides, fun _ hf => w.numCorners_ok ((w.fDense.mem _).1 hf), w.sum_sides⟩⟩

/-- a strip of three triangles: 14 half-edges (5 on the boundary loop), 7 edges -/
example : ∃ m, construct stripV stripI fresh = .ok () m ∧ m.WF ∧ m.vAlive 3 = true ∧ m.fAlive 4 = true ∧
    m.hAlive 10 = true ∧ m.hes.length = 14 ∧ numEdges m = .ok 7 m := by
  obtain ⟨_, m2, h2⟩ := isOk_iff (o := construct stripV stripI fresh) (by decide +kernel)
  have w := (c01_construct_consistent (Owned.empty dbl) h2).wf
  have hl : m2.vAlive 3 = true ∧ m2.fAlive 4 = true ∧ m2.hAlive 10 = true ∧ m2.hes.length = 14 := by
    have : okSt (fun m : Mesh Rat => m.vAlive 3 && m.fAlive 4 && m.hAlive 10 && decide (m.hes.length = 14))
      (construct stripV stripI fresh) = true := by decide +kernel
    rw [h2] at this
    simpa [okSt, and_assoc] using this
  obtain ⟨n, hn, hn2⟩ := w.numEdges_ok
  obtain rfl : n = 7 := by omega
  exact ⟨m2, h2, w, hl.1, hl.2.1, hl.2.2.1, hl.2.2.2, hn⟩

end TinyMesh
