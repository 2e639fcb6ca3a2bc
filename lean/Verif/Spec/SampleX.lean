import Verif.Props.Construct
import Verif.Proof.Indices
/-
Sample meshes with exact coordinates, used as witnesses.
-/
set_option maxRecDepth 100000
namespace TinyMesh
open Sample
attribute [local instance] Sample.ratScalar

theorem lawX : EqLaw XR := by
  intro a b c h1 h2
  cases a <;> cases b <;> cases c <;> simp_all [Scalar.eq, XR.eq]

/-- rational coordinates as real ones -/
noncomputable def Vec3.toR (v : Vec3 Rat) : Vec3 ℝ := ⟨v.x, v.y, v.z⟩

noncomputable def Vec3.toX (v : Vec3 Rat) : Vec3 XR := v.toR.fin

theorem toX_eq (a b : Vec3 Rat) : a.toX.eq b.toX = a.eq b := by
  rw [Bool.eq_iff_iff]
  unfold Vec3.toX
  rw [Vec3.X_veq, Vec3.R_veq]
  simp [Vec3.toR, Vec3.eq, Scalar.eq, and_assoc]

theorem validX {V : List (Vec3 Rat)} {I : List Nat} (h : ValidInput V I) : ValidInput (V.map Vec3.toX) I := by
  intro i hi
  obtain ⟨p, h1, h2⟩ := h i hi
  exact ⟨p.toX, by rw [List.getElem?_map, h1]; rfl, by rw [toX_eq]; exact h2⟩

theorem mergedX {V P : List (Vec3 Rat)} {I J : List Nat} (h : Merged V I P J) :
    Merged (V.map Vec3.toX) I (P.map Vec3.toX) J where
  len := h.len
  pos := by
    intro k i j h1 h2
    obtain ⟨p, q, h3, h4, h5⟩ := h.pos k i j h1 h2
    exact ⟨p.toX, q.toX, by rw [List.getElem?_map, h3]; rfl, by rw [List.getElem?_map, h4]; rfl, by rw [toX_eq]; exact h5⟩
  diff := by
    intro i j p q hij h1 h2
    rw [List.getElem?_map, Option.map_eq_some_iff] at h1 h2
    obtain ⟨p', h1, rfl⟩ := h1
    obtain ⟨q', h2, rfl⟩ := h2
    rw [toX_eq]; exact h.diff i j p' q' hij h1 h2
  first := by
    intro i p h1
    rw [List.getElem?_map, Option.map_eq_some_iff] at h1
    obtain ⟨p', h1, rfl⟩ := h1
    obtain ⟨k, c, h2, h3, h4, h5⟩ := h.first i p' h1
    exact ⟨k, c, h2, by rw [List.getElem?_map, h3]; rfl, h4, h5⟩

/-- the corners of a tetrahedron -/
def cornerV : List (Vec3 Rat) := [pt 0 0 0, pt 0 1 0, pt 1 0 0, pt 0 0 1]
/-- its faces; the last vertex is the second corner of three of them -/
def cornerT : List Tri := [⟨0, 1, 2⟩, ⟨2, 3, 0⟩, ⟨1, 3, 2⟩, ⟨0, 3, 1⟩]

theorem corner_valid : ValidInput cornerV (ofTris cornerT) := validB_iff (by decide +kernel)
theorem corner_merged : Merged cornerV (ofTris cornerT) cornerV (ofTris cornerT) := mergedB_iff (by decide +kernel)
theorem corner_manifold : Manifold cornerT :=
  manifoldB_iff (fans := [[⟨0, 1, 2⟩, ⟨2, 3, 0⟩, ⟨0, 3, 1⟩], [⟨0, 1, 2⟩, ⟨1, 3, 2⟩, ⟨0, 3, 1⟩],
    [⟨0, 1, 2⟩, ⟨2, 3, 0⟩, ⟨1, 3, 2⟩], [⟨2, 3, 0⟩, ⟨1, 3, 2⟩, ⟨0, 3, 1⟩]]) (by decide +kernel)
theorem corner_closed : ∀ t ∈ cornerT, ∀ e ∈ t.edges, ∃ s ∈ cornerT, (e.2, e.1) ∈ s.edges := by decide

/-- a mesh with exact coordinates built from a closed manifold list of different positions -/
theorem closedX {P : List (Vec3 Rat)} {ts : List Tri} (hv : ValidInput P (ofTris ts)) (D : Merged P (ofTris ts) P (ofTris ts))
    (M : Manifold ts) (hc : ∀ t ∈ ts, ∀ e ∈ t.edges, ∃ s ∈ ts, (e.2, e.1) ∈ s.edges) (g : Nat → Nat) :
    ∃ m : Mesh XR, construct (P.map Vec3.toX) (ofTris ts) (Mesh.empty g) = .ok () m ∧ m.Good ∧
      m.vs.map m.vPos = P.map Vec3.toX ∧ m.indices = ofTris ts := by
  obtain ⟨m, h, G, hp⟩ := c02_closed_accepted lawX (Owned.empty g) rfl (validX hv) (mergedX D) M hc
  obtain ⟨J, hJ, hJ'⟩ := c06_positions_merged (Owned.empty g) rfl (validX hv) h
  have e := (Merged.unique lawX (validX hv) hJ (mergedX D)).2
  exact ⟨m, h, G, hp, by rw [hJ' ⟨ts, e, M.proper⟩, e]⟩

/-- the positions of a mesh with real coordinates -/
theorem exists_at {m : Mesh XR} (w : m.WF) {P : List (Vec3 Rat)} (h : m.vs.map m.vPos = P.map Vec3.toX) :
    ∃ p, m.At p ∧ m.vs.map p = P.map Vec3.toR := by
  have hx : ∀ v, m.vAlive v = true → ∃ r : Vec3 ℝ, m.vPos v = r.fin := by
    intro v hv
    have : m.vPos v ∈ P.map Vec3.toX := by rw [← h]; exact List.mem_map_of_mem ((w.vDense.mem v).2 hv)
    obtain ⟨r, -, hr⟩ := List.mem_map.1 this
    exact ⟨r.toR, hr.symm⟩
  haveI : Nonempty (Vec3 ℝ) := ⟨⟨0, 0, 0⟩⟩
  choose! p hp using hx
  refine ⟨p, hp, ?_⟩
  have inj : Function.Injective Vec3.fin := fun a b h => Vec3.fin_inj.1 h
  apply List.map_injective_iff.2 inj
  rw [List.map_map, List.map_map]
  refine Eq.trans ?_ h
  apply List.map_congr_left
  intro v hv
  exact (hp v ((w.vDense.mem v).1 hv)).symm

/-- the reported triangles of a mesh that was just built -/
theorem trisX {m : Mesh XR} {g : Nat → Nat} {V : List (Vec3 XR)} {I : List Nat} (h : construct V I (Mesh.empty g) = .ok () m)
    {ts : List Tri} (hi : m.indices = ofTris ts) {p : Nat → Vec3 ℝ} (hp : m.At p) {R : List (Vec3 ℝ)} (hR : m.vs.map p = R) :
    readTris R (flatIdx (((keepTris [] ts).filter (fun t => !t.isolated (keepTris [] ts))).map
        (fun t => ((t.c : Int), (t.a : Int), (t.b : Int))))) = .ok (m.trisR p) := by
  obtain ⟨ts', h1, h2⟩ := c07_report_partial (Owned.empty g) h
  have G := c01_construct_consistent (Owned.empty g) h
  have e : ts' = ts := by
    have h3 := toTris_ofTris ts'
    rw [← h1, hi, toTris_ofTris] at h3
    cases h3; rfl
  subst e
  have := (G.soup_ok hp).2.readTris
  rw [G.indices_ok] at h2
  injection h2 with h2 _
  unfold Mesh.soupR at this
  rw [h2, hR] at this
  exact this

end TinyMesh
