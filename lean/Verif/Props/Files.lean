import Verif.Proof.Files
import Verif.Props.Construct
/-
C104: which files are read and written in which format.
-/
namespace TinyMesh
open Sample
attribute [local instance] Sample.ratScalar
variable {F : Type} [Scalar F]

/-- C104: `load` reads files called `b.obj` as OBJ and files called `b.ply` as PLY (in any directory, `b` not empty); every other name
ends the program. -/
theorem c104_load {s t z : List Char} (ht : s = t ∨ s = t ++ '\x00' :: z) (h0 : '\x00' ∉ t) (f : MeshFile F) (m : Mesh F) :
    (Named t ['o', 'b', 'j'] → load s f m = loadOBJ f m) ∧ (Named t ['p', 'l', 'y'] → load s f m = loadPLY f m) ∧
    (¬ Named t ['o', 'b', 'j'] → ¬ Named t ['p', 'l', 'y'] → load s f m = .err .abort) := by
  rw [← extension_iff (by decide) (by decide) (by decide), ← extension_iff (by decide) (by decide) (by decide)]
  unfold load
  rw [cStr_of ht h0]
  refine ⟨fun h => ?_, fun h => ?_, fun h h' => ?_⟩
  · simp only [h, if_true]
  · simp only [h]
    rw [if_neg (by decide), if_pos trivial]
  · simp only [h, h', if_false]
    rfl

/-- C104: the same for `save`; nothing is written under any other name. -/
theorem c104_save {s t z : List Char} (ht : s = t ∨ s = t ++ '\x00' :: z) (h0 : '\x00' ∉ t) (r : Vec3 F → Vec3 F) (m : Mesh F) :
    (Named t ['o', 'b', 'j'] → save s r m = saveOBJ r m) ∧ (Named t ['p', 'l', 'y'] → save s r m = savePLY r m) ∧
    (¬ Named t ['o', 'b', 'j'] → ¬ Named t ['p', 'l', 'y'] → save s r m = .err .abort) := by
  rw [← extension_iff (by decide) (by decide) (by decide), ← extension_iff (by decide) (by decide) (by decide)]
  unfold save
  rw [cStr_of ht h0]
  refine ⟨fun h => ?_, fun h => ?_, fun h h' => ?_⟩
  · simp only [h, if_true]
  · simp only [h]
    rw [if_neg (by decide), if_pos trivial]
  · simp only [h, h', if_false]
    rfl

/-- C104: with the conditions of C45, saving under one good name and loading under another (the formats may be different) gives the same
faces over the rounded positions. -/
theorem c104_round_trip (L : EqLaw F) {g : Nat → Nat} {m' : Mesh F} {V : List (Vec3 F)} {I : List Nat} (hv : ValidInput V I)
    {ts : List Tri} (h : construct V I (Mesh.empty g) = .ok () m') (hts : m'.indices = ofTris ts)
    (hiso : ∀ t ∈ keepTris [] ts, t.isolated (keepTris [] ts) = false) (round : Vec3 F → Vec3 F)
    (hround : Distinct ((m'.vs.map m'.vPos).map round)) {s s' : List Char} (hs : '\x00' ∉ s) (hs' : '\x00' ∉ s')
    (n : Named s ['o', 'b', 'j'] ∨ Named s ['p', 'l', 'y']) (n' : Named s' ['o', 'b', 'j'] ∨ Named s' ['p', 'l', 'y']) :
    ∃ f m2 r1 r2, save s round m' = .ok f m' ∧ load s' f (Mesh.empty g) = .ok () m2 ∧ m2.Good ∧
      (m2.vs.map m2.vPos).Perm ((m'.vs.map m'.vPos).map round) ∧ getVertexIndices m' = .ok r1 m' ∧ getVertexIndices m2 = .ok r2 m2 ∧
      SameFaces ((m'.vs.map m'.vPos).map round) r1 (m2.vs.map m2.vPos) r2 := by
  obtain ⟨f, m2, r1, r2, h1, h2, h3, h4, G⟩ := c45_save_load_partial L hv h hts hiso round hround
  refine ⟨f, m2, r1, r2, ?_, ?_, G⟩
  · obtain ⟨k1, k2, -⟩ := c104_save (z := []) (Or.inl rfl) hs round m'
    rcases n with n | n
    · rw [k1 n, h2]
    · rw [k2 n, h1]
  · obtain ⟨k1, k2, -⟩ := c104_load (z := []) (Or.inl rfl) hs' f (Mesh.empty g)
    rcases n' with n' | n'
    · rw [k1 n', h4]
    · rw [k2 n', h3]

/-- `out/a.b.obj` is an OBJ file, `.ply` is no PLY file -/
example : Named "out/a.b.obj".toList ['o', 'b', 'j'] ∧ ¬ Named ".ply".toList ['p', 'l', 'y'] ∧ ¬ Named "x.ply/".toList ['p', 'l', 'y'] ∧
    ¬ Named "x.OBJ".toList ['o', 'b', 'j'] := by
  refine ⟨⟨"out/".toList, "a.b".toList, by decide, by decide, by decide, Or.inr ⟨"out".toList, by decide⟩⟩, ?_, ?_, ?_⟩
  all_goals
    rw [← extension_iff (by decide) (by decide) (by decide)]
    decide

/-- loading a strip under a good and under a bad name -/
example : (∃ m', load "d/strip.obj".toList ⟨stripV, stripI⟩ fresh = .ok () m' ∧ m'.Good) ∧
    load ".obj".toList ⟨stripV, stripI⟩ fresh = .err .abort := by
  obtain ⟨_, m1, h1⟩ := isOk_iff (o := loadOBJ ⟨stripV, stripI⟩ fresh) (by decide +kernel)
  refine ⟨⟨m1, ?_, c01_construct_consistent (Owned.empty dbl) (loadOBJ_ok (Owned.empty dbl) h1)⟩, ?_⟩
  · rw [← h1]
    exact (c104_load (z := []) (Or.inl rfl) (by decide) _ _).1
      ⟨"d/".toList, "strip".toList, by decide, by decide, by decide, Or.inr ⟨"d".toList, by decide⟩⟩
  · refine (c104_load (z := []) (Or.inl rfl) (by decide) _ _).2.2 ?_ ?_ <;>
      (rw [← extension_iff (by decide) (by decide) (by decide)]; decide)

/-- a tetrahedron is saved as `t.obj` and loaded from `d/t.ply` -/
example : ∃ m' f m2, construct tetV tetI fresh = .ok () m' ∧ save "t.obj".toList id m' = .ok f m' ∧ load "d/t.ply".toList f fresh = .ok () m2 ∧ m2.Good := by
  obtain ⟨_, m', h⟩ := isOk_iff (o := construct tetV tetI fresh) (by decide +kernel)
  obtain ⟨J, hJ, hJ'⟩ := c06_positions_merged (Owned.empty dbl) rfl tet_valid h
  obtain ⟨eP, e⟩ := Merged.unique law tet_valid hJ tet_merged
  have hD : Distinct (tetP.map (id : Vec3 Rat → Vec3 Rat)) := distinctB_iff (by decide +kernel)
  obtain ⟨f, m2, _, _, h2, h3, G, _⟩ := c104_round_trip law tet_valid h (ts := tetT)
    (by rw [hJ' ⟨tetT, e, tet_manifold.proper⟩, e]) (by decide) id (by rw [eP]; exact hD) (s := "t.obj".toList) (s' := "d/t.ply".toList)
    (by decide) (by decide) (Or.inl ⟨[], ['t'], by decide, by decide, by decide, Or.inl rfl⟩)
    (Or.inr ⟨"d/".toList, ['t'], by decide, by decide, by decide, Or.inr ⟨['d'], by decide⟩⟩)
  exact ⟨m', f, m2, h, h2, h3, G⟩

end TinyMesh
