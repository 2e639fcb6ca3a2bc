import Verif.Model.Handles
import Verif.Spec.Works
import Verif.Spec.Fill
/-
When a pointer may be used.
-/
namespace TinyMesh
variable {F : Type}

/-- the functions that may remove vertices and faces -/
def Work.removes : Work F → Bool
  | .call (.collapse _) => true
  | .call (.remesh ..) => true
  | .call (.simplify ..) => true
  | _ => false

/-- What a client knows of its pointers without looking at the mesh: how many it has, and that those from `sv` and `sf` on may be used. -/
structure Marks where
  nv : Nat
  nf : Nat
  sv : Nat
  sf : Nat

/-- The rule: no pointer survives a function that may remove elements, and filling a hole costs the pointers to faces. -/
def Marks.next (s : Marks) : Step F → Marks
  | .work w => if w.removes then { s with sv := s.nv, sf := s.nf } else s
  | .fill => { s with sf := s.nf }
  | .fillFace _ _ => { s with sf := s.nf }
  | .vertex _ => { s with nv := s.nv + 1 }
  | .face _ => { s with nf := s.nf + 1 }
  | .useV _ _ => s
  | .useF _ _ => s

/-- a hole without chords and without another hole next to it -/
def Mesh.Fillable (m : Mesh F) (f : Nat) : Prop :=
  f ∈ m.holeFaces ∧ m.Chordless [f] ∧ ∀ h, m.hAlive h = true → m.hFace h = f → m.hFace (m.hRev h) ∉ m.holeFaces

/-- What the library demands of a step: calls fit, pointers are used by the rule, and only holes without chords are filled,
and through a pointer only holes next to which there is no other. -/
def Step.Fits (m : Mesh F) (p : Ptrs) (s : Marks) : Step F → Prop
  | .work w => w.Fits m
  | .fill => m.Chordless m.holeFaces
  | .useV k _ => s.sv ≤ k ∧ k < s.nv
  | .useF k _ => s.sf ≤ k ∧ k < s.nf
  | .fillFace k _ => (s.sf ≤ k ∧ k < s.nf) ∧ ∀ f, p.fs[k]? = some f → m.Fillable f
  | .vertex _ => True
  | .face _ => True

/-- Every step fits at the time it is made. -/
def StepsPermitted [ScalarX F] : Mesh F → Ptrs → Marks → List (Step F) → Prop
  | _, _, _, [] => True
  | m, p, s, t :: ts => t.Fits m p s ∧ ∀ p' m', t.run p m = .ok p' m' → StepsPermitted m' p' (s.next t) ts

/-- The mesh has the elements to which the client has pointers that it may use. -/
structure Mesh.Holds (m : Mesh F) (p : Ptrs) (s : Marks) : Prop where
  nv : p.vs.length = s.nv
  nf : p.fs.length = s.nf
  v : ∀ k v, s.sv ≤ k → p.vs[k]? = some v → m.vAlive v = true
  f : ∀ k f, s.sf ≤ k → p.fs[k]? = some f → m.fAlive f = true

/-- Uses of a pointer to a vertex that succeed in exact arithmetic and leave positions finite; `normal` and `H` may divide by zero. -/
def VUse.Sound : VUse XR → Prop
  | .place x => ∃ w : Vec3 ℝ, x = w.fin
  | .normal => False
  | .mean => False
  | _ => True

/-- Steps that succeed in exact arithmetic. The filters that `Call` does not have are not among them. -/
def Step.Sound (m : Mesh XR) : Step XR → Prop
  | .work (.call c) => c.Sound m
  | .work _ => False
  | .vertex i => 0 ≤ i ∧ i < m.vs.length
  | .face i => 0 ≤ i ∧ i < m.fs.length
  | .useV _ u => u.Sound
  | _ => True

/-- Every step fits and is sound at the time it is made. -/
def StepsCareful : Mesh XR → Ptrs → Marks → List (Step XR) → Prop
  | _, _, _, [] => True
  | m, p, s, t :: ts => (t.Fits m p s ∧ t.Sound m) ∧ ∀ p' m', t.run p m = .ok p' m' → StepsCareful m' p' (s.next t) ts

/-- the step fills holes -/
def Step.IsFill : Step F → Prop
  | .fill => True
  | .fillFace _ _ => True
  | _ => False

/-- the loop of this step need not end -/
def Step.IsL0 : Step F → Prop
  | .work w => w.IsL0
  | _ => False

/-- the step removes no vertices -/
def Step.KeepsV : Step F → Prop
  | .work w => w.removes = false
  | _ => True

/-- the step removes no faces -/
def Step.KeepsF : Step F → Prop
  | .work w => w.removes = false
  | .fill => False
  | .fillFace _ _ => False
  | _ => True

end TinyMesh
