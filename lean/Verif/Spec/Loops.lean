import Verif.Model.Smooth
import Verif.Spec.Smooth
/-
The parallel loops of the filters, in the order in which the functions run them.
-/
namespace TinyMesh

section
variable {F : Type} [Scalar F]

/-- the loops of one iteration of `smoothLaplacian`, smooth.cpp:30-44 and 47-57 -/
def lapLoops (eps : F) (cotan : Bool) (m : Mesh F) : List (Nat × (Nat → Prog Loc F Unit)) :=
  [(m.vs.length, lapCent m cotan), (m.vs.length, lapMove m m.vs.length eps)]

/-- the loops of one iteration of `smoothTaubin`, smooth.cpp:68-83 and 87-97 -/
def tauLoops (eps : F) (m : Mesh F) : List (Nat × (Nat → Prog Loc F Unit)) :=
  [(m.vs.length, tauCent m), (m.vs.length, tauMove m m.vs.length eps)]

/-- the iterations of `smoothLaplacian` -/
def lapRuns (eps : F) (cotan : Bool) (n : Nat) : List (Mesh F → List (Nat × (Nat → Prog Loc F Unit))) :=
  List.replicate n (lapLoops eps cotan)

/-- the iterations of `smoothTaubin`, from iteration `it` on -/
def tauRuns (shrink inflate : F) (it : Nat) : Nat → List (Mesh F → List (Nat × (Nat → Prog Loc F Unit)))
  | 0 => []
  | n + 1 => tauLoops (if it % 2 = 0 then shrink else -inflate) :: tauRuns shrink inflate (it + 1) n

end

section
variable {F : Type} [ScalarX F]

/-- the loops of one iteration of the denoising filters, denoise.cpp:51-66, 70-84, 88-100 and 117-132, 136-154, 158-170 -/
def dnLoops (bil : Bool) (sg sn : F) (m : Mesh F) : List (Nat × (Nat → Prog Loc F Unit)) :=
  [(m.fs.length, dnNormal m), (m.fs.length, dnFilter m m.fs.length bil sg sn), (m.vs.length, dnMove m m.fs.length)]

/-- the loops of `iterations` iterations of the denoising filters; each begins with `smoothTaubin` -/
def dnRuns (bil : Bool) (sg sn : F) : Nat → List (Mesh F → List (Nat × (Nat → Prog Loc F Unit)))
  | 0 => []
  | n + 1 => tauRuns (Scalar.lit 1 2) (Scalar.lit 53 100) 0 6 ++ dnLoops bil sg sn :: dnRuns bil sg sn n

end
end TinyMesh
