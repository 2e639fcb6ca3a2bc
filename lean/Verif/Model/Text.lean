import Verif.Model.IO
/-
The text of an OBJ file: `Mesh::saveOBJ`, mesh.cpp:482-507.

A text is a list of characters. How a `double` is written is a parameter. Errors while writing are not modelled: the code does not look
for them.
-/
namespace TinyMesh
variable {F : Type} [Scalar F]

/-- a decimal digit, mesh.cpp:502 -/
def digit (d : Nat) : Char := Char.ofNat (48 + d)

/-- a natural number in decimal notation, mesh.cpp:502 -/
def natText (n : Nat) : List Char := if n < 10 then [digit n] else natText (n / 10) ++ [digit (n % 10)]
termination_by n
decreasing_by omega

/-- `std::ostream::operator<<(int)`, mesh.cpp:502 -/
def intText (i : Int) : List Char := if i < 0 then '-' :: natText i.natAbs else natText i.toNat

/-- mesh.cpp:489: `writer << "v " << x << " " << y << " " << z << std::endl` -/
def vertexLine (fmt : F → List Char) (p : Vec3 F) : List Char :=
  ['v', ' '] ++ fmt p.x ++ [' '] ++ fmt p.y ++ [' '] ++ fmt p.z ++ ['\n']

/-- mesh.cpp:502: `writer << "f " << (i0 + 1) << " " << (i1 + 1) << " " << (i2 + 1) << std::endl` -/
def faceLine (t : Int × Int × Int) : List Char :=
  ['f', ' '] ++ intText (t.1 + 1) ++ [' '] ++ intText (t.2.1 + 1) ++ [' '] ++ intText (t.2.2 + 1) ++ ['\n']

/-- `saveOBJ`, mesh.cpp:482-507: the text that is written; `opened` tells whether the file could be opened. The faces are visited like in
`getVertexIndices`. -/
def saveText (fmt : F → List Char) (opened : Bool) : M F (List Char) :=
  if opened then do
    let V ← getVertices
    let n ← M.read (fun m => m.vs.length)
    let I ← getVertexIndices
    pure ((V.map (vertexLine fmt)).flatten ++ ((I.filter (inFile n)).map faceLine).flatten)
  else M.fail .abort

end TinyMesh
