import Verif.Model.IO
/-
The choice of the file format: `Mesh::load`, mesh.cpp:69-86, and `Mesh::save`, mesh.cpp:470-480.

File names are those of POSIX systems: the parts of a path are separated by `/`. `fs` is `std::filesystem` (core/filesystem.h:53-67);
with `std::experimental::filesystem`, which core/filesystem.h:53-60 falls back to, a name like `.obj` would have the extension `.obj`.
-/
namespace TinyMesh
variable {F : Type} [Scalar F]

/-- `filename.c_str()` taken as a C string, mesh.cpp:76, 472: ends at the first null character -/
def cStr (s : List Char) : List Char := s.takeWhile (· != '\x00')

/-- `fs::path::filename`, part of `extension`, mesh.cpp:76, 472: what follows the last `/` -/
def fileName (s : List Char) : List Char := (s.reverse.takeWhile (· != '/')).reverse

/-- `fs::path::extension`, mesh.cpp:76, 472: from the last dot of the file name on; empty for `.` and `..`, without a dot, and if the last
dot is the first character -/
def extension (s : List Char) : List Char :=
  let n := fileName s
  let t := (n.reverse.takeWhile (· != '.')).reverse
  if n = ['.'] ∨ n = ['.', '.'] then []
  else if n.length ≤ t.length + 1 then []
  else '.' :: t

/-- `Mesh::load`, mesh.cpp:69-86; `f` is what the parser reads from the file. The `Error` of line 82 ends the program
(core/debug.h:119-124). -/
def load (name : List Char) (f : MeshFile F) : M F Unit :=
  let ext := extension (cStr name)
  if ext = ['.', 'o', 'b', 'j'] then loadOBJ f
  else if ext = ['.', 'p', 'l', 'y'] then loadPLY f
  else do
    clearArrays
    M.fail .abort

/-- `Mesh::save`, mesh.cpp:470-480 -/
def save (name : List Char) (round : Vec3 F → Vec3 F) : M F (MeshFile F) :=
  let ext := extension (cStr name)
  if ext = ['.', 'o', 'b', 'j'] then saveOBJ round
  else if ext = ['.', 'p', 'l', 'y'] then savePLY round
  else M.fail .abort

end TinyMesh
