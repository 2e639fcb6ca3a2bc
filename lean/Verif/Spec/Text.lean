import Verif.Model.Text
/-
A reader for OBJ files with vertices and triangles, as the format is described: one statement per line, words separated by blanks, vertices
numbered from one.
-/
namespace TinyMesh

/-- the parts between the occurrences of `c` -/
def splitAtChar (c : Char) : List Char → List (List Char)
  | [] => [[]]
  | x :: xs => if x = c then [] :: splitAtChar c xs else
    match splitAtChar c xs with
    | [] => [[x]]
    | w :: ws => (x :: w) :: ws

/-- the value of a digit -/
def digitVal (c : Char) : Option Nat := if '0' ≤ c ∧ c ≤ '9' then some (c.toNat - '0'.toNat) else none

/-- a natural number in decimal notation: all characters are digits, there is at least one, and the first is not zero unless it is the only one -/
def readNat (s : List Char) : Option Nat :=
  if s = [] ∨ (s.head? = some '0' ∧ s ≠ ['0']) then none else
    s.foldl (fun acc c => do
      let a ← acc
      let d ← digitVal c
      pure (10 * a + d)) (some 0)

/-- a statement -/
inductive ObjLine where
  | vertex (x y z : List Char)
  | face (i j k : Nat)
  deriving DecidableEq

/-- the statement gives a vertex -/
def ObjLine.isVertex : ObjLine → Bool
  | .vertex _ _ _ => true
  | .face _ _ _ => false

/-- the statement on a line -/
def readLine (s : List Char) : Option ObjLine :=
  match splitAtChar ' ' s with
  | [['v'], x, y, z] => if x = [] ∨ y = [] ∨ z = [] then none else some (.vertex x y z)
  | [['f'], i, j, k] => do
    let i ← readNat i
    let j ← readNat j
    let k ← readNat k
    pure (.face i j k)
  | _ => none

/-- the statements of a file; the last line ends with a line break -/
def readLines (s : List Char) : Option (List ObjLine) :=
  match (splitAtChar '\n' s).reverse with
  | [] :: ls => ls.reverse.mapM readLine
  | _ => none

/-- the positions -/
def objVerts {F : Type} (rd : List Char → F) (ls : List ObjLine) : List (Vec3 F) :=
  ls.filterMap fun
    | .vertex x y z => some ⟨rd x, rd y, rd z⟩
    | .face _ _ _ => none

/-- the corners of the triangles, numbered from zero -/
def objFaces (ls : List ObjLine) : List Nat :=
  ls.flatMap fun
    | .vertex _ _ _ => []
    | .face i j k => [i - 1, j - 1, k - 1]

/-- all corners of triangles are numbers of vertices -/
def objValid (ls : List ObjLine) : Prop :=
  ∀ i j k, ObjLine.face i j k ∈ ls → ∀ a ∈ [i, j, k], 1 ≤ a ∧ a ≤ (ls.filter ObjLine.isVertex).length

/-- `s` is the text of a file with the content `f`, if `rd` is the meaning of numbers -/
def IsObj {F : Type} (rd : List Char → F) (s : List Char) (f : MeshFile F) : Prop :=
  ∃ ls, readLines s = some ls ∧ objValid ls ∧ f.pos = objVerts rd ls ∧ f.idx = objFaces ls

/-- A way to write numbers that can be read: words without blanks and line breaks. -/
def PlainWords {F : Type} (fmt : F → List Char) : Prop := ∀ x, fmt x ≠ [] ∧ ' ' ∉ fmt x ∧ '\n' ∉ fmt x

end TinyMesh
