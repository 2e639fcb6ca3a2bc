import Verif.Model.Message
/-
What a reader of the terminal sees.
-/
namespace TinyMesh

/-- the text that an operation adds -/
def StreamOp.text : StreamOp → List Char
  | .put t => t
  | .endl => ['\n']

/-- all that can be read on the terminal -/
def screen (out : List (List Char)) : List Char := out.flatten

/-- what is printed before the text of a message -/
def Kind.head : Kind → String
  | .print => ""
  | .info => "\x1b[34m[INFO] \x1b[0m"
  | .debug => "\x1b[32m[DEBUG] \x1b[0m"
  | .warn => "\x1b[33m[WARNING] \x1b[0m"
  | .error => "\x1b[31m[ERROR] \x1b[0m"

/-- what is printed after it -/
def Kind.tail : Kind → String
  | .print => ""
  | _ => "\n"

end TinyMesh
