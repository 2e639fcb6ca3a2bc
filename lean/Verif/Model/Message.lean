import Verif.Model.State
/-
Messages: core/debug.h.

A text is a list of characters, each of which stands for one byte. What the conversions of a format yield is a parameter: `some t` if they
yield the text `t`, `none` if `snprintf` reports an error. The terminal is the list of the pieces that have been written to it.
-/
namespace TinyMesh

/-- the result of `std::snprintf`, core/debug.h:79: the length of the text, or the negative number `bad` if there is an error or the length is
no `int` -/
def countText (bad : Int) : Option (List Char) → Int
  | some t => if t.length < 2147483648 then t.length else bad
  | none => bad

/-- what `std::snprintf` leaves in a buffer, core/debug.h:92: at most `size - 1` characters and a zero, the rest of the buffer stays -/
def printInto (buf : List Char) (size : Nat) : Option (List Char) → List Char
  | some t =>
    let w := t.take (size - 1) ++ [Char.ofNat 0]
    w ++ buf.drop w.length
  | none => buf

/-- `STR_FMT`, core/debug.h:73-97. The sum in line 79 is computed in `int`; the buffer of line 87 is filled with zeros. -/
def strFmt (bad : Int) (t : Option (List Char)) : Except Err (List Char) :=
  let n := countText bad t
  if n + 1 > 2147483647 ∨ n + 1 < -2147483648 then .error .ub
  else if n + 1 ≤ 0 then .error .throw
  else
    let size := (n + 1).toNat
    .ok ((printInto (List.replicate size (Char.ofNat 0)) size t).take (size - 1))

/-- `PrintStream`, core/debug.h:30-67: the text collected so far, and the pieces written to the terminal -/
structure Stream where
  buf : List Char
  out : List (List Char)

/-- `PrintStream::flush`, core/debug.h:54-62 (the module for Python hands the text to Python's `print`) -/
def Stream.flush (s : Stream) : Stream := ⟨[], s.out ++ [s.buf]⟩

/-- `PrintStream::operator<<` for values, core/debug.h:39-46; `t` is the text of the value. -/
def Stream.put (t : List Char) (s : Stream) : Stream :=
  let s : Stream := ⟨s.buf ++ t, s.out⟩
  if s.buf.length ≥ 128 then s.flush else s

/-- `PrintStream::operator<<` with `std::endl`, core/debug.h:48-52 -/
def Stream.endl (s : Stream) : Stream := Stream.flush ⟨s.buf ++ ['\n'], s.out⟩

/-- what can be done with a stream, core/debug.h:39-52 -/
inductive StreamOp where
  | put (t : List Char)
  | endl

/-- core/debug.h:39-52 -/
def StreamOp.run : StreamOp → Stream → Stream
  | .put t, s => s.put t
  | .endl, s => s.endl

/-- a stream that lives on the terminal `out`, is used and destroyed: core/debug.h:32-37 -/
def session (ops : List StreamOp) (out : List (List Char)) : List (List Char) :=
  (Stream.flush (ops.foldl (fun s o => o.run s) ⟨[], out⟩)).out

/-- the functions that print a message, core/debug.h:99-130 -/
inductive Kind where
  | print | info | debug | warn | error

/-- core/debug.h:21-25, 106, 111, 116, 122: the colour, the tag and the normal colour -/
def Kind.tag : Kind → List (List Char)
  | .print => []
  | .info => ["\x1b[34m".toList, "[INFO] ".toList, "\x1b[0m".toList]
  | .debug => ["\x1b[32m".toList, "[DEBUG] ".toList, "\x1b[0m".toList]
  | .warn => ["\x1b[33m".toList, "[WARNING] ".toList, "\x1b[0m".toList]
  | .error => ["\x1b[31m".toList, "[ERROR] ".toList, "\x1b[0m".toList]

/-- `Print`, core/debug.h:99-102, puts no end of line; the others, core/debug.h:104-124, do. -/
def Kind.close : Kind → List StreamOp
  | .print => []
  | _ => [.endl]

/-- `Print`, `Info`, `Debug`, `Warn` and (outside of the module for Python) `Error`, core/debug.h:99-124: the terminal afterwards and how the
call ends. The operands of `<<` are evaluated from the left to the right (C++17), so the tag is in the stream when the text is made; if this
throws, the stream is destroyed. `Error` ends with `std::terminate`. -/
def message (k : Kind) (bad : Int) (t : Option (List Char)) (out : List (List Char)) : List (List Char) × Except Err Unit :=
  let tag := k.tag.map StreamOp.put
  match strFmt bad t with
  | .error .throw => (session tag out, .error .throw)
  | .error e => (out, .error e)
  | .ok x => (session (tag ++ [.put x] ++ k.close) out, match k with
    | .error => .error .abort
    | _ => .ok ())

/-- `Error` in the module for Python, core/debug.h:126-129: nothing is printed, the text goes into the exception. -/
def errorPy (bad : Int) (t : Option (List Char)) : Except Err (Err × List Char) := do
  let x ← strFmt bad t
  pure (.throw, x)

/-- the three ways to build the library, core/debug.h:148-167 -/
inductive Build where
  | python | plain | quiet

/-- `Assertion`, core/debug.h:144-167: what is written to the error stream, and how the statement ends. `label` is what the format of
`ASRT_LABEL` yields. With `TINYMESH_DISABLE_ASSERT` nothing is checked. -/
def assertion (b : Build) (p : Bool) (bad : Int) (label : Option (List Char)) (out : List (List Char)) : List (List Char) × Except Err Unit :=
  match b with
  | .quiet => (out, .ok ())
  | .python => if p then (out, .ok ()) else match strFmt bad label with
    | .error e => (out, .error e)
    | .ok _ => (out, .error .throw)
  | .plain => if p then (out, .ok ()) else match strFmt bad label with
    | .error e => (out, .error e)
    | .ok x => (out ++ [x, ['\n']], .error .abort)

end TinyMesh
