import Verif.Spec.Message
import Mathlib.Data.List.Induction
/-
Messages (C117).
-/
namespace TinyMesh

theorem strFmt_some {bad : Int} (hb : bad < 0) (hb' : -2147483648 ≤ bad) (t : List Char) :
    strFmt bad (some t) = if t.length < 2147483647 then .ok t else if t.length = 2147483647 then .error .ub else .error .throw := by
  unfold strFmt
  by_cases h : t.length < 2147483647
  · have c : countText bad (some t) = t.length := if_pos (by omega)
    simp only [c]
    rw [if_neg (by omega), if_neg (by omega), if_pos h]
    have e : ((t.length : Int) + 1).toNat = t.length + 1 := by omega
    rw [e]
    simp [printInto]
  · rw [if_neg h]
    by_cases h' : t.length = 2147483647
    · have c : countText bad (some t) = t.length := if_pos (by omega)
      simp only [c]
      rw [if_pos (by omega), if_pos h']
    · have c : countText bad (some t) = bad := if_neg (by omega)
      simp only [c]
      rw [if_neg (by omega), if_pos (by omega), if_neg h']

theorem strFmt_none {bad : Int} (hb : bad < 0) (hb' : -2147483648 ≤ bad) : strFmt bad none = .error .throw := by
  unfold strFmt
  have c : countText bad none = bad := rfl
  simp only [c]
  rw [if_neg (by omega), if_pos (by omega)]

/-- C117: a text that is made from a format is exactly what the conversions yield as long as its length is below 2³¹ − 1; longer texts and
errors of `snprintf` lead to an exception, except for the length 2³¹ − 1, for which the size of the buffer overflows. `bad` is the number
that `snprintf` returns for an error. -/
theorem c117_format {bad : Int} (hb : bad < 0) (hb' : -2147483648 ≤ bad) (t : List Char) :
    (strFmt bad (some t) = .ok t ↔ t.length < 2147483647) ∧ (∀ x, strFmt bad (some t) = .ok x → x = t) ∧
    (strFmt bad (some t) = .error .ub ↔ t.length = 2147483647) ∧ (strFmt bad (some t) = .error .throw ↔ 2147483647 < t.length) ∧
    strFmt bad none = .error .throw := by
  rw [strFmt_some hb hb' t, strFmt_none hb hb']
  by_cases h : t.length < 2147483647
  · rw [if_pos h]
    refine ⟨by simp [h], fun x e => by injection e with e; exact e.symm, ?_, ?_, rfl⟩
    · simp; omega
    · simp; omega
  · rw [if_neg h]
    by_cases h' : t.length = 2147483647
    · rw [if_pos h']; simp [h']
    · rw [if_neg h']
      have : 2147483647 < t.length := by omega
      simp [h, h', this]

theorem StreamOp.run_text (o : StreamOp) (s : Stream) : screen (o.run s).out ++ (o.run s).buf = screen s.out ++ s.buf ++ o.text := by
  cases o with
  | put t =>
    simp only [StreamOp.run, Stream.put, StreamOp.text]
    split <;> simp [Stream.flush, screen]
  | endl => simp [StreamOp.run, Stream.endl, Stream.flush, screen, StreamOp.text]

theorem StreamOp.run_short (o : StreamOp) (s : Stream) : (o.run s).buf.length < 128 := by
  cases o with
  | put t =>
    simp only [StreamOp.run, Stream.put]
    split
    · simp [Stream.flush]
    · next h => exact Nat.lt_of_not_le h
  | endl => simp [StreamOp.run, Stream.endl, Stream.flush]

theorem StreamOp.run_keep (o : StreamOp) (s : Stream) : s.out <+: (o.run s).out := by
  cases o with
  | put t =>
    simp only [StreamOp.run, Stream.put]
    split <;> simp [Stream.flush]
  | endl => simp [StreamOp.run, Stream.endl, Stream.flush]

/-- C117: nothing is lost, doubled or swapped by the buffer of a stream: at any time what has been written and what is in the buffer make up
what was put in, fewer than 128 characters wait in the buffer, none after an end of line, and what was written stays. -/
theorem c117_stream (ops : List StreamOp) (s : Stream) (hs : s.buf.length < 128) :
    let s' := ops.foldl (fun s o => o.run s) s
    screen s'.out ++ s'.buf = screen s.out ++ s.buf ++ ops.flatMap StreamOp.text ∧ s'.buf.length < 128 ∧ s.out <+: s'.out ∧
      (ops.getLast? = some .endl → s'.buf = []) := by
  induction ops using List.reverseRecOn with
  | nil => simp [hs]
  | append_singleton ops o ih =>
    simp only [List.foldl_append, List.foldl_cons, List.foldl_nil, List.flatMap_append, List.flatMap_cons, List.flatMap_nil, List.append_nil,
      List.getLast?_append, List.getLast?_singleton, Option.some_or, Option.some.injEq]
    obtain ⟨h1, -, h3, -⟩ := ih
    refine ⟨?_, StreamOp.run_short _ _, h3.trans (StreamOp.run_keep _ _), ?_⟩
    · rw [StreamOp.run_text, h1]; simp
    · rintro rfl; rfl

/-- C117: when the stream is destroyed, everything has been written, in order. -/
theorem c117_session (ops : List StreamOp) (out : List (List Char)) : screen (session ops out) = screen out ++ ops.flatMap StreamOp.text := by
  have h := (c117_stream ops ⟨[], out⟩ (by simp)).1
  simp only [List.append_nil] at h
  rw [← h]
  simp [session, Stream.flush, screen]

theorem Kind.tag_head (k : Kind) : (k.tag.map StreamOp.put).flatMap StreamOp.text = k.head.toList := by
  cases k <;> decide

theorem Kind.close_tail (k : Kind) : k.close.flatMap StreamOp.text = k.tail.toList := by
  cases k <;> decide

/-- C117: a message appears with its tag, its text and its end of line after all that is on the terminal; only `Error` does not return. -/
theorem c117_message {bad : Int} (hb : bad < 0) (hb' : -2147483648 ≤ bad) (k : Kind) {t : List Char} (ht : t.length < 2147483647) (out : List (List Char)) :
    screen (message k bad (some t) out).1 = screen out ++ k.head.toList ++ t ++ k.tail.toList ∧
    ((message k bad (some t) out).2 = .ok () ↔ k ≠ .error) ∧ ((message k bad (some t) out).2 = .error .abort ↔ k = .error) := by
  unfold message
  rw [strFmt_some hb hb' t, if_pos ht]
  dsimp only
  refine ⟨?_, ?_, ?_⟩
  · rw [c117_session, List.flatMap_append, List.flatMap_append, Kind.tag_head, Kind.close_tail]
    simp [StreamOp.text]
  · cases k <;> simp
  · cases k <;> simp

/-- C117: if the text cannot be made, the tag is on the terminal and an exception is thrown, also by `Error`. -/
theorem c117_no_text {bad : Int} (hb : bad < 0) (hb' : -2147483648 ≤ bad) (k : Kind) (out : List (List Char)) :
    screen (message k bad none out).1 = screen out ++ k.head.toList ∧ (message k bad none out).2 = .error .throw := by
  unfold message
  rw [strFmt_none hb hb']
  exact ⟨by rw [c117_session, Kind.tag_head], rfl⟩

theorem puts_short {l : List (List Char)} : ∀ {b : List Char} {out : List (List Char)}, b.length + l.flatten.length < 128 →
    (l.map StreamOp.put).foldl (fun s o => o.run s) ⟨b, out⟩ = ⟨b ++ l.flatten, out⟩ := by
  induction l with
  | nil => intro b out _; simp
  | cons x l ih =>
    intro b out h
    simp only [List.flatten_cons, List.length_append] at h
    have e : (StreamOp.put x).run ⟨b, out⟩ = ⟨b ++ x, out⟩ := by
      simp only [StreamOp.run, Stream.put, List.length_append]
      rw [if_neg (by omega)]
    rw [List.map_cons, List.foldl_cons, e, ih (by rw [List.length_append]; omega)]
    simp

theorem Kind.tag_flat (k : Kind) : k.tag.flatten = k.head.toList := by
  cases k <;> decide

theorem Kind.head_short (k : Kind) : k.head.toList.length ≤ 19 := by
  cases k <;> decide

/-- C117: a message with an end of line is written in one piece if tag and text have fewer than 128 characters. Otherwise the end of line is
a piece of its own, so that other threads can come in between. (The last, empty piece is written by the destructor.) -/
theorem c117_pieces {bad : Int} (hb : bad < 0) (hb' : -2147483648 ≤ bad) {k : Kind} (hk : k ≠ .print) {t : List Char} (ht : t.length < 2147483647) (out : List (List Char)) :
    (k.head.toList.length + t.length < 128 → (message k bad (some t) out).1 = out ++ [k.head.toList ++ t ++ ['\n'], []]) ∧
    (128 ≤ k.head.toList.length + t.length → (message k bad (some t) out).1 = out ++ [k.head.toList ++ t, ['\n'], []]) := by
  have hc : k.close = [.endl] := by cases k <;> first | rfl | exact absurd rfl hk
  have hh := k.head_short
  have e : (message k bad (some t) out).1 = session (k.tag.map StreamOp.put ++ [.put t] ++ [.endl]) out := by
    unfold message
    rw [strFmt_some hb hb' t, if_pos ht, hc]
  rw [e]
  unfold session
  rw [List.foldl_append, List.foldl_append, puts_short (by rw [Kind.tag_flat]; simp; omega), Kind.tag_flat]
  simp only [List.nil_append, List.foldl_cons, List.foldl_nil, StreamOp.run, Stream.put, List.length_append]
  constructor
  · intro h
    rw [if_neg (by omega)]
    simp [Stream.endl, Stream.flush]
  · intro h
    rw [if_pos (by omega)]
    simp [Stream.endl, Stream.flush]

/-- C117: an assertion that holds has no effect; one that fails ends the program with its label and an end of line as the last words, or throws
in the module for Python, or is ignored if assertions are switched off. -/
theorem c117_assertion {bad : Int} (hb : bad < 0) (hb' : -2147483648 ≤ bad) {t : List Char} (ht : t.length < 2147483647) (out : List (List Char)) :
    (∀ b l, assertion b true bad l out = (out, .ok ())) ∧ assertion .quiet false bad (some t) out = (out, .ok ()) ∧
    assertion .python false bad (some t) out = (out, .error .throw) ∧
    (assertion .plain false bad (some t) out).2 = .error .abort ∧ screen (assertion .plain false bad (some t) out).1 = screen out ++ t ++ ['\n'] := by
  refine ⟨fun b l => by cases b <;> rfl, rfl, ?_, ?_, ?_⟩ <;> simp only [assertion] <;> rw [strFmt_some hb hb' t, if_pos ht] <;> simp [screen]

/-! ### The hypotheses can be met -/

/-- C117: a short warning -/
example : (message .warn (-1) (some "Contractible vertex not found!".toList) [['x']]).1 =
    [['x'], "\x1b[33m[WARNING] \x1b[0mContractible vertex not found!\n".toList, []] :=
  ((c117_pieces (k := .warn) (by decide) (by decide) (by simp) (by decide) [['x']]).1 (by decide)).trans (by decide)

/-- C117: a message that is written in two pieces -/
example : ∃ t : List Char, t.length < 2147483647 ∧ (message .info (-1) (some t) []).1 = ["\x1b[34m[INFO] \x1b[0m".toList ++ t, ['\n'], []] :=
  have h : (List.replicate 200 'a').length = 200 := List.length_replicate ..
  ⟨List.replicate 200 'a', by rw [h]; decide, (c117_pieces (k := .info) (by decide) (by decide) (by simp) (by rw [h]; decide) []).2 (by rw [h]; omega)⟩

/-- C117: a text for which the size of the buffer overflows, and one that throws -/
example : ∃ t u : List Char, strFmt (-1) (some t) = .error .ub ∧ strFmt (-1) (some u) = .error .throw :=
  ⟨List.replicate 2147483647 'a', List.replicate 2147483648 'a', (c117_format (by decide) (by decide) _).2.2.1.2 (List.length_replicate ..),
    (c117_format (by decide) (by decide) _).2.2.2.1.2 (by rw [List.length_replicate]; decide)⟩

/-- C117: a stream that is used twice -/
example : (⟨['a'], []⟩ : Stream).buf.length < 128 ∧ ([StreamOp.put ['b'], .endl]).getLast? = some .endl := by simp

end TinyMesh
