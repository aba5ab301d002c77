import Verif.Model.Basic
/-
Model of value.go:167-208 (`htmlEscapeString` and its replacement table).
-/
namespace Aitch

/-- value.go:186-201 — the `switch c` of `htmlEscapeString`: the replacement for a byte, `none` for the
`default: continue` case.  The replacements are the variables of value.go:167-174. -/
def escEntity (c : UInt8) : Option Bytes :=
  if c = 0 then some []
  else if c = c%'"' then some b%"&quot;"
  else if c = c%'\'' then some b%"&apos;"
  else if c = c%'&' then some b%"&amp;"
  else if c = c%'<' then some b%"&lt;"
  else if c = c%'>' then some b%"&gt;"
  else none

/-- value.go:184-206 — the loop `for i, c := range sb` followed by the final write of `sb[last:]`.
`rest` is what remains of the range, i.e. `sb[i:]`; `buf` is the contents of the `bytes.Buffer`. -/
def escLoop (sb : Bytes) : (rest : Bytes) → (i last : Nat) → (buf : Bytes) → Bytes
  | [], _, last, buf => buf ++ sb.drop last
  | c :: rest, i, last, buf =>
    match escEntity c with
    | none => escLoop sb rest (i + 1) last buf
    | some html => escLoop sb rest (i + 1) (i + 1) (buf ++ (sb.drop last).take (i - last) ++ html)

/-- value.go:176-208 — `htmlEscapeString`.  `strings.ContainsAny(s, "'\"&<>\000")` with an all-ASCII
second argument is a bytewise test (also on invalid UTF-8). -/
def htmlEscapeString (s : Bytes) : Bytes :=
  if ¬ (s.any fun c => (b%"'\"&<>").contains c || c == 0) then s
  else escLoop s s 0 0 []

end Aitch
