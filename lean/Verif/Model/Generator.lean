import Verif.Model.HtmlTables
import Verif.Model.SvgTables
/-
Model of `GenerateCode` (html/generator.go and svg/generator.go).  The tokenizer of golang.org/x/net/html is not
modelled: its tokens are the input.  Line numbers without a file name are those of html/generator.go; svg/generator.go
is the same code except where said otherwise.
-/
namespace Aitch

/-- html/generator.go:104-130 — The tokens that the tokenizer returns: `token.Data` and, for tags, `token.Attr` (key
and value; the tokenizer has decoded the character references). -/
inductive Token where
  | text (data : Bytes)
  | startTag (name : Bytes) (attrs : List (Bytes × Bytes))
  | selfClosingTag (name : Bytes) (attrs : List (Bytes × Bytes))
  | endTag (name : Bytes)
  | comment (data : Bytes)
  | doctype (data : Bytes)

/-- html/generator.go:13-138, svg/generator.go:13-130 — What differs between the two packages. -/
structure GenPkg where
  /-- the prefix of the names of the package's functions -/
  pre : Bytes
  elems : List (Bytes × Bytes)
  attrs : List (Bytes × Bytes)
  bools : List Bytes
  /-- is there a case for `html.DoctypeToken`? -/
  doctype : Bool

/-- html/generator.go:17 and 140-451 — `mappings`. -/
def htmlPkg : GenPkg := ⟨b%"html.", htmlGenElems, htmlGenAttrs, htmlGenBools, true⟩

/-- svg/generator.go:17 and 132-345 — `mappings`; no boolean attributes, and doctypes are ignored. -/
def svgPkg : GenPkg := ⟨b%"svg.", svgGenElems, svgGenAttrs, [], false⟩

/-- html/generator.go:58,73,74 — `strings.ToLower` as used in lines 58, 73 and 74 for looking up a name.  Besides the
ASCII letters only U+0130 and U+212A (here in UTF-8) have an ASCII lower case; all other bytes are left alone here,
which does not change any lookup since the keys of the tables are ASCII. -/
def toLower : Bytes → Bytes
  | 0xC4 :: 0xB0 :: s => c%'i' :: toLower s
  | 0xE2 :: 0x84 :: 0xAA :: s => c%'k' :: toLower s
  | c :: s => (if 65 ≤ c ∧ c ≤ 90 then c + 32 else c) :: toLower s
  | [] => []

/-- html/generator.go:51-54 — `strings.Replace(s, old, new, -1)` for an `old` of one byte. -/
def replaceAll (old : UInt8) (new : Bytes) (s : Bytes) : Bytes := s.flatMap fun c => if c = old then new else [c]

/-- html/generator.go:50-55 — `escape`. -/
def genEscape (s : Bytes) : Bytes :=
  replaceAll c%'"' b%"\\\"" (replaceAll 10 b%"\\n" (replaceAll 9 b%"\\t" (replaceAll c%'\\' b%"\\\\" s)))

/-- html/generator.go:19-21 — The variables of `GenerateCode`: the number of tabs in `indent`, `err`, and the calls
made to the writer. -/
structure GenSt where
  indent : Nat
  err : Option Err
  log : List WEvent

/-- html/generator.go:13 — `w.Write` of the writer passed to `GenerateCode`. -/
abbrev Writer := List WEvent → Bytes → Nat × Option Err

section
variable (w : Writer)

/-- html/generator.go:39,40 — `_, err = w.Write(d)`. -/
def gput (d : Bytes) (s : GenSt) : GenSt :=
  { s with err := (w s.log d).2, log := s.log ++ [⟨d, (w s.log d).1, (w s.log d).2⟩] }

/-- html/generator.go:38 — `_, err = w.Write(indent)`. -/
def gindent (s : GenSt) : GenSt := gput w (List.replicate s.indent 9) s

/-- html/generator.go:37-41 — `write`. -/
def gwrite (d : Bytes) (s : GenSt) : GenSt := gput w [10] (gput w d (gindent w s))

/-- html/generator.go:42-44 — `incIndent`. -/
def incIndent (s : GenSt) : GenSt := { s with indent := s.indent + 1 }

/-- html/generator.go:45-49 — `decIndent`. -/
def decIndent (s : GenSt) : GenSt := { s with indent := s.indent - 1 }

variable (p : GenPkg)

/-- html/generator.go:24-36 — `funcName` of the function called `f` in the package: the last part of its full name. -/
def funcName (f : Bytes) : Bytes := p.pre ++ f

/-- html/generator.go:57-62 — the beginning of an element's code. -/
def elementStart (name : Bytes) : Bytes :=
  match p.elems.lookup (toLower name) with
  | some f => funcName p f ++ b%"("
  | none => b%"aitch.Element(\"" ++ name ++ b%"\", "

/-- html/generator.go:73-89 — the code of one attribute. -/
def writeAttr (key val : Bytes) (s : GenSt) : GenSt :=
  match p.attrs.lookup (toLower key) with
  | some f =>
    if p.bools.contains (toLower key) then
      gput w b%"()" (gput w (funcName p f) s)
    else
      gput w b%"\")" (gput w (genEscape val) (gput w b%"(\"" (gput w (funcName p f) s)))
  | none =>
    gput w b%"\")" (gput w (genEscape val) (gput w b%"\" ,\"" (gput w key (gput w b%"aitch.Attribute(\"" s))))

/-- html/generator.go:69-90 — the loop over the attributes, from the second one on. -/
def writeAttrsFrom : List (Bytes × Bytes) → GenSt → GenSt
  | [], s => s
  | a :: as, s => writeAttrsFrom as (writeAttr w p a.1 a.2 (gput w b%", " s))

/-- html/generator.go:69-90 — the loop over the attributes. -/
def writeAttrs : List (Bytes × Bytes) → GenSt → GenSt
  | [], s => s
  | a :: as, s => writeAttrsFrom w p as (writeAttr w p a.1 a.2 s)

/-- html/generator.go:91-95 — what follows the attributes. -/
def writeAfterAttrs (attrs : List (Bytes × Bytes)) (selfClosing : Bool) (s : GenSt) : GenSt :=
  if selfClosing then gput w b%")," s else if attrs.length > 0 then gput w b%"," s else s

/-- html/generator.go:56-100 — `writeElementStart`. -/
def writeElementStart (name : Bytes) (attrs : List (Bytes × Bytes)) (selfClosing : Bool) (s : GenSt) : GenSt :=
  let s := gput w (elementStart p name) (gindent w s)
  if selfClosing && attrs.isEmpty then gput w b%"),\n" s
  else
    let s := gput w [10] (writeAfterAttrs w attrs selfClosing (writeAttrs w p attrs s))
    if selfClosing then s else incIndent s

/-- html/generator.go:113 — `strings.Trim(data, " \n\t") != ""`. -/
def notBlank (data : Bytes) : Bool := data.any fun c => !(c == 32 || c == 10 || c == 9)

/-- html/generator.go:111-131 — the switch, for tokens other than `ErrorToken`. -/
def genToken (t : Token) (s : GenSt) : GenSt :=
  match t with
  | .text d => if notBlank d then gwrite w (p.pre ++ b%"Text(\"" ++ genEscape d ++ b%"\"),") s else s
  | .startTag name attrs => writeElementStart w p name attrs false s
  | .selfClosingTag name attrs => writeElementStart w p name attrs true s
  | .endTag _ => gwrite w b%")," (decIndent s)
  | .comment d => gwrite w (p.pre ++ b%"Comment(\"" ++ genEscape d ++ b%"\"),") s
  | .doctype d => if p.doctype then gwrite w (b%"html.PI(\"DOCTYPE\", \"" ++ genEscape d ++ b%"\"),") s else s

/-- html/generator.go:103-132 — the loop: the tokens, and then `ErrorToken` with `tokenizer.Err()` being `fin` (`none`
is `io.EOF`). -/
def genLoop (fin : Option Err) : List Token → GenSt → GenSt
  | ts, s =>
    match s.err with
    | some _ => s
    | none =>
      match ts with
      | [] => { s with err := fin }
      | t :: ts => genLoop fin ts (genToken w p t s)

/-- html/generator.go:13-138 — `GenerateCode` with a writer `w` that is not nil. -/
def GenerateCode (ts : List Token) (fin : Option Err) : GenSt :=
  let s := incIndent (gwrite w b%"var template = aitch.Collection(" ⟨0, none, []⟩)
  let s := genLoop w p fin ts s
  match s.err with
  | none => gwrite w b%")\n" (decIndent s)
  | some _ => s

end

end Aitch
