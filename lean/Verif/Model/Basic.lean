/-
Bytes and byte literals.

Go strings and `[]byte` are both modelled as lists of bytes.
-/
namespace Aitch

/-- value.go:15-19, aitch.go:43-56 — A Go `string` or `[]byte`: its bytes. -/
abbrev Bytes := List UInt8

/-- `b%"abc"` is the list of the (ASCII) byte codes of `abc`, expanded at elaboration time to a
literal list of numerals. -/
macro:max "b%" s:str : term => do
  let elems ← s.getString.toList.toArray.mapM fun c => `(($(Lean.quote c.toNat) : UInt8))
  `(([$elems,*] : List UInt8))

/-- `c%'x'` is the (ASCII) byte code of the character `x`. -/
macro:max "c%" c:char : term =>
  `(($(Lean.quote c.getChar.toNat) : UInt8))

end Aitch
