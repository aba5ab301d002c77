import Verif.Spec.Clean
import Verif.Spec.Lines
/-
Links: how a browser reads the beginning of a URL, and templates whose links begin with text of their own.  The
hypotheses of C93.
-/
namespace Aitch.Spec.Markup

/-- What a browser makes of a URL first (URL standard, "basic URL parser"): it drops control characters and spaces at the
beginning, and tabs and line ends everywhere.  (It also drops spaces at the end, which does not matter here.) -/
def trimmed (v : Bytes) : Bytes := (v.dropWhile (· ≤ 32)).filter fun c => c ≠ 9 ∧ c ≠ 10 ∧ c ≠ 13

/-- An ASCII letter. -/
def letter (c : UInt8) : Bool := (c%'a' ≤ c && c ≤ c%'z') || (c%'A' ≤ c && c ≤ c%'Z')

/-- A character that the scheme of a URL can have. -/
def schemeChar (c : UInt8) : Bool :=
  letter c || (c%'0' ≤ c && c ≤ c%'9') || c == c%'+' || c == c%'-' || c == c%'.'

/-- The scheme of a URL, in lower case, such as `https` or `javascript`; `none` for a URL relative to the page ("scheme
start state" and "scheme state" of the standard). -/
def scheme (v : Bytes) : Option Bytes :=
  match trimmed v with
  | [] => none
  | c :: r =>
    if letter c then
      match (c :: r).dropWhile schemeChar with
      | [] => none
      | d :: _ => if d = c%':' then some (lower ((c :: r).takeWhile schemeChar)) else none
    else none

/-- A slash, or what a browser takes for one. -/
def slash (c : UInt8) : Bool := c == c%'/' || c == c%'\\'

/-- The URL leads to the site of the page: it has no scheme, and does not begin with two slashes, which introduce the
name of a site. -/
def OnSite (v : Bytes) : Prop :=
  scheme v = none ∧ ∀ c d r, trimmed v = c :: d :: r → ¬ (slash c = true ∧ slash d = true)

/-- A text after which the scheme is settled: it does not consist of characters of a scheme alone. -/
def settlesScheme (s : Bytes) : Bool :=
  match trimmed s with
  | [] => false
  | c :: r => !letter c || !(c :: r).all schemeChar

/-- A text after which it is settled that a URL leads to the site of the page. -/
def settlesSite (s : Bytes) : Bool :=
  match trimmed s with
  | [] => false
  | [c] => !letter c && !slash c
  | c :: d :: r =>
    if slash c then !slash d
    else !letter c || match (c :: d :: r).dropWhile schemeChar with
      | [] => false
      | e :: _ => e != c%':'

/-- Attributes with names in `U` (in any case) begin with a text of the template such that the value satisfies `F`
whatever comes after it, or are just such a text; none is delimited. -/
def Fixes (U : List Bytes) (F : Bytes → Prop) : Decl → Prop
  | .plain name values => lower name ∈ U →
      ∃ s rest, values = .str s :: rest ∧ F (seen s) ∧ (rest ≠ [] → ∀ t, F (seen s ++ t))
  | .boolean name => lower name ∈ U → F []
  | .delimited name _ _ => lower name ∉ U

/-- Attributes with names in `U` begin with a text of the template that settles the scheme, or are just a text; and its
scheme is one of those allowed. -/
def Schemes (U : List Bytes) (allowed : List (Option Bytes)) : Decl → Prop
  | .plain name values => lower name ∈ U →
      ∃ s rest, values = .str s :: rest ∧ scheme (seen s) ∈ allowed ∧ (rest ≠ [] → settlesScheme (seen s) = true)
  | .boolean name => lower name ∈ U → none ∈ allowed
  | .delimited name _ _ => lower name ∉ U

/-- Attributes with names in `U` begin with a text of the template that settles that the URL leads to the site of the
page, or are just a text that does. -/
def LeadsHome (U : List Bytes) : Decl → Prop
  | .plain name values => lower name ∈ U →
      ∃ s rest, values = .str s :: rest ∧ OnSite (seen s) ∧ (rest ≠ [] → settlesSite (seen s) = true)
  | .boolean _ => True
  | .delimited name _ _ => lower name ∉ U

/-- The texts of the template in attributes with names in `U` have no colon. -/
def NoColon (U : List Bytes) : Decl → Prop
  | .plain name values => lower name ∈ U → ∀ s, .str s ∈ values → c%':' ∉ s
  | _ => True

end Aitch.Spec.Markup
