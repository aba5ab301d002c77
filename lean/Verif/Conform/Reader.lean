import Verif.Spec.Xml
/-
Tests of the HTML reader (Spec/Tokenizer) and of the XML reader (Spec/Xml): inputs and what browsers make of them (in the manner of the usual test cases for
tokenizers).
-/
namespace Aitch.Conform.Reader
open Aitch.Spec Aitch.Spec.Markup

/-- A table with five references. -/
def refs : CharRefs where
  find _ s :=
    if b%"amp;".isPrefixOf s then some (4, b%"&")
    else if b%"lt;".isPrefixOf s then some (3, b%"<")
    else if b%"gt;".isPrefixOf s then some (3, b%">")
    else if b%"quot;".isPrefixOf s then some (5, b%"\"")
    else if b%"apos;".isPrefixOf s then some (5, b%"'")
    else none
  amp _ _ := rfl
  lt _ _ := rfl
  gt _ _ := rfl
  quot _ _ := rfl
  apos _ _ := rfl

/-- Tags, attributes, texts. -/
example : readHtml refs b%"<h a='b'>x</h>" = [.start b%"h" [(b%"a", b%"b")] false, .text b%"x", .close b%"h"] := rfl
example : readHtml refs b%"<H A=b C>" = [.start b%"h" [(b%"a", b%"b"), (b%"c", [])] false] := rfl
example : readHtml refs b%"<h a='b' a='d'>" = [.start b%"h" [(b%"a", b%"b")] false] := rfl
example : readHtml refs b%"<h a=&lt;&quot;>" = [.start b%"h" [(b%"a", b%"<\"")] false] := rfl
example : readHtml refs b%"<br/>" = [.start b%"br" [] true] := rfl
example : readHtml refs b%"<br / a>" = [.start b%"br" [(b%"a", [])] false] := rfl
example : readHtml refs b%"<p =a>" = [.start b%"p" [(b%"=a", [])] false] := rfl
example : readHtml refs b%"<p a = \"b\">" = [.start b%"p" [(b%"a", b%"b")] false] := rfl
example : readHtml refs b%"<p a=\"b\"c>" = [.start b%"p" [(b%"a", b%"b"), (b%"c", [])] false] := rfl
example : readHtml refs b%"a < b &amp; c" = [.text b%"a < b & c"] := rfl
example : readHtml refs b%"a<&amp;</&lt;>" = [.text b%"a<&", .comment b%"&lt;"] := rfl
example : readHtml refs b%"<1></1>" = [.text b%"<1>", .comment b%"1"] := rfl
example : readHtml refs b%"</>x<" = [.text b%"x<"] := rfl
example : readHtml refs b%"<p a" = [] := rfl
/-- Comments and doctypes. -/
example : readHtml refs b%"<!--a-->b" = [.comment b%"a", .text b%"b"] := rfl
example : readHtml refs b%"<!-->b" = [.comment [], .text b%"b"] := rfl
example : readHtml refs b%"<!--->b" = [.comment [], .text b%"b"] := rfl
example : readHtml refs b%"<!--a--!>b" = [.comment b%"a", .text b%"b"] := rfl
example : readHtml refs b%"<!--a--b-->c" = [.comment b%"a--b", .text b%"c"] := rfl
example : readHtml refs b%"<!--<!-->c" = [.comment b%"<!", .text b%"c"] := rfl
example : readHtml refs b%"<!--a" = [.comment b%"a"] := rfl
example : readHtml refs b%"<?php ?>a" = [.comment b%"?php ?", .text b%"a"] := rfl
example : readHtml refs b%"<!ELEMENT>a" = [.comment b%"ELEMENT", .text b%"a"] := rfl
example : readHtml refs b%"<!DOCTYPE html>a" = [.doctype b%"DOCTYPE html", .text b%"a"] := rfl
/-- Elements with text only. -/
example : readHtml refs b%"<title>&lt;<b></title>" =
    [.start b%"title" [] false, .text b%"<<b>", .close b%"title"] := rfl
example : readHtml refs b%"<title><&lt;</&lt;</t&lt;</title>" =
    [.start b%"title" [] false, .text b%"<<</<</t<", .close b%"title"] := rfl
example : readHtml refs b%"<style>&lt;<b></styles></STYLE x>" =
    [.start b%"style" [] false, .text b%"&lt;<b></styles>", .close b%"style"] := rfl
example : readHtml refs b%"<plaintext></plaintext>" = [.start b%"plaintext" [] false, .text b%"</plaintext>"] := rfl
/-- Scripts. -/
example : readHtml refs b%"<script>a</p></script>b" =
    [.start b%"script" [] false, .text b%"a</p>", .close b%"script", .text b%"b"] := rfl
example : readHtml refs b%"<script><!--a</script>b" =
    [.start b%"script" [] false, .text b%"<!--a", .close b%"script", .text b%"b"] := rfl
example : readHtml refs b%"<script><!--<script></script>--></script>b" =
    [.start b%"script" [] false, .text b%"<!--<script></script>-->", .close b%"script", .text b%"b"] := rfl
example : readHtml refs b%"<script><!--<scripts></script>b" =
    [.start b%"script" [] false, .text b%"<!--<scripts>", .close b%"script", .text b%"b"] := rfl
example : readHtml refs b%"<script><!--<script></script></script>b" =
    [.start b%"script" [] false, .text b%"<!--<script></script>", .close b%"script", .text b%"b"] := rfl
example : readHtml refs b%"<script><!--<script>-->a</script>b" =
    [.start b%"script" [] false, .text b%"<!--<script>-->a", .close b%"script", .text b%"b"] := rfl
example : readHtml refs b%"<script><!-<script></script>b" =
    [.start b%"script" [] false, .text b%"<!-<script>", .close b%"script", .text b%"b"] := rfl
example : readHtml refs b%"<script><!--><script></script>b" =
    [.start b%"script" [] false, .text b%"<!--><script>", .close b%"script", .text b%"b"] := rfl
/-- In other elements there is nothing of the kind. -/
example : readHtml refs b%"<style><!--<script></style>b" =
    [.start b%"style" [] false, .text b%"<!--<script>", .close b%"style", .text b%"b"] := rfl
/-- Line ends. -/
example : readPage refs b%"<pre>\n\r\na</pre>" = [.start b%"pre" [] false, .text b%"\na", .close b%"pre"] := rfl
example : readPage refs b%"<p>\r\r\na</p>" = [.start b%"p" [] false, .text b%"\n\na", .close b%"p"] := rfl

/-! ### XML -/

/-- The reader as a function (the check of the characters left out). -/
def readXml (w : Bytes) : Option (List Item) :=
  ((Xml.run (.content 0) none (newlines w)).filter (Xml.nested [] false)).map fun ts => items (ts.map Xml.Tok.plain)

theorem reads_iff (w : Bytes) (is : List Item) : Xml.Reads w is ↔ Xml.Characters w ∧ readXml w = some is := by
  unfold Xml.Reads readXml
  cases Xml.run (.content 0) none (newlines w) with
  | none => simp
  | some ts => cases h : Xml.nested [] false ts <;> simp [Option.filter, h, eq_comm (a := is)]

example : readXml b%"<a/>" = some [.start b%"a" [] false, .close b%"a"] := by decide +kernel
example : readXml b%"\n<a b='c\td' D = \"&lt;'&gt;\" ><!-- - & --> x&amp;\r\ny</a\n><!---->\n" =
    some [.text b%"\n", .start b%"a" [(b%"b", b%"c d"), (b%"D", b%"<'>")] false, .comment b%" - & ", .text b%" x&\ny",
      .close b%"a", .comment [], .text b%"\n"] := by decide +kernel
example : readXml b%"<a><b></b>]]]&gt;]></a>" =
    some [.start b%"a" [] false, .start b%"b" [] false, .close b%"b", .text b%"]]]>]>", .close b%"a"] := by decide +kernel
/-- Not well-formed. -/
example : readXml b%"" = none := by decide +kernel
example : readXml b%"x" = none := by decide +kernel
example : readXml b%"<a></a>x" = none := by decide +kernel
example : readXml b%"<a></a>&#32;" = none := by decide +kernel
example : readXml b%"<a></a><b></b>" = none := by decide +kernel
example : readXml b%"<a><br></a>" = none := by decide +kernel
example : readXml b%"<a></A>" = none := by decide +kernel
example : readXml b%"<a><b></a></b>" = none := by decide +kernel
example : readXml b%"<a b></a>" = none := by decide +kernel
example : readXml b%"<a b=c></a>" = none := by decide +kernel
example : readXml b%"<a b='c'd='e'></a>" = none := by decide +kernel
example : readXml b%"<a b='c' b='d'></a>" = none := by decide +kernel
example : readXml b%"<a b='<'></a>" = none := by decide +kernel
example : readXml b%"<a>&nbsp;</a>" = none := by decide +kernel
example : readXml b%"<a>a & b</a>" = none := by decide +kernel
example : readXml b%"<a>]]></a>" = none := by decide +kernel
example : readXml b%"<a>a < b</a>" = none := by decide +kernel
example : readXml b%"<a><!-- -- --></a>" = none := by decide +kernel
example : readXml b%"<a><!-- ---></a>" = none := by decide +kernel
example : readXml b%"< a></a>" = none := by decide +kernel
example : readXml b%"<1></1>" = none := by decide +kernel
/-- Names that differ only in case are different. -/
example : readXml b%"<a b='c' B='d'></a>" = some [.start b%"a" [(b%"b", b%"c"), (b%"B", b%"d")] false, .close b%"a"] := by
  decide +kernel

end Aitch.Conform.Reader
