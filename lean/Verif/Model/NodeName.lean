import Verif.Model.Types
/-
Model of the `Name()` methods.
-/
namespace Aitch

/-- The `Name()` methods (element.go:80,146; attribute.go:30,74,127; text.go:32; comment.go:27; fragment.go:35;
pi.go:30; collection.go:26,60; conditional.go:58; imperative.go:49; iterate.go:108,173; html/document.go:27). -/
def Node.name : Node → Bytes
  | .element h _ => h.name
  | .voidElement h => h.name
  | .attr a => a.name
  | .text _ => b%"#text"
  | .comment _ => b%"#comment"
  | .fragment _ => b%"#fragment"
  | .pi name _ => c%'!' :: name
  | .collection _ => b%"#collection"
  | .conditional _ _ _ => b%"#conditional"
  | .collector _ => b%"#collector"
  | .imperative _ => b%"!imperative"
  | .iterator _ _ => b%"!iterator"
  | .yieldIterator _ _ => b%"!yield_iterator"
  | .document _ _ => b%"#document"

end Aitch
