import Verif.Spec.Finite
import Verif.Spec.Obs
/-
Nodes for which the user functions supply, while rendering, only finitely nested further nodes.
-/
namespace Aitch.Spec

/-- The function of an `Imperative` can pass node `n` to `WriteNodes`, or call its `Render`. -/
inductive Supplies : ImpProg → Node → Prop
  | now {ns k n} : some n ∈ ns → Supplies (.call (.writeNodes ns) k) n
  | later {op k s n} : Supplies (k s) n → Supplies (.call op k) n
  | user {upd k s n} : Supplies (k s) n → Supplies (.user upd k) n
  | render {n k} : Supplies (.render n k) n
  | rendered {m k e s n} : Supplies (k e s) n → Supplies (.render m k) n
  | write {d k r s n} : Supplies (k r s) n → Supplies (.write d k) n

/-- The nodes that the user functions supply are finitely nested: following the contents of nodes, the nodes returned to
`ContentCollect` (in whatever state), and the nodes that `Imperative` functions write, always comes to an end. -/
inductive Ends (env : Env) : Node → Prop
  | element {h cs} : (∀ n ∈ cs, Ends env n) → Ends env (.element h cs)
  | voidElement {h} : Ends env (.voidElement h)
  | attr {a} : Ends env (.attr a)
  | text {vs} : Ends env (.text vs)
  | comment {vs} : Ends env (.comment vs)
  | fragment {vs} : Ends env (.fragment vs)
  | pi {name vs} : Ends env (.pi name vs)
  | collection {ns} : (∀ n ∈ ns, Ends env n) → Ends env (.collection ns)
  | conditional {ns as k} : (∀ n ∈ ns, Ends env n) → Ends env (.conditional ns as k)
  | collector {f} : (∀ s n, some n ∈ (env.collect f s).1 → Ends env n) → Ends env (.collector f)
  | noImperative : Ends env (.imperative none)
  | imperative {f} : (∀ s n, Supplies (env.imp f s) n → Ends env n) → Ends env (.imperative (some f))
  | iterator {ns src} : (∀ n ∈ ns, Ends env n) → Ends env (.iterator ns src)
  | yieldIterator {ns f} : (∀ n ∈ ns, Ends env n) → Ends env (.yieldIterator ns f)
  | document {p cs} : (∀ n, p = some n → Ends env n) → (∀ n ∈ cs, Ends env n) → Ends env (.document p cs)

end Aitch.Spec
