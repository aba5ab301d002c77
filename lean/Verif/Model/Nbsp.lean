import Verif.Model.Slice
/-
Model of text.go:40-60.
-/
namespace Aitch

/-- text.go:41 — `nbsp`. -/
def nbspBytes : Bytes := b%"&nbsp;"

/-- text.go:56 — The Go built-in `copy(dst[i:], src)` on the bytes of `dst`: as many as fit. -/
def copyAt (dst : Bytes) (i : Nat) (src : Bytes) : Bytes :=
  splice dst i (src.take (dst.length - i))

/-- text.go:55-58 — the loop of `Nbsps`; `k` rounds are left. -/
def nbspsLoop : (k : Nat) → (idx : Nat) → Bytes → Bytes
  | 0, _, result => result
  | k + 1, idx, result => nbspsLoop k (idx + nbspBytes.length) (copyAt result idx nbspBytes)

/-- text.go:49-60 — `Nbsps`; `none` is a nil slice.  (Go's `int` is unbounded here: sizes that overflow or exceed
memory are not modelled.) -/
def Nbsps (n : Int) : Option Bytes :=
  if n ≤ 0 then none
  else some (nbspsLoop n.toNat 0 (List.replicate (nbspBytes.length * n.toNat) 0))

/-- text.go:45-47 — `Nbsp`: `append([]byte(nil), nbsp...)`; `nbsp` is the package variable. -/
def Nbsp (grow : Slice → Nat → Nat) (nbsp : Slice) (m : Arrays UInt8) : Slice × Arrays UInt8 :=
  append grow 0 .nil (m.read nbsp) m

end Aitch
