import Verif.Model.RustPool
import Verif.Spec.RustText
/-!
# What a user of the Rust key pool sees
-/

namespace Qrl.Spec

/-- The text the Rust pool hashes for the tree of an index: the base seed in hex followed by the decimal digits of
`index + 1`. -/
def rustPoolText (base : Bytes) (index : Nat) : Bytes := hexOf base ++ utf8 (Nat.toDigits 10 (index + 1))

/-- The 48-byte seed of the tree of an index: the SHA-256 digest followed by its own first half. -/
def rustPoolSeed (S : Sha256) (base : Bytes) (index : Nat) : Bytes :=
  S.hash (rustPoolText base index) ++ (S.hash (rustPoolText base index)).take 16

/-- An answer of `get_next_tree` (`Ok(tree)` or `Err(e)`) as the outcome of a constructor call. -/
def asRes {α : Type} : Except Rs.Err α → Rs.Res α
  | .ok t => .ok t
  | .error e => .err e

/-- `n` calls of `get_next_tree` on one pool: the answers and the pool afterwards; a panic ends the history. -/
def poolHistory (b : Rs.Build) (S : Sha256) : Nat → Rs.XMSSPool → Rs.Res (List (Except Rs.Err Rs.XMSSFast) × Rs.XMSSPool)
  | 0, p => .ok ([], p)
  | n + 1, p =>
    match p.getNextTree b S with
    | .ret t p' => do
      let r ← poolHistory b S n p'
      .ok (.ok t :: r.1, r.2)
    | .fail e p' => do
      let r ← poolHistory b S n p'
      .ok (.error e :: r.1, r.2)
    | .panic => .panic

end Qrl.Spec
