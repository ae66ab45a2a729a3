import Verif.Spec.Sig
import Verif.Spec.Reinit
/-!
# Forging from several signatures made with one one-time key

Nothing secret is used: only the hash function, the public key (root and seed) and the signatures.
-/

namespace Qrl.Spec

/-- The chain positions of a message under the randomiser and index that a signature carries. -/
def positionsUnder (G : Bytes → Bytes) (w : Nat) (root msg sig : Bytes) : List Nat :=
  wotsDigits w (digest G ((sig.drop 4).take 32) root (byteVal (sig.take 4)) msg)

/-- In every chain, one of the known (message, signature) pairs is at or before the position that `msg` needs. -/
def Covered (G : Bytes → Bytes) (w : Nat) (root : Bytes) (known : List (Bytes × Bytes)) (msg sig : Bytes) : Prop :=
  ∀ ch d' : Nat, (positionsUnder G w root msg sig)[ch]? = some d' →
    ∃ x ∈ known, ∃ d : Nat, (positionsUnder G w root x.1 x.2)[ch]? = some d ∧ d ≤ d'

/-- The signature put together from known ones: index, randomiser and authentication path of `sig`; in every chain the
value of the first known pair that is not beyond the position needed, hashed forward to it. -/
def spliceForward (G : Bytes → Bytes) (w : Nat) (root seed : Bytes) (known : List (Bytes × Bytes)) (msg sig : Bytes) : Bytes :=
  sig.take 36 ++
  ((List.range (lenW w)).map fun ch =>
    let d' := (positionsUnder G w root msg sig).getD ch 0
    match known.find? fun x => (positionsUnder G w root x.1 x.2).getD ch 0 ≤ d' with
    | none => []
    | some x =>
      let d := (positionsUnder G w root x.1 x.2).getD ch 0
      chain G seed (byteVal (sig.take 4)) ch d (d' - d) ((x.2.drop (36 + 32 * ch)).take 32)).flatten ++
  sig.drop (36 + 32 * lenW w)

/-- The messages and signatures of the `sign` calls that returned, in a history that may also call `initialize_tree`. -/
def fullPairs (cs : List FullCall) (rs : List FullReply) : List (Bytes × Bytes) :=
  (cs.zip rs).filterMap fun
    | (.basic (.sign m), some (.sig s)) => some (m, s)
    | _ => none

end Qrl.Spec
