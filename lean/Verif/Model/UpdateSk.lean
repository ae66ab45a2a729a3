import Verif.Model.XmssCore
/-!
# `xmss_updateSK`
-/

namespace Qrl

open Outcome

/-- `xmss_updateSK(sk, k)`, src/xmss-alt/algsxmss.c:199-216: the return code and the key afterwards. `k` is an
`unsigned long` (64 bits on the platforms the library is built for); `idx = k` keeps its low 32 bits. -/
def xmssUpdateSK (sk : Bytes) (k : UInt64) : Outcome (Int × Bytes) := do
  let idxkey ← be32At sk
  if idxkey ≥ k.toNat then ok (-1, sk)
  else
    let idx := k.toNat % 2 ^ 32
    let sk ← wr sk 0 (UInt8.ofNat (idx >>> 24))
    let sk ← wr sk 1 (UInt8.ofNat (idx >>> 16))
    let sk ← wr sk 2 (UInt8.ofNat (idx >>> 8))
    let sk ← wr sk 3 (UInt8.ofNat idx)
    ok (0, sk)

end Qrl
