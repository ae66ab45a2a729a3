import Verif.Model.Bds
import Verif.Model.Descriptor
/-!
# src/qrl/xmssBase.{h,cpp}, src/qrl/xmssBasic.cpp, src/qrl/xmssFast.cpp
-/

namespace Qrl

open Outcome

/-- The data members of `XmssBase`, src/qrl/xmssBase.h:89-97. -/
structure XmssBase where
  params : XmssParams
  hashFunction : Nat
  addrFormat : Nat
  height : UInt8
  sk : Bytes
  seed : Bytes
  deriving DecidableEq, Repr

/-- Runs `f` with the hash function of enum value `hf`. For an unsupported value every `core_hash` returns 1
without writing its output (src/xmss-alt/hash.c:84, `coreHashRaw_unsupported`), the callers ignore that and
go on computing with the uninitialised buffers: undefined behaviour. -/
def withHash {α : Type} (hf : Nat) (f : HashFn → Outcome α) : Outcome α :=
  match HashFn.ofNat? hf with
  | some h => f h
  | none => ub

/-- `XmssBase::calculateSignatureBaseSize`, src/qrl/xmssBase.cpp:69-73. -/
def calculateSignatureBaseSize (w : Nat) : Outcome Nat := do
  let p ← wotsSetParams w
  ok (4 + 32 + p.keysize)

/-- `XmssBase::getSignatureSize`, src/qrl/xmssBase.cpp:75-80. -/
def XmssBase.getSignatureSize (o : XmssBase) (w : Nat) : Outcome Nat := do
  let base ← calculateSignatureBaseSize w
  ok ((base + o.height.toNat * 32) % 2 ^ 32)

/-- `XmssBase::getHeightFromSigSize`, src/qrl/xmssBase.cpp:82-97 (truncated to `uint8_t`). -/
def getHeightFromSigSize (sigSize w : Nat) : Outcome UInt8 := do
  let base ← calculateSignatureBaseSize w
  if sigSize < base then throw .invalidArgument
  else if (sigSize - 4) % 32 ≠ 0 then throw .invalidArgument
  else ok (UInt8.ofNat ((sigSize - base) / 32))

/-- `XmssBase::getSKSeed`, src/qrl/xmssBase.cpp:109-113. -/
def XmssBase.getSKSeed (o : XmssBase) : Outcome Bytes := slice o.sk 4 32
/-- `XmssBase::getSKPRF`, src/qrl/xmssBase.cpp:115-119. -/
def XmssBase.getSKPRF (o : XmssBase) : Outcome Bytes := slice o.sk 36 32
/-- `XmssBase::getPKSeed`, src/qrl/xmssBase.cpp:121-125. -/
def XmssBase.getPKSeed (o : XmssBase) : Outcome Bytes := slice o.sk 68 32
/-- `XmssBase::getRoot`, src/qrl/xmssBase.cpp:127-131. -/
def XmssBase.getRoot (o : XmssBase) : Outcome Bytes := slice o.sk 100 32

/-- `XmssBase::getIndex`, src/qrl/xmssBase.cpp:133-139 (sum of shifted bytes, reduced to `uint32_t`). -/
def XmssBase.getIndex (o : XmssBase) : Outcome Nat := do
  let b0 ← rd o.sk 0
  let b1 ← rd o.sk 1
  let b2 ← rd o.sk 2
  let b3 ← rd o.sk 3
  ok (((b0.toNat <<< 24) + (b1.toNat <<< 16) + (b2.toNat <<< 8) + b3.toNat) % 2 ^ 32)

/-- `XmssBase::setIndex`, src/qrl/xmssBase.cpp:141-152 (used unchanged by `XmssBasic`): no check at all. -/
def XmssBase.setIndex (o : XmssBase) (newIndex : Nat) : Outcome (Nat × XmssBase) := do
  let sk ← wr o.sk 3 (UInt8.ofNat newIndex)
  let sk ← wr sk 2 (UInt8.ofNat (newIndex >>> 8))
  let sk ← wr sk 1 (UInt8.ofNat (newIndex >>> 8 >>> 8))
  let sk ← wr sk 0 (UInt8.ofNat (newIndex >>> 8 >>> 8 >>> 8))
  let o := { o with sk := sk }
  let i ← o.getIndex
  ok (i, o)

/-- `XmssBase::getDescriptor`, src/qrl/xmssBase.cpp:183-191. -/
def XmssBase.getDescriptor (o : XmssBase) : Descriptor :=
  { hashFunction := o.hashFunction, signatureType := sigTypeXMSS, height := o.height,
    addrFormat := o.addrFormat }

/-- `XmssBase::getDescriptorBytes`, src/qrl/xmssBase.cpp:193-196. -/
def XmssBase.getDescriptorBytes (o : XmssBase) : Bytes := o.getDescriptor.getBytes

/-- `XmssBase::getPK`, src/qrl/xmssBase.cpp:159-174. -/
def XmssBase.getPK (o : XmssBase) : Outcome Bytes := do
  let root ← o.getRoot
  let pubseed ← o.getPKSeed
  ok (o.getDescriptorBytes ++ root ++ pubseed)

/-- `XmssBase::getExtendedSeed`, src/qrl/xmssBase.cpp:176-181. -/
def XmssBase.getExtendedSeed (o : XmssBase) : Bytes := o.getDescriptorBytes ++ o.seed

/-- `XmssBase::getAddress`, src/qrl/xmssBase.cpp:198-201. -/
def XmssBase.getAddress (S : Sha256) (o : XmssBase) : Outcome Bytes := do
  let pk ← o.getPK
  Qrl.getAddress S pk

/-- `XmssBase::getNumberSignatures`, src/qrl/xmssBase.h:71: `1 << height` is undefined from 32 on. -/
def XmssBase.getNumberSignatures (o : XmssBase) : Outcome Nat :=
  if o.height.toNat ≥ 32 then ub else ok (2 ^ o.height.toNat)

/-- `XmssBase::getRemainingSignatures`, src/qrl/xmssBase.h:73 (`uint32_t` subtraction). -/
def XmssBase.getRemainingSignatures (o : XmssBase) : Outcome Nat := do
  let n ← o.getNumberSignatures
  let i ← o.getIndex
  ok (sub32 n i)

/-- `XmssBase::verify`, src/qrl/xmssBase.cpp:203-259, with the final contents of the private copy of the
message that `xmss_Verifysig` writes to (line 249). -/
def verifyFull (S : Sha256) (message signature extendedPk : Bytes) (w : Nat) :
    Outcome (Bool × Bytes) :=
  catchInvalid (do
    if extendedPk.length ≠ 67 then throw .invalidArgument
    else
      let base ← calculateSignatureBaseSize w
      if signature.length > base + 254 * 32 then throw .invalidArgument
      else
        let desc ← Descriptor.fromExtendedPK extendedPk
        if desc.signatureType ≠ sigTypeXMSS then ok (false, message)
        else
          let height ← getHeightFromSigSize signature.length w
          if height = 0 ∨ desc.height ≠ height then ok (false, message)
          else if 2 ≥ height.toNat ∨ (height.toNat - 2) % 2 ≠ 0 then throw .invalidArgument
          else
            let p ← xmssSetParams height.toNat w
            withHash desc.hashFunction fun hf => do
              let (rc, msg) ← xmssVerifysig S hf p.wots message signature (extendedPk.drop 3) height.toNat
              ok (rc == 0, msg)) (false, message)

/-- `XmssBase::verify`, src/qrl/xmssBase.cpp:203-259: the returned boolean. -/
def verify (S : Sha256) (message signature extendedPk : Bytes) (w : Nat) : Outcome Bool := do
  let (b, _) ← verifyFull S message signature extendedPk w
  ok b

/-- The checks of `XmssBase::XmssBase(seed, height, …)`, src/qrl/xmssBase.cpp:34-50. -/
def baseCtorCheck (seed : Bytes) (height : UInt8) : Outcome Unit :=
  if seed.length ≠ 48 then throw .invalidArgument
  else if height.toNat > 254 then throw .invalidArgument
  else ok ()

/-- `XmssBasic::XmssBasic`, src/qrl/xmssBasic.cpp:9-49. -/
def XmssBasic.new (S : Sha256) (seed : Bytes) (height : UInt8) (hashFunction addrFormat w : Nat) :
    Outcome XmssBase := do
  baseCtorCheck seed height
  if seed.length ≠ 48 then throw .invalidArgument
  else if 2 ≥ height.toNat ∨ (height.toNat - 2) % 2 ≠ 0 then throw .invalidArgument
  else
    let p ← xmssSetParams height.toNat w
    withHash hashFunction fun hf => do
      let sk ← xmssGenkeypair S hf p seed
      ok { params := p, hashFunction := hashFunction, addrFormat := addrFormat, height := height,
           sk := sk, seed := seed }

/-- The zero-filled signature vector of `size` bytes after `data` was written from its start;
writing past its end is undefined (src/qrl/xmssBasic.cpp:53, xmssFast.cpp:81). -/
def fillBuffer (size : Nat) (data : Bytes) : Outcome Bytes :=
  if data.length ≤ size then ok (data ++ List.replicate (size - data.length) 0) else ub

/-- `XmssBasic::sign`, src/qrl/xmssBasic.cpp:52-63. -/
def XmssBasic.sign (S : Sha256) (o : XmssBase) (message : Bytes) : Outcome (Bytes × XmssBase) := do
  let size ← o.getSignatureSize o.params.wots.w
  withHash o.hashFunction fun hf => do
    let (sk, data) ← xmssSignmsg S hf o.params o.sk message
    let sig ← fillBuffer size data
    ok (sig, { o with sk := sk })

/-- `XmssFast`, src/qrl/xmssFast.h:12-37: the base members and the traversal state
(`_state` and the vectors it points into). -/
structure XmssFast extends XmssBase where
  state : BdsState
  deriving DecidableEq, Repr

/-- The part of `XmssFast::initialize_tree` after the height check, src/qrl/xmssFast.cpp:35-65: new
parameters, secret key and traversal state from the members `height`, `hashFunction`, `seed`. -/
def initTree (S : Sha256) (height : UInt8) (hashFunction : Nat) (seed : Bytes) (w : Nat) :
    Outcome (XmssParams × Bytes × BdsState) := do
  let p ← xmssSetParams height.toNat w
  withHash hashFunction fun hf => do
    let (sk, st) ← xmssfastGenkeypair S hf p (List.replicate 132 0) (bdsInit height.toNat) seed
    ok (p, sk, st)

/-- `XmssFast::initialize_tree` as a public method of an existing object, src/qrl/xmssFast.cpp:22-66.
The secret key is zeroed (line 24) before the height check (line 31). -/
def XmssFast.initializeTree (S : Sha256) (o : XmssFast) (w : Nat) : Step XmssFast Unit :=
  let o := { o with sk := List.replicate 132 0 }
  if 2 ≥ o.height.toNat ∨ (o.height.toNat - 2) % 2 ≠ 0 then .raise .invalidArgument o
  else
    Step.ofOutcome o do
      let (p, sk, st) ← initTree S o.height o.hashFunction o.seed w
      ok ((), { o with params := p, sk := sk, state := st })

/-- Construction of the object once the members are known: `initialize_tree()` with the default
`wotsParamW = 16` (src/qrl/xmssFast.h:14), src/qrl/xmssFast.cpp:13 and 19. -/
def XmssFast.build (S : Sha256) (seed : Bytes) (height : UInt8) (hashFunction addrFormat : Nat) :
    Outcome XmssFast := do
  if 2 ≥ height.toNat ∨ (height.toNat - 2) % 2 ≠ 0 then throw .invalidArgument
  else
    let (p, sk, st) ← initTree S height hashFunction seed 16
    ok { params := p, hashFunction := hashFunction, addrFormat := addrFormat, height := height,
         sk := sk, seed := seed, state := st }

/-- `XmssFast::XmssFast(seed, height, hashFunction, addrFormatType)`, src/qrl/xmssFast.cpp:7-14. -/
def XmssFast.new (S : Sha256) (seed : Bytes) (height : UInt8) (hashFunction addrFormat : Nat) :
    Outcome XmssFast := do
  baseCtorCheck seed height
  XmssFast.build S seed height hashFunction addrFormat

/-- `XmssFast::XmssFast(extended_seed)`, src/qrl/xmssFast.cpp:16-20 and
`XmssBase::XmssBase(extended_seed)`, src/qrl/xmssBase.cpp:52-67. -/
def XmssFast.fromExtendedSeed (S : Sha256) (extendedSeed : Bytes) : Outcome XmssFast := do
  if extendedSeed.length ≠ 51 then throw .invalidArgument
  else
    let desc ← Descriptor.fromExtendedSeed extendedSeed
    XmssFast.build S (extendedSeed.drop descriptorSize) desc.height desc.hashFunction desc.addrFormat

/-- `XmssFast::setIndex`, src/qrl/xmssFast.cpp:68-77. -/
def XmssFast.setIndex (S : Sha256) (o : XmssFast) (newIndex : Nat) : Step XmssFast Nat :=
  match HashFn.ofNat? o.hashFunction with
  | none => .ub
  | some hf =>
    match xmssfastUpdate S hf o.params (o.sk, o.state) newIndex with
    | .ret _ s => .ret newIndex { o with sk := s.1, state := s.2 }
    | .raise e s => .raise e { o with sk := s.1, state := s.2 }
    | .ub => .ub

/-- `XmssFast::sign`, src/qrl/xmssFast.cpp:79-95. -/
def XmssFast.sign (S : Sha256) (o : XmssFast) (message : Bytes) : Step XmssFast Bytes :=
  match o.getSignatureSize o.params.wots.w, o.getIndex with
  | .ok size, .ok index =>
    match o.setIndex S index with
    | .ret _ o =>
      Step.ofOutcome o do
        withHash o.hashFunction fun hf => do
          let (data, (sk, st)) ← xmssfastSignmsg S hf o.params o.sk o.state message
          let sig ← fillBuffer size data
          ok (sig, { o with sk := sk, state := st })
    | .raise e o => .raise e o
    | .ub => .ub
  | _, _ => .ub

end Qrl
