import Verif.Model.RustBds
/-!
# src/rust_wrapper/qrl/qrl_descriptor.rs, qrl_helper.rs, xmss_base.rs, xmss_basic.rs and xmss_fast.rs

`SignatureType` and `AddrFormatType` have one value each in Rust (qrl_descriptor.rs:6-8, qrl_address_format.rs:1-4), so
no member holds them here. An `Option<u32>` argument `wots_param_w` is the number it stands for (16 if absent).
-/

namespace Qrl.Rs

open Res

/-- `QRLDescriptor`, src/rust_wrapper/qrl/qrl_descriptor.rs:10-15. -/
structure Descriptor where
  hashFunction : HashFn
  height : UInt8
  deriving DecidableEq, Repr

/-- `QRLDescriptor::from_bytes`, src/rust_wrapper/qrl/qrl_descriptor.rs:50-91. -/
def Descriptor.fromBytes (bytes : Bytes) : Res Descriptor :=
  match bytes with
  | [b0, b1, _] => do
    let hf ← match (b0 &&& 0x0F).toNat with
      | 0 => ok HashFn.sha2_256
      | 1 => ok HashFn.shake_128
      | 2 => ok HashFn.shake_256
      | _ => err .failedConversion
    if (b0 >>> 4) &&& 0xF0 ≠ 0 then err .failedConversion
    else if (b1 &&& 0xF0) >>> 4 ≠ 0 then err .failedConversion
    else ok { hashFunction := hf, height := (b1 &&& 0x0F) <<< 1 }
  | _ => err .invalidArgument

/-- `QRLDescriptor::from_extended_seed`, src/rust_wrapper/qrl/qrl_descriptor.rs:97-106. -/
def Descriptor.fromExtendedSeed (extendedSeed : Bytes) : Res Descriptor :=
  if extendedSeed.length ≠ 51 then err .invalidArgument
  else Descriptor.fromBytes (extendedSeed.take 3)

/-- `QRLDescriptor::from_extended_pk`, src/rust_wrapper/qrl/qrl_descriptor.rs:108-117. -/
def Descriptor.fromExtendedPk (extendedPk : Bytes) : Res Descriptor :=
  if extendedPk.length ≠ 67 then err .invalidArgument
  else Descriptor.fromBytes (extendedPk.take 3)

/-- `QRLDescriptor::get_bytes`, src/rust_wrapper/qrl/qrl_descriptor.rs:119-134. -/
def Descriptor.getBytes (d : Descriptor) : Bytes :=
  [((0 : UInt8) <<< 4) ||| (UInt8.ofNat d.hashFunction.toNat &&& 0x0F), ((0 : UInt8) <<< 4) ||| ((d.height >>> 1) &&& 0x0F), 0]

/-- `get_address`, src/rust_wrapper/qrl/qrl_helper.rs:6-35 (the format test cannot fail). -/
def getAddress (S : Sha256) (extendedPk : Bytes) : Res Bytes := do
  let descr ← Descriptor.fromExtendedPk extendedPk
  let address := descr.getBytes
  let hashedKey := sha2_256 S extendedPk
  let address := address ++ hashedKey
  let hashedKey2 := sha2_256 S address
  let segment ← slice hashedKey2 (hashedKey2.length - 4) 4
  ok (address ++ segment)

/-- `address_is_valid`, src/rust_wrapper/qrl/qrl_helper.rs:37-61 (`&&` short-circuits). -/
def addressIsValid (S : Sha256) (address : Bytes) : Res Bool :=
  if address.length ≠ 3 + 32 + 4 then ok false
  else
    match Descriptor.fromBytes (address.take 3) with
    | .ok _ => do
      let hk := sha2_256 S (address.take (3 + 32))
      let eqAt (i j : Nat) : Res Bool := do
        let a ← rd address i
        let b ← rd hk j
        ok (a == b)
      if ← eqAt 35 28 then
        if ← eqAt 36 29 then
          if ← eqAt 37 30 then eqAt 38 31
          else ok false
        else ok false
      else ok false
    | _ => ok false

/-- Result of a call with a `&mut` argument: returned value or `Err` with the state it leaves, or a panic.
For instance `XMSSFast::sign`, src/rust_wrapper/qrl/xmss_fast.rs:145-163. -/
inductive Step (σ α : Type) where
  | ret (a : α) (s : σ)
  | fail (e : Err) (s : σ)
  | panic
  deriving DecidableEq, Repr

/-- Value and new state, `Err` with the state `s`, or a panic.
Used for src/rust_wrapper/qrl/xmss_fast.rs:132-163. -/
def Step.ofRes {σ α : Type} (s : σ) : Res (α × σ) → Step σ α
  | .ok (a, s') => .ret a s'
  | .err e => .fail e s
  | .panic => .panic

/-- `XMSSBase`, src/rust_wrapper/qrl/xmss_base.rs:47-53. -/
structure XMSSBase where
  hashFunction : HashFn
  height : UInt8
  sk : Bytes
  seed : Bytes
  deriving DecidableEq, Repr

/-- `XMSSBase::new`, src/rust_wrapper/qrl/xmss_base.rs:56-80. -/
def XMSSBase.new (hf : HashFn) (height : UInt8) (sk seed : Bytes) : Res XMSSBase :=
  if seed.length ≠ 48 then err .invalidArgument
  else if height.toNat > 254 then err .invalidArgument
  else ok { hashFunction := hf, height := height, sk := sk, seed := seed }

/-- `XMSSBase::from_extended_seed`, src/rust_wrapper/qrl/xmss_base.rs:82-104. -/
def XMSSBase.fromExtendedSeed (extendedSeed sk : Bytes) : Res XMSSBase :=
  if extendedSeed.length ≠ 51 then err .invalidArgument
  else do
    let desc ← Descriptor.fromExtendedSeed extendedSeed
    ok { hashFunction := desc.hashFunction, height := desc.height, sk := sk, seed := extendedSeed.drop 3 }

/-- `calculate_signature_base_size`, src/rust_wrapper/qrl/xmss_base.rs:145-149. -/
def signatureBaseSize (w : Nat) : Nat := 4 + 32 + (wotsParams w).keysize

/-- `get_signature_size`, src/rust_wrapper/qrl/xmss_base.rs:151-155. -/
def XMSSBase.getSignatureSize (o : XMSSBase) (w : Nat) : Nat := signatureBaseSize w + o.height.toNat * 32

/-- `get_height_from_sig_size`, src/rust_wrapper/qrl/xmss_base.rs:157-177 (truncated to `u8`). -/
def getHeightFromSigSize (sigSize w : Nat) : Res UInt8 :=
  if sigSize < signatureBaseSize w then err .invalidArgument
  else if (sigSize - 4) % 32 ≠ 0 then err .invalidArgument
  else ok (UInt8.ofNat ((sigSize - signatureBaseSize w) / 32))

/-- `get_sk_seed`, src/rust_wrapper/qrl/xmss_base.rs:187-190. -/
def XMSSBase.getSkSeed (o : XMSSBase) : Res Bytes := slice o.sk 4 32
/-- `get_sk_prf`, src/rust_wrapper/qrl/xmss_base.rs:192-195. -/
def XMSSBase.getSkPrf (o : XMSSBase) : Res Bytes := slice o.sk 36 32
/-- `get_pk_seed`, src/rust_wrapper/qrl/xmss_base.rs:197-200. -/
def XMSSBase.getPkSeed (o : XMSSBase) : Res Bytes := slice o.sk 68 32
/-- `get_root`, src/rust_wrapper/qrl/xmss_base.rs:202-205. -/
def XMSSBase.getRoot (o : XMSSBase) : Res Bytes := slice o.sk 100 32

/-- `get_index`, src/rust_wrapper/qrl/xmss_base.rs:207-210 (the sum of the four disjoint parts fits a `u32`). -/
def XMSSBase.getIndex (o : XMSSBase) : Res Nat := do
  let b0 ← rd o.sk 0
  let b1 ← rd o.sk 1
  let b2 ← rd o.sk 2
  let b3 ← rd o.sk 3
  ok ((b0.toNat <<< 24) + (b1.toNat <<< 16) + (b2.toNat <<< 8) + b3.toNat)

/-- `XMSSBase::set_index`, src/rust_wrapper/qrl/xmss_base.rs:128-138, used unchanged by `XMSSBasic`: no check. -/
def XMSSBase.setIndex (o : XMSSBase) (newIndex : Nat) : Res (Nat × XMSSBase) := do
  let sk ← wr o.sk 3 (UInt8.ofNat (newIndex &&& 0xFF))
  let newIndex := newIndex >>> 8
  let sk ← wr sk 2 (UInt8.ofNat (newIndex &&& 0xFF))
  let newIndex := newIndex >>> 8
  let sk ← wr sk 1 (UInt8.ofNat (newIndex &&& 0xFF))
  let newIndex := newIndex >>> 8
  let sk ← wr sk 0 (UInt8.ofNat (newIndex &&& 0xFF))
  let o := { o with sk := sk }
  let i ← o.getIndex
  ok (i, o)

/-- `get_descriptor_bytes`, src/rust_wrapper/qrl/xmss_base.rs:216-227. -/
def XMSSBase.getDescriptorBytes (o : XMSSBase) : Bytes :=
  ({ hashFunction := o.hashFunction, height := o.height } : Descriptor).getBytes

/-- `get_pk`, src/rust_wrapper/qrl/xmss_base.rs:229-243. -/
def XMSSBase.getPk (o : XMSSBase) : Res Bytes := do
  let root ← o.getRoot
  let pubseed ← o.getPkSeed
  ok (o.getDescriptorBytes ++ root ++ pubseed)

/-- `get_extended_seed`, src/rust_wrapper/qrl/xmss_base.rs:245-249. -/
def XMSSBase.getExtendedSeed (o : XMSSBase) : Bytes := o.getDescriptorBytes ++ o.seed

/-- `get_address`, src/rust_wrapper/qrl/xmss_base.rs:251-253. -/
def XMSSBase.getAddress (S : Sha256) (o : XMSSBase) : Res Bytes := do
  let pk ← o.getPk
  Rs.getAddress S pk

/-- `get_number_signatures`, src/rust_wrapper/qrl/xmss_base.rs:324-326. -/
def XMSSBase.getNumberSignatures (b : Build) (o : XMSSBase) : Res Nat := shl1 b o.height.toNat

/-- `get_remaining_signatures`, src/rust_wrapper/qrl/xmss_base.rs:328-330. -/
def XMSSBase.getRemainingSignatures (b : Build) (o : XMSSBase) : Res Nat := do
  let n ← o.getNumberSignatures b
  let i ← o.getIndex
  u32sub b n i

/-- `verify`, src/rust_wrapper/qrl/xmss_base.rs:255-318, with the message buffer it may write to. The signature type in
the descriptor can only be XMSS. -/
def verify (b : Build) (S : Sha256) (message signature extendedPk : Bytes) (w : Nat) : Step Bytes Unit :=
  if extendedPk.length ≠ 67 then .fail .invalidArgument message
  else if signature.length > signatureBaseSize w + 254 * 32 then .fail .invalidArgument message
  else
    match Descriptor.fromExtendedPk extendedPk with
    | .panic => .panic
    | .err e => .fail e message
    | .ok desc =>
      match getHeightFromSigSize signature.length w with
      | .panic => .panic
      | .err e => .fail e message
      | .ok height =>
        if height = 0 ∨ desc.height ≠ height then .fail .invalidArgument message
        else if 2 ≥ height.toNat ∨ (height.toNat - 2) % 2 ≠ 0 then .fail .invalidArgument message
        else
          match xmssParams height.toNat w with
          | .panic => .panic
          | .err e => .fail e message
          | .ok p =>
            match xmssVerifySig b S desc.hashFunction p.wots message signature (extendedPk.drop 3) height.toNat with
            | .ok (rc, message) => if rc = 0 then .ret () message else .fail .invalidArgument message
            | .err e => .fail e message
            | .panic => .panic

/-- `XMSSBasic`, src/rust_wrapper/qrl/xmss_basic.rs:12-15. -/
structure XMSSBasic extends XMSSBase where
  params : XmssParams
  deriving DecidableEq, Repr

/-- `XMSSBasic::new`, src/rust_wrapper/qrl/xmss_basic.rs:18-62. -/
def XMSSBasic.new (b : Build) (S : Sha256) (seed : Bytes) (height : UInt8) (hf : HashFn) (w : Nat) : Res XMSSBasic :=
  if seed.length ≠ 48 then err .invalidArgument
  else if 2 ≥ height.toNat ∨ (height.toNat - 2) % 2 ≠ 0 then err .invalidArgument
  else do
    let p ← xmssParams height.toNat w
    let sk ← xmssGenKeypair b S hf p seed
    let base ← XMSSBase.new hf height sk seed
    ok { toXMSSBase := base, params := p }

/-- The signature vector `vec![0; size]` after `data` was written from its start; writing past its end panics
(src/rust_wrapper/qrl/xmss_basic.rs:93-94, xmss_fast.rs:146-147). -/
def fillBuffer (size : Nat) (data : Bytes) : Res Bytes :=
  if data.length ≤ size then ok (data ++ List.replicate (size - data.length) 0) else panic

/-- `XMSSBasic::sign`, src/rust_wrapper/qrl/xmss_basic.rs:92-106. -/
def XMSSBasic.sign (b : Build) (S : Sha256) (o : XMSSBasic) (message : Bytes) : Res (Bytes × XMSSBasic) := do
  let (sk, data) ← xmssSignMsg b S o.hashFunction o.params o.sk message
  let sig ← fillBuffer (o.getSignatureSize o.params.wots.w) data
  ok (sig, { o with sk := sk })

/-- `XMSSFast`, src/rust_wrapper/qrl/xmss_fast.rs:10-14. -/
structure XMSSFast extends XMSSBase where
  params : XmssParams
  state : BdsState
  deriving DecidableEq, Repr

/-- `XMSSFast::initialize_tree`, src/rust_wrapper/qrl/xmss_fast.rs:17-65. If it panics the object is not used again. -/
def XMSSFast.initializeTree (b : Build) (S : Sha256) (o : XMSSFast) (w : Nat) : Step XMSSFast Unit :=
  if 2 ≥ o.height.toNat ∨ (o.height.toNat - 2) % 2 ≠ 0 then .fail .invalidArgument o
  else
    match xmssParams o.height.toNat w with
    | .panic => .panic
    | .err e => .fail e o
    | .ok p =>
      let o := { o with params := p, state := bdsInit o.height.toNat }
      Step.ofRes o do
        let (sk, st) ← xmssFastGenKeypair b S o.hashFunction o.params (o.sk.drop 100) o.state o.seed
        ok ((), { o with sk := sk, state := st })

/-- The object before `initialize_tree` runs: zero key, default parameters and state,
src/rust_wrapper/qrl/xmss_fast.rs:83-91 and 97-105. -/
def XMSSFast.blank (base : XMSSBase) : XMSSFast :=
  { toXMSSBase := base, params := { wots := ⟨0, 0, 0, 0, 0, 0⟩, h := 0 }
    state := { stack := [], stackoffset := 0, stacklevels := [], auth := [], keep := [], treehash := [], retain := []
               nextLeaf := 0 } }

/-- `xmss_fast.initialize_tree(..)?; return Ok(xmss_fast)`, src/rust_wrapper/qrl/xmss_fast.rs:92-93 and 106-107. -/
def XMSSFast.build (b : Build) (S : Sha256) (base : XMSSBase) (w : Nat) : Res XMSSFast :=
  match (XMSSFast.blank base).initializeTree b S w with
  | .ret _ o => ok o
  | .fail e _ => err e
  | .panic => panic

/-- `XMSSFast::new`, src/rust_wrapper/qrl/xmss_fast.rs:67-94. -/
def XMSSFast.new (b : Build) (S : Sha256) (seed : Bytes) (height : UInt8) (hf : HashFn) (w : Nat) : Res XMSSFast :=
  if seed.length ≠ 48 then err .invalidArgument
  else do
    let base ← XMSSBase.new hf height (List.replicate 132 0) seed
    XMSSFast.build b S base w

/-- `XMSSFast::from_extended_seed`, src/rust_wrapper/qrl/xmss_fast.rs:96-108. -/
def XMSSFast.fromExtendedSeed (b : Build) (S : Sha256) (extendedSeed : Bytes) : Res XMSSFast := do
  let base ← XMSSBase.fromExtendedSeed extendedSeed (List.replicate 132 0)
  XMSSFast.build b S base 16

/-- `XMSSFast::set_index`, src/rust_wrapper/qrl/xmss_fast.rs:132-141. -/
def XMSSFast.setIndex (b : Build) (S : Sha256) (o : XMSSFast) (newIndex : Nat) : Step XMSSFast Nat :=
  Step.ofRes o do
    let (sk, st) ← xmssFastUpdate b S o.hashFunction o.params o.sk o.state newIndex
    ok (newIndex, { o with sk := sk, state := st })

/-- `XMSSFast::sign`, src/rust_wrapper/qrl/xmss_fast.rs:145-163. -/
def XMSSFast.sign (b : Build) (S : Sha256) (o : XMSSFast) (message : Bytes) : Step XMSSFast Bytes :=
  match o.getIndex with
  | .ok index =>
    match o.setIndex b S index with
    | .ret _ o =>
      Step.ofRes o do
        let (data, (sk, st)) ← xmssFastSignMsg b S o.hashFunction o.params o.sk o.state message
        let sig ← fillBuffer (o.getSignatureSize o.params.wots.w) data
        ok (sig, { o with sk := sk, state := st })
    | .fail e o => .fail e o
    | .panic => .panic
  | _ => .panic

end Qrl.Rs
