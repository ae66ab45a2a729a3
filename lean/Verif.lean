import Verif.Model.Basic
import Verif.Model.Keccak
import Verif.Model.Hashing
import Verif.Model.Descriptor
import Verif.Model.Wordlist
import Verif.Model.Misc
import Verif.Model.Hash
import Verif.Model.Wots
import Verif.Model.XmssCommon
import Verif.Model.XmssCore
import Verif.Model.Bds
import Verif.Model.XmssApi
import Verif.Model.Pool
import Verif.Props.Hex
import Verif.Props.Mnemonic
import Verif.Props.Descriptor
import Verif.Props.Hashing
import Verif.Props.Wots
import Verif.Props.Verify
import Verif.Props.Basic
import Verif.Props.Fast
import Verif.Props.Pool
import Verif.Props.Address
import Verif.Props.Binding
import Verif.Props.Fips202
import Verif.Model.Js
import Verif.Model.Pq
import Verif.Props.Js
import Verif.Props.JsBasic
import Verif.Props.Pq
import Verif.Props.Reinit
import Verif.Spec.Loose
import Verif.Props.BasicFull
import Verif.Props.BasicKey
import Verif.Props.BasicAny
import Verif.Props.BadW
import Verif.Spec.LossyW
import Verif.Proof.AnyW
import Verif.Props.LossyW
import Verif.Model.UpdateSk
import Verif.Props.UpdateSk
import Verif.Model.JsRandom
import Verif.Props.JsRandom
import Verif.Model.Copy
import Verif.Props.Copy
import Verif.Model.RustBasic
import Verif.Model.RustKeccak
import Verif.Model.RustHash
import Verif.Model.RustWots
import Verif.Model.RustXmss
import Verif.Model.RustBds
import Verif.Model.RustApi
import Verif.Spec.Rust
import Verif.Spec.RustHistory
import Verif.Props.RustHash
import Verif.Props.RustKeys
import Verif.Props.RustVerify
import Verif.Props.RustSign
import Verif.Model.RustMisc
import Verif.Model.RustPool
import Verif.Model.RustPq
import Verif.Spec.RustText
import Verif.Spec.RustPool
import Verif.Spec.RustPq
import Verif.Spec.RustReinit
import Verif.Props.RustText
import Verif.Props.RustMisc
import Verif.Props.RustPool
import Verif.Props.RustPq
import Verif.Props.RustReinit
import Verif.Spec.Sha256
import Verif.Props.Vectors
import Verif.Spec.Crash
import Verif.Props.Recovery
import Verif.Props.Identity
import Verif.Spec.Signed
import Verif.Props.Forgery
import Verif.Spec.Forward
import Verif.Props.Forward
import Verif.Model.PoolEnd
import Verif.Props.PoolEnd
import Verif.Spec.ReinitAny
import Verif.Proof.FastAny
import Verif.Props.ReinitAny
import Verif.Model.Lifetime
import Verif.Spec.Lifetime
import Verif.Proof.Lifetime
import Verif.Props.Lifetime
import Verif.Spec.Reuse
import Verif.Props.Reuse
import Verif.Spec.RustAny
import Verif.Proof.RustAnyW
import Verif.Proof.RustFastAny
import Verif.Proof.RustBasicAny
import Verif.Proof.RustTall
import Verif.Proof.RustVerifyAny
import Verif.Props.RustAnyW
import Verif.Props.RustBasicAny
import Verif.Spec.RustWrap
import Verif.Proof.RustWrap
import Verif.Props.RustWrap
import Verif.Props.RustTall
import Verif.Props.PoolSeeds
import Verif.Spec.CrossWallet
import Verif.Props.CrossWallet
import Verif.Spec.KyberHistory
import Verif.Props.KyberHistory
import Verif.Model.Swig
import Verif.Spec.Swig
import Verif.Props.Swig
import Verif.Model.Threads
import Verif.Spec.Threads
import Verif.Proof.Locked
import Verif.Proof.Threads
import Verif.Proof.ThreadsBasic
import Verif.Props.Threads
import Verif.Spec.Queries
import Verif.Proof.Queries
import Verif.Props.Queries
import Verif.Spec.Price
import Verif.Props.Price
import Verif.Spec.OneKey
import Verif.Props.OneKey
import Verif.Spec.RustPrice
import Verif.Props.RustPrice
import Verif.Props.CrossVerify
import Verif.Model.JsKeypair
import Verif.Props.JsKeypair
import Verif.Model.Memory
import Verif.Spec.Memory
import Verif.Proof.Memory
import Verif.Props.Memory
import Verif.Model.RustLow
import Verif.Spec.RustLow
import Verif.Proof.RustLow
import Verif.Props.RustLow
import Verif.Props.Phrase
import Verif.Props.AddressValid
import Verif.Props.Stack
import Verif.Props.RustStable
import Verif.Props.RustPhrase
import Verif.Props.Rfc8391
import Verif.Model.CLow
import Verif.Model.BdsK
import Verif.Spec.CLow
import Verif.Proof.CLow
import Verif.Proof.BdsK
import Verif.Proof.BdsKApi
import Verif.Proof.BdsKLarge
import Verif.Props.CLow
import Verif.Props.BdsK
import Verif.Props.BdsKLarge
import Verif.Model.RustPanic
import Verif.Spec.RustPanic
import Verif.Proof.RustPanic
import Verif.Props.Leaves
import Verif.Props.RustPanic
import Verif.Model.RustSlices
import Verif.Spec.RustSlices
import Verif.Proof.RustSlices
import Verif.Props.RustSlices
import Verif.Model.RustBdsK
import Verif.Proof.RustBdsK
import Verif.Props.RustBdsK
import Verif.Proof.RustBdsKLarge
import Verif.Props.RustBdsKLarge
import Verif.Model.WotsN
import Verif.Spec.WotsN
import Verif.Proof.WotsN
import Verif.Props.WotsN
import Verif.Model.XmssN
import Verif.Proof.XmssN
import Verif.Props.XmssN
import Verif.Model.RustN
import Verif.Model.RustKeyN
import Verif.Proof.RustN
import Verif.Proof.RustKeyN
import Verif.Proof.RustKeyN32
import Verif.Props.RustN
import Verif.Props.RustKeyN
import Verif.Proof.RustN64
import Verif.Props.RustN64
