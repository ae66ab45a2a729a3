import Verif.Model.Basic
/-!
# src/qrl/qrlDescriptor.h and src/qrl/qrlHelper.h

The three enums are kept as the `Nat` value of their underlying integer; the `static_cast`s are
modelled as value-preserving (what gcc and clang do; values outside the enumerators' bit range are
formally unspecified in C++17).
-/

namespace Qrl

open Outcome

/-- `QRLDescriptor`, src/qrl/qrlDescriptor.h:17-103.
`hashFunction` is an `eHashFunction` (src/xmss-alt/eHashFunctions.h:3-7), `signatureType` an
`eSignatureType` (qrlDescriptor.h:13-15), `addrFormat` an `eAddrFormatType`
(src/qrl/qrlAddressFormat.h). `height` is a `uint8_t`. -/
structure Descriptor where
  hashFunction : Nat
  signatureType : Nat
  height : UInt8
  addrFormat : Nat
  deriving DecidableEq, Repr

/-- `eSignatureType::XMSS`, src/qrl/qrlDescriptor.h:14. -/
def sigTypeXMSS : Nat := 0

/-- `eAddrFormatType::SHA256_2X`, src/qrl/qrlAddressFormat.h:7. -/
def addrFormatSHA256_2X : Nat := 0

/-- `QRLDescriptor::getSize`, src/qrl/qrlDescriptor.h:75-78. -/
def descriptorSize : Nat := 3

/-- `QRLDescriptor::fromBytes`, src/qrl/qrlDescriptor.h:61-73. -/
def Descriptor.fromBytes (bytes : Bytes) : Outcome Descriptor :=
  match bytes with
  | [b0, b1, _] =>
    ok { hashFunction := (b0 &&& 0x0F).toNat
         signatureType := ((b0 >>> 4) &&& 0xF0).toNat
         height := (b1 &&& 0x0F) <<< 1
         addrFormat := ((b1 &&& 0xF0) >>> 4).toNat }
  | _ => throw .invalidArgument

/-- `QRLDescriptor::fromExtendedSeed`, src/qrl/qrlDescriptor.h:37-47. -/
def Descriptor.fromExtendedSeed (extendedSeed : Bytes) : Outcome Descriptor :=
  if extendedSeed.length ≠ 51 then throw .invalidArgument
  else Descriptor.fromBytes (extendedSeed.take descriptorSize)

/-- `QRLDescriptor::fromExtendedPK`, src/qrl/qrlDescriptor.h:49-59. -/
def Descriptor.fromExtendedPK (extendedPk : Bytes) : Outcome Descriptor :=
  if extendedPk.length ≠ 67 then throw .invalidArgument
  else Descriptor.fromBytes (extendedPk.take descriptorSize)

/-- `QRLDescriptor::getBytes`, src/qrl/qrlDescriptor.h:80-96
(`int` arithmetic, then truncation to `uint8_t`). -/
def Descriptor.getBytes (d : Descriptor) : Bytes :=
  [ UInt8.ofNat ((d.signatureType <<< 4) ||| (d.hashFunction &&& 0x0F)),
    UInt8.ofNat ((d.addrFormat <<< 4) ||| ((d.height.toNat >>> 1) &&& 0x0F)),
    0 ]

/-- `QRLHelper::getAddress`, src/qrl/qrlHelper.h:17-37. -/
def getAddress (S : Sha256) (extendedPk : Bytes) : Outcome Bytes := do
  let descr ← Descriptor.fromExtendedPK extendedPk
  if descr.addrFormat ≠ addrFormatSHA256_2X then throw .invalidArgument
  else
    let address := descr.getBytes
    let hashedKey := S.hash extendedPk
    let address := address ++ hashedKey
    let hashedKey2 := S.hash address
    ok (address ++ hashedKey2.drop (hashedKey2.length - 4))

/-- `catch (...) { return d; }`: every exception, but not undefined behaviour.
src/qrl/qrlHelper.h:64. -/
def Outcome.catchAll {α : Type} (x : Outcome α) (d : α) : Outcome α :=
  match x with
  | throw _ => ok d
  | y => y

/-- `QRLHelper::addressIsValid`, src/qrl/qrlHelper.h:39-67 (`&&` short-circuits). -/
def addressIsValid (S : Sha256) (address : Bytes) : Outcome Bool :=
  Outcome.catchAll (do
    if address.length ≠ descriptorSize + 32 + 4 then ok false
    else
      let descr ← Descriptor.fromBytes (address.take descriptorSize)
      if descr.addrFormat ≠ addrFormatSHA256_2X then ok false
      else
        let hk := S.hash (address.take (descriptorSize + 32))
        let eqAt (i j : Nat) : Outcome Bool := do
          let a ← rd address i
          let b ← rd hk j
          ok (a == b)
        if ← eqAt 35 28 then
          if ← eqAt 36 29 then
            if ← eqAt 37 30 then eqAt 38 31
            else ok false
          else ok false
        else ok false) false

end Qrl
