import Verif.Model.Misc
import Verif.Model.Hashing
import Verif.Model.XmssApi
/-!
# src/jswrapper/jsqrlwrapper.cpp

The functions and classes exported to JavaScript. A JS string is the byte list of the `std::string`
emscripten makes of it; the emscripten glue itself (conversions, object handles) is not modelled.
`XmssWrapper` and `XmssBasicWrapper` have a single data member each (lines 130 and 193), so they are
represented by that member.
-/

namespace Qrl.Js

open Outcome

/-- `XmssWrapper::XmssWrapper`, jsqrlwrapper.cpp:15-19: the address format is left at its default
`SHA256_2X` (src/qrl/xmssFast.h:18). Also `fromParameters`, 66-72. -/
def xmssFromParameters (S : Sha256) (seed : Bytes) (height : UInt8) (hashFunction : Nat) : Outcome XmssFast :=
  XmssFast.new S seed height hashFunction addrFormatSHA256_2X

/-- The common part of `fromHexSeed` and `fromMnemonic`, jsqrlwrapper.cpp:77-88 and 94-105. -/
def fromSeedBytes (S : Sha256) (extendedSeed : Bytes) : Outcome XmssFast := do
  let descr ← Descriptor.fromExtendedSeed extendedSeed
  let rawSeed := extendedSeed.drop descriptorSize
  xmssFromParameters S rawSeed descr.height descr.hashFunction

/-- `XmssWrapper::fromHexSeed`, jsqrlwrapper.cpp:74-89. -/
def xmssFromHexSeed (S : Sha256) (hexseed : Bytes) : Outcome XmssFast := do
  let extendedSeed ← hstr2bin hexseed
  fromSeedBytes S extendedSeed

/-- `XmssWrapper::fromMnemonic`, jsqrlwrapper.cpp:91-106. -/
def xmssFromMnemonic (S : Sha256) (mnemonic : Bytes) : Outcome XmssFast := do
  let extendedSeed ← mnemonic2bin mnemonic
  fromSeedBytes S extendedSeed

/-- `XmssWrapper::getPK`, jsqrlwrapper.cpp:36-39, and `XmssBasicWrapper::getPK`, 178-181. -/
def getPK (o : XmssBase) : Outcome Bytes := do
  let pk ← o.getPK
  ok (bin2hstr pk 0)

/-- `XmssWrapper::getAddress`, jsqrlwrapper.cpp:46-49: `'Q'` and the hex text. -/
def getAddress (S : Sha256) (o : XmssBase) : Outcome Bytes := do
  let a ← o.getAddress S
  ok (0x51 :: bin2hstr a 0)

/-- `XmssWrapper::getHexSeed`, jsqrlwrapper.cpp:51-55, and `XmssBasicWrapper::getHexSeed`, 167-171. -/
def getHexSeed (o : XmssBase) : Bytes := bin2hstr o.getExtendedSeed 0

/-- `XmssWrapper::getMnemonic`, jsqrlwrapper.cpp:57-61. -/
def getMnemonic (o : XmssBase) : Outcome Bytes := bin2mnemonic o.getExtendedSeed

/-- `XmssWrapper::verify`, jsqrlwrapper.cpp:121-127: the default `wotsParamW = 16`. -/
def xmssVerify (S : Sha256) (message signature pk : Bytes) : Outcome Bool := Qrl.verify S message signature pk 16

/-- `XmssBasicWrapper::XmssBasicWrapper` and `fromParameters`, jsqrlwrapper.cpp:134-150. -/
def basicFromParameters (S : Sha256) (seed : Bytes) (height : UInt8) (hashFunction addrFormat w : Nat) :
    Outcome XmssBase :=
  XmssBasic.new S seed height hashFunction addrFormat w

/-- `XmssBasicWrapper::verify`, jsqrlwrapper.cpp:183-190. -/
def basicVerify (S : Sha256) (message signature pk : Bytes) (w : Nat) : Outcome Bool :=
  Qrl.verify S message signature pk w

/-- `getBinAddress`, jsqrlwrapper.cpp:226-234: the first character is dropped unread. -/
def getBinAddress (addressStr : Bytes) : Outcome Bytes :=
  if addressStr.length < 1 + 2 * descriptorSize then throw .invalidArgument
  else hstr2bin (addressStr.drop 1)

/-- The iterator range `[cbegin, cbegin + 3)` of `address`, jsqrlwrapper.cpp:246-249, 263-266, 276-279: undefined if the
vector is shorter. -/
def descrBytes (address : Bytes) : Outcome Bytes := slice address 0 descriptorSize

/-- `_getHashFunction`, jsqrlwrapper.cpp:236-252. -/
def getHashFunction (addressStr : Bytes) : Outcome Nat := do
  let address ← getBinAddress addressStr
  if address.length < descriptorSize then throw .invalidArgument
  else
    let b ← descrBytes address
    let descr ← Descriptor.fromBytes b
    ok descr.hashFunction

/-- `_getSignatureType`, jsqrlwrapper.cpp:254-269. -/
def getSignatureType (addressStr : Bytes) : Outcome Nat := do
  let address ← getBinAddress addressStr
  if address.length < descriptorSize then throw .invalidArgument
  else
    let b ← descrBytes address
    let descr ← Descriptor.fromBytes b
    ok descr.signatureType

/-- `_getHeight`, jsqrlwrapper.cpp:271-282: no check of the decoded size. -/
def getHeight (addressStr : Bytes) : Outcome UInt8 := do
  let address ← getBinAddress addressStr
  let b ← descrBytes address
  let descr ← Descriptor.fromBytes b
  ok descr.height

/-- `_getAddress`, jsqrlwrapper.cpp:290-300: no leading `'Q'` in the result. -/
def addressOfEpk (S : Sha256) (epkStr : Bytes) : Outcome Bytes :=
  if epkStr.length ≠ 2 * 67 then throw .invalidArgument
  else do
    let epk ← hstr2bin epkStr
    let a ← Qrl.getAddress S epk
    ok (bin2hstr a 0)

/-- `_validateAddress`, jsqrlwrapper.cpp:308-313. -/
def validateAddress (S : Sha256) (addressStr : Bytes) : Outcome Bool := do
  let address ← getBinAddress addressStr
  addressIsValid S address

end Qrl.Js
