import Verif.Spec.Sha256
import Verif.Model.Misc
import Verif.Model.Hashing
import Verif.Model.XmssApi
import Verif.Model.Pool
import Verif.Model.RustApi
import Verif.Model.RustMisc
import Verif.Model.RustPool
open Qrl
def hx (b : Bytes) : String := String.ofList ((bin2hstr b 0).map fun c => Char.ofNat c.toNat)
def sb (s : String) : Bytes := s.toUTF8.toList
def S := Fips180.sha
def showO : Outcome Bytes → String
  | .ok b => hx b
  | .throw .invalidArgument => "throw"
  | .throw .runtimeError => "throw-rt"
  | .ub => "ub"
def showS : Outcome Bytes → String
  | .ok b => String.ofList (b.map fun c => Char.ofNat c.toNat)
  | .throw _ => "throw"
  | .ub => "ub"
def showB : Outcome Bool → String
  | .ok b => toString b
  | .throw _ => "throw"
  | .ub => "ub"
def showR : Rs.Res Bytes → String
  | .ok b => hx b
  | .err _ => "err"
  | .panic => "panic"
def showRS : Rs.Res Rs.Str → String
  | .ok b => String.ofList b
  | .err _ => "err"
  | .panic => "panic"
def chk (cite name got want : String) : IO Unit :=
  IO.println s!"{if got == want then "ok  " else "DIFF"} {name}  [{cite}]{if got == want then "" else s!"\n   got  {got}\n   want {want}"}"
def z48 : Bytes := List.replicate 48 0
def pk4 := "010200c25188b585f731c128e2b457069eafd1e3fa3961605af8c58a1aec4d82ac316d3191da3442686282b3d5160f25cf162a517fd2131f83fbf2698a58f9c46afc5d"
def pk6 := "010300859060f15adc3825adeec85c7483d868e898bc5117d0cff04ab1343916d407af3191da3442686282b3d5160f25cf162a517fd2131f83fbf2698a58f9c46afc5d"
def ad4 := "01020095f03f084bcb29b96b0529c17ce92c54c1e8290193a93803812ead95e8e6902506b67897"
def ad6 := "0103008b0e18dd0bac2c3fdc9a48e10fc466eef899ef074449d12ddf050317b2083527aee74bc3"
def ad4s := "00020096e5c065cf961565169e795803c1e60f521af7a3ea0326b42aa40c0e75390e5d8f4336de"
def ad4k := "0202000f9ec8efa448051a110686084a47b3ff2c497067edd68b91f36f18c1d7a78498e49b0750"
def chain : List String := ["51971ec39522177c33a60b915fbf8fb21570018444fbe63692b13438fdceaad0","9920072f88d306b4a6ac7089ce9917987e39c78945cce698ed94f709c733dc06","c328fcaceec93d7154f4bdca0e47a7879ab818155f21408c5b102e08bbb025ca","75fe0b40f93d78f8de2fd133c03ab54fb03c2d3ddd79902e21107ad46430012b","e8f521172ac2539f298d31338135d7095fd0c6893757ec4b6a3ae466c234f3ad","3711e7b57f9c6f5260f94f0d6f6c0f8d7058e1178e33fa66ffb44c59f80b2fbd","159acf444f864cceebf45af42aa10d9045f022e5cad53937d8fcfe448430f02d","def097a0ba2de30f98f88188de84b0f6db41e70dbde8e6d93b4ec6afa6fa319c","ab10d7e3a6c6a782143d864606a4cd6f70147c7c203528b2af2dbd409dde0f02","a1083ac97a92ba4a86a37f09a018e5ef1db29e80e007224effdd8bbcafe7445b"]
def poolC : List String := ["0103002cdddec48985cc9acd9d970781782a1c5f1000ee464370b79a8639dc669defb803eb90b52a39a2be669053476fa1bb3eb8d9514c432eb9bd1e4a78b36d271d7e","010300e76e8a65bd7df657e91b95a9895baebbca7f003e3ab8ae6e7bcf6edc0d48f212551a7d78a5df848aa9808f39e669817362e0870178c1a70c1e835b6daa0b3d91","01030087eb6f611bd88cf08f7948995216661e01fce87f9dcff14d58858e8770422c69691d6ce737e816c44bc21e8e7e422e8068af1d8bfb89a05db98e822178352d63","010300e3d66e891f02bff7dcb2d87fe7126e549e0e993b6a459992fc5fcc4b752eeb4ab2428e3e0280b7da7c82db6c135ab615cddd08412246580eee32e9c692eaa318","010300eceed296a8f2b3a25af19cfc90d3c2725a0c6b9aa263523eb9a6bd5155e80326384349175d2c5aeeeb5032b67d19150a9bb68ee43f0a58000aa7e6b2dc88d2cd"]
def poolR : List String := ["0103002dcc3803df4475334b29eaa2516d1a9b36bc19eed0542cfbb501bf8de95d939b25510d9876c7845b4694441bdc0e2be51f3d3f87f0c7775893845f25d49f9ef1","010300be9caeafe11fa52edf722063c18616d6d0c6c30dba3e2c9369a6d9260f76818bc424a1b6db5f26ef01ffa4aac8a08440d6a569bc56180b06f51b6ff6e4cc1b2e","0103005deb91b1d311ecc8c6954e22f3e140ff3e6c04e40cad50c940e60abba3cf766a5db9f39f58e532bea6765e4530cb581db1d6afbb7c05da3261ca4db21177afc5","010300ea15c686e7b9691b8bac52ee4d0ed33bd75ec600f55b4476b857858460c2c98390712040a5e03bca7a46715a90270ac2f8db8694ffa943091edb9018fa1dda04","010300cc9aa42776ce6d286003055b793223002acb42f7e6c27773dabfd54960bb7d9d1dc356395528c65ff6f444aae130176c213718dd5c4a39858ca150031fb2451e"]
def tx := "This is a test X"
def longM := "law bruise screen lunar than loft but franc strike asleep dwarf tavern dragon alarm snack queen meadow thing far cotton add emblem strive probe zurich edge peer alight libel won corn medal"
def longH := "7ad1e6c1083de2081221056dd8b0c142cdfa3fd053cd4ae288ee324cd30e027462d8eaaffff445a1105b7e4fc1302894"

def main : IO Unit := do
  let t := "tests/cpp/qrl/misc_test.cpp"
  chk t "bin2hstr wrap 4" (String.ofList ((bin2hstr [0,1,2,3,4,6,7,8] 4).map fun c => Char.ofNat c.toNat)) "00010203\n04060708"
  chk t "hstr2bin" (showO (hstr2bin (sb "102aAB"))) "102aab"
  chk t "bin2mnemonic 0" (showS (bin2mnemonic [])) ""
  chk t "bin2mnemonic b" (showS (bin2mnemonic [0,1,0])) "aback badge"
  chk t "bin2mnemonic c" (showS (bin2mnemonic [0,2,0])) "aback bunny"
  chk t "bin2mnemonic 4" (showS (bin2mnemonic [0x12,0x34,0x56,0x78])) "throw"
  chk t "bin2mnemonic 6a" (showS (bin2mnemonic [0x12,0x34,0x56,0x78,1,0])) "base elbow knew badge"
  chk t "bin2mnemonic 6b" (showS (bin2mnemonic [0x12,0x34,0x56,0x78,1,9])) "base elbow knew bald"
  chk t "mnemonic2bin 1" (showO (mnemonic2bin (sb "base elbow knew aback bag bunny"))) "123456780000102200"
  chk t "mnemonic2bin unknown" (showO (mnemonic2bin (sb "base elbow knew unknown"))) "throw"
  chk t "mnemonic2bin long" (showO (mnemonic2bin (sb longM))) longH
  chk t "bin2mnemonic long" (showS (do let v ← mnemonic2bin (sb longM); bin2mnemonic v)) longM
  let p := "tests/python/test_misc.py"
  chk p "odd words" (showO (mnemonic2bin (sb "absorb"))) "throw"
  chk p "absorb absorb" (showO (mnemonic2bin (sb "absorb absorb"))) "010010"
  chk p "hstr2bin Z" (showO (hstr2bin (sb "Z"))) "throw"
  chk p "hstr2bin Z0" (showO (hstr2bin (sb "Z0"))) "throw"
  let h := "tests/cpp/qrl/hashing_test.cpp"
  chk h "sha2_256" (hx (sha2_256 S (sb tx))) "a11609b2cc5f26619fcc865473246c9ac59861383a3c4edd2433230258afa03b"
  chk h "sha2_256_n 16" (showO (sha2_256_n S (sb tx) 16)) "3be2d7e048d22de2c117465e5b4b819e764352680027c9790a53a7326d62a0fe"
  chk h "shake128" (hx (shake128 32 (sb tx))) "02c7654fd239753b787067b1b75523d9bd2c39daa384e4b0d4f91eb78d2a5492"
  chk h "shake256" (hx (shake256 32 (sb tx))) "b3453cb0cbd37d726a842eb750e6091b15a92efd2695e3191a96d8d07413db04"
  chk "tests/python/test_shake.py" "shake256 64" (hx (shake256 64 (sb "hello-1234"))) "4a01ca14fd8468f2d2e3a0b3d7597731ad155016753677807ed735b022a9944e61586a6378fc6ffe49e9e0e456f8e2bbfaa41330c5ae7005a2d24ac8f0597e60"
  let r := getHashChainSeed (shake256 32 (sb tx)) 10 10
  for i in [0:10] do chk t s!"getHashChainSeed {i}" (hx (r.getD i [])) (chain.getD i "")
  -- keys
  let x := "tests/python/test_xmss.py, tests/cpp/qrl/xmssBasic*_test.cpp"
  for (hf, ad) in [(0, ad4s), (1, ad4), (2, ad4k)] do
    match XmssBasic.new S z48 4 hf 0 16 with
    | .ok o =>
      if hf == 1 then chk x "XmssBasic h4 PK" (showO o.getPK) pk4
      chk x s!"XmssBasic h4 address, hash {hf}" (showO (o.getAddress S)) ad
      chk x s!"valid, hash {hf}" (showB (do let a ← o.getAddress S; addressIsValid S a)) "true"
      let m := sb "This is a test message"
      match XmssBasic.sign S o m, o.getPK with
      | .ok (sg, o'), .ok pk =>
        chk x s!"verify, hash {hf}" (showB (verify S m sg pk 16)) "true"
        chk x "verify altered message" (showB (verify S (m ++ [0]) sg pk 16)) "false"
        chk x "verify altered signature" (showB (verify S m (sg.set 1 7) pk 16)) "false"
        match XmssFast.new S z48 4 hf 0 with
        | .ok f =>
          chk "tests/cpp/qrl/xmssComparison_test.cpp" s!"XmssFast = XmssBasic PK, hash {hf}" (showO f.getPK) (hx pk)
          let mut f := f
          let mut o := o
          let _ := o'
          for i in [0:15] do
            match XmssFast.sign S f m, XmssBasic.sign S o m with
            | .ret sgf f', .ok (sgb, o') =>
              chk "tests/cpp/qrl/xmssComparison_test.cpp" s!"hash {hf} signature {i}: fast = basic" (hx sgf) (hx sgb)
              chk "tests/cpp/qrl/xmssComparison_test.cpp" s!"hash {hf} signature {i} verifies" (showB (verify S m sgf pk 16)) "true"
              f := f'; o := o'
            | _, _ => IO.println "DIFF sign"
        | _ => IO.println "DIFF fast"
      | _, _ => IO.println "DIFF sign"
    | _ => IO.println "DIFF basic"
  chk x "XmssFast h6 PK" (showO (do let o ← XmssFast.new S z48 6 1 0; o.getPK)) pk6
  chk x "XmssFast h6 address" (showO (do let o ← XmssFast.new S z48 6 1 0; o.getAddress S)) ad6
  chk x "height 7" (showO (do let o ← XmssFast.new S z48 7 1 0; o.getPK)) "throw"
  let w := "tests/cpp/qrl/xmssFast_test.cpp (w = 4)"
  let d := [0x56,0x45,0x4c,0x96,0x21,0xc5,0x49,0xcd,0x05,0xc1,0x12,0xde,0x49,0x6b,0xa3,0x2f]
  match XmssBasic.new S z48 4 1 0 4 with
  | .ok o => match XmssBasic.sign S o d, o.getPK with
    | .ok (sg, _), .ok pk =>
      chk w "verify w=4" (showB (verify S d sg pk 4)) "true"
      chk w "verify w=16" (showB (verify S d sg pk 16)) "false"
    | _, _ => IO.println "DIFF"
  | _ => IO.println "DIFF"
  for i in [0:5] do
    chk "tests/cpp/qrl/xmssPool_test.cpp, tests/python/test_xmsspool.py" s!"C++ pool tree {i}" (showO (do let o ← prepareTree ⟨S, z48, 6, 0, 3⟩ i; o.getPK)) (poolC.getD i "")
  -- Rust
  let rm := "tests/rust/qrl/misc.rs, hashing.rs"
  let rbin (r : Rs.Res Bytes) := showR r
  chk rm "bin2hstr wrap 4" (String.ofList (Rs.bin2hstr [0,1,2,3,4,6,7,8] 4)) "00010203\n04060708"
  chk rm "bin2mnemonic 6b" (showRS (Rs.bin2mnemonic [0x12,0x34,0x56,0x78,1,9])) "base elbow knew bald"
  chk rm "mnemonic2bin" (rbin (Rs.mnemonic2bin "base elbow knew aback bag bunny".toList)) "123456780000102200"
  chk rm "mnemonic2bin long" (rbin (Rs.mnemonic2bin longM.toList)) longH
  chk rm "mnemonic2bin unknown" (rbin (Rs.mnemonic2bin "basin xxWRONGxx".toList)) "err"
  match (do let s ← Rs.shake256 32 (sb tx); Rs.getHashChainSeed s 10 10) with
  | .ok r => for i in [0:10] do chk rm s!"get_hash_chain_seed {i}" (hx (r.getD i [])) (chain.getD i "")
  | _ => IO.println "DIFF"
  let rx := "tests/rust/qrl/xmss_basic*.rs"
  for (hf, ad) in [(HashFn.sha2_256, ad4s), (HashFn.shake_128, ad4), (HashFn.shake_256, ad4k)] do
    chk rx "Rust XMSSBasic h4 address" (showR (do let o ← Rs.XMSSBasic.new .debug S z48 4 hf 16; o.getAddress S)) ad
    chk rx "Rust XMSSFast h4 address" (showR (do let o ← Rs.XMSSFast.new .release S z48 4 hf 16; o.getAddress S)) ad
  match Rs.XMSSPool.new .debug S z48 6 0 0 with
  | .ok p =>
    let mut p := p
    for i in [0:5] do
      match Rs.XMSSPool.getNextTree .debug S p with
      | .ret t p' => chk "tests/rust/qrl/xmss_pool.rs" s!"Rust pool tree {i}" (showR t.getPk) (poolR.getD i ""); p := p'
      | _ => IO.println "DIFF"
  | _ => IO.println "DIFF"
