import Verif.Spec.Sha256
import Verif.Model.Hashing
import Verif.Model.Misc

/-!
Kernel-checked evaluations of the model on literals from the repository's test suites. These are
tests of the model's fidelity, not properties; the larger ones (keys, addresses, pools) are run as
compiled code, see `/verif/validation`.
-/

namespace Qrl.Vectors

/-- tests/python/test_sha2.py: `sha2_256("hello")`. -/
example : sha2_256 Fips180.sha [104, 101, 108, 108, 111] =
    [0x2c, 0xf2, 0x4d, 0xba, 0x5f, 0xb0, 0xa3, 0x0e, 0x26, 0xe8, 0x3b, 0x2a, 0xc5, 0xb9, 0xe2, 0x9e,
     0x1b, 0x16, 0x1e, 0x5c, 0x1f, 0xa7, 0x42, 0x5e, 0x73, 0x04, 0x33, 0x62, 0x93, 0x8b, 0x98, 0x24] := by
  decide +kernel

/-- tests/golang/tests/shake128_test.go: `shake128(32, "hello")`. -/
example : shake128 32 [104, 101, 108, 108, 111] =
    [0x8e, 0xb4, 0xb6, 0xa9, 0x32, 0xf2, 0x80, 0x33, 0x5e, 0xe1, 0xa2, 0x79, 0xf8, 0xc2, 0x08, 0xa3,
     0x49, 0xe7, 0xbc, 0x65, 0xda, 0xf8, 0x31, 0xd3, 0x02, 0x1c, 0x21, 0x38, 0x25, 0x29, 0x24, 0x63] := by
  decide +kernel

/-- tests/cpp/qrl/misc_test.cpp:82-86: `mnemonic2bin("base elbow knew aback bag bunny")`. -/
example : mnemonic2bin ([98, 97, 115, 101, 32, 101, 108, 98, 111, 119, 32, 107, 110, 101, 119, 32,
    97, 98, 97, 99, 107, 32, 98, 97, 103, 32, 98, 117, 110, 110, 121]) =
    .ok [0x12, 0x34, 0x56, 0x78, 0x00, 0x00, 0x10, 0x22, 0x00] := by
  decide +kernel

end Qrl.Vectors
