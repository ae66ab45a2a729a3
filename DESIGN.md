# A machine-checked model of theQRL/qrllib in Lean 4

## Layout

* `lean/Verif/Model/*` – the model, one definition per function of the source, each citing file and lines.
  Files named `Rust*` (namespace `Qrl.Rs`) model the Rust port in `src/rust_wrapper`; all others the C/C++/JS code.
* `lean/Verif/Spec/*` – small independent specifications: FIPS 202 at bit level, RFC 8391 trees and signatures, hex and
  mnemonic text, ideal counters for signing histories, pool traces, primitive contracts, what the Rust sponge absorbs.
* `lean/Verif/Proof/*` – helper lemmas, invariants, refinements.
* `lean/Verif/Props/*` – the property theorems (named in `MANIFEST.json`), each with a concrete case that meets its
  hypotheses.
* `properties.jsonl` – the properties in English; `MANIFEST.json` – which theorems prove which property;
  `seeded/LOG.jsonl` – the mutation tests of the theorems.

## Trusted base

1. **Lean's kernel** (4.33.0). No `native_decide`, `bv_decide`, own axioms, `unsafe`, `implemented_by` or `extern`.
   Finite tables (4096 words, round constants) are checked by `decide`, i.e. by kernel evaluation.
2. **Axioms**: at most `propext`, `Classical.choice`, `Quot.sound`; the table at the end of this file lists them per theorem.
3. **The model's fidelity** to the source: the definitions were written by hand from the text of `/repo`; every definition
   cites the lines it models and says where it simplifies. Nothing of the repository was compiled or
   run, but the model was: with `Spec/Sha256` (FIPS 180-4) as the hash parameter it reproduces the expected values in the
   repository's own tests (176 comparisons, `validation/`; a few of them are kernel-checked in `Props/Vectors`).
4. **The conventions below** (what the source language does).

### Conventions for C and C++

* Bytes are `UInt8`; `std::vector<uint8_t>` and C buffers are `List UInt8`; arrays of 32-byte nodes are lists of byte lists.
  A buffer that has not been written is a list of empty cells; reading one is undefined behaviour.
* Every call has an `Outcome`: `ok a`, `throw e` (C++ exception) or `ub` (undefined behaviour: out-of-bounds access,
  too large or negative shift, read of memory that was never written, division by zero, negative array size). A theorem that
  a call is `ok` therefore also says that the modelled UB does not happen. `ub` is absorbing.
* Unsigned integers are `Nat` with the reduction the C type performs written out wherever it can matter (uint8 heights,
  32-bit indices, 32-bit address words, 64-bit pool indices), or `UInt64`/`BitVec 64` (Keccak lanes).
* LP64, little-endian, 8-bit `char`; enum casts behave as gcc/clang do without `-fstrict-enums`.
* Mutable 8-word hash addresses are threaded through every function as the code does.

### Conventions for Rust

* Every call has a `Res`: `ok`, `err e` (`Result::Err`) or `panic`; methods with `&mut self` have a `Step` which also gives
  the object after an `Err`. A panic ends the history (no `catch_unwind`).
* `Build` is a parameter: `debug` (overflow checks: arithmetic overflow and shifts of 32 and more panic) or `release`
  (wrap-around and masked shifts). Index checks of slices are always on.
* The Winternitz parameter is 2, 4, 16 or 256 in C51–C53 and C60, and any value from 2 to 65535 in C69 (from 2^16 on the `f32`
  computation of the chain counts is not modelled).

### Parameters and assumptions

* **SHA-256** lives in absent dependencies (PicoSHA2, the `sha2` crate): it is a parameter, any function with 32-byte
  outputs. The theorems hold for every such function, so in particular for SHA-256. SHAKE is modelled from `fips202.c`
  (and `fips202.rs`) down to the lanes.
* **Kyber and Dilithium** reference code is absent: parameters, with their published contract as a hypothesis where a
  theorem needs it (`KemContract`, `SignContract`; both shown satisfiable).
* **Random sources** (`/dev/urandom`, the JS platform generator, the Rust `rand` crate) are parameters: every behaviour.
* **Threads**: `XmssPool` is a transition system whose steps are the critical sections; `std::async` may fail to start and
  futures may finish in any order. Threads that cannot be started and allocations that fail are steps of the schedule. The memory model below the mutex is not modelled.
* **Cryptographic hardness** is nowhere assumed; binding properties end in an explicit pair of colliding calls.

## What is modelled

| source | model | notes |
|---|---|---|
| `src/qrl/misc.cpp` | `Model/Misc` | all functions |
| `src/qrl/wordlist.cpp` | `Model/Wordlist` | the 4096 words, generated from the source text |
| `src/qrl/hashing.cpp`, `src/shasha/shasha.cpp` | `Model/Hashing` | SHA-256 itself is a parameter |
| `src/qrl/qrlDescriptor.h`, `qrlHelper.h`, `qrlAddressFormat.h` | `Model/Descriptor` | all functions |
| `src/qrl/xmssBase.cpp/.h`, `xmssBasic.cpp`, `xmssFast.cpp` | `Model/XmssApi`, `Model/Copy`, `Model/Lifetime` | all functions; `Model/Copy` is the implicit copy constructor, `Model/Lifetime` the implicit copy, move, assignment and destruction with a heap, `std::swap` and the growth of a `std::vector`; `Model/Threads` splits `sign` and `setIndex` into steps for several threads; `Model/Memory` is `sign` and `initialize_tree` when a `std::vector` finds no memory |
| `src/qrl/xmssPool.cpp/.h` | `Model/Pool`, `Model/PoolEnd` | all functions, as a transition system; `Model/PoolEnd` is the implicit destructor |
| `src/xmss-alt/fips202.c` | `Model/Keccak` | all functions that are called |
| `src/xmss-alt/hash.c`, `hash_address.c` | `Model/Hash` | all functions |
| `src/xmss-alt/wots.c` | `Model/Wots` | all functions |
| `src/xmss-alt/xmss_common.c` | `Model/XmssCommon` | all functions |
| `src/xmss-alt/algsxmss.c` | `Model/XmssCore`, `Model/UpdateSk` | all functions |
| `src/xmss-alt/algsxmss_fast.c` | `Model/Bds` | all but the static functions nobody calls (`bds_state_update`, its copy of `validate_authpath`) |
| `src/xmss-alt/{xmss_common,algsxmss,algsxmss_fast}.c` | `Model/CLow` | the functions of the headers once more, on any buffers of the caller (C89); overlapping buffers are not modelled |
| `src/xmss-alt/{hash,wots,xmss_common}.c` | `Model/WotsN`, `Model/XmssN` | the hash functions, WOTS+ and `xmss_Verifysig` once more, for every `n` and every hash function value (C94, C95); everywhere else `n = 32` |
| `src/rust_wrapper/xmss_alt/{hash,wots,xmss_common}.rs` | `Model/RustN` | the hash functions and `xmss_verify_sig` once more, for every `n` (C96); everywhere else `n = 32` |
| `src/rust_wrapper/xmss_alt/{wots,algsxmss}.rs` | `Model/RustKeyN` | `xmss_gen_keypair` once more, for every `n` (C97) |
| `src/rust_wrapper/qrl/{xmss_fast,xmss_basic}.rs`, `xmss_alt/{algsxmss_fast,algsxmss}.rs` | `Model/RustPanic` | `set_index` and `sign` once more, with the object a panic leaves (C90); the tree state a panic inside the rounds leaves is arbitrary |
| `src/rust_wrapper/xmss_alt/{algsxmss,algsxmss_fast}.rs` | `Model/RustSlices` | the key generation and signing functions once more, on any slices of the caller (C91); what a panicking call has written is not modelled |
| `src/xmss-alt/{xmss_common,algsxmss_fast}.c` | `Model/BdsK` | the fast functions that read `params->k`, with any `k` (C92); the others are those of `Model/Bds` |
| `src/rust_wrapper/xmss_alt/{xmss_common,algsxmss_fast}.rs` | `Model/RustBdsK` | the Rust fast functions that read `params.k`, with any `k` (C93); the others are those of `Model/RustBds` and `Model/RustSlices` |
| `src/xmss-alt/*.c` | `Model/Stack` | the automatic arrays of every function that is called |
| `src/kyber/kyber.cpp`, `src/dilithium/dilithium.cpp` | `Model/Pq` | wrappers only |
| `src/jswrapper/jsqrlwrapper.cpp` | `Model/Js` | functions on addresses, seeds, signing; embind glue not modelled |
| `src/jswrapper/jskybwrapper.cpp`, `jsdilwrapper.cpp` | `Model/Pq` (namespace `Js`), `Model/JsKeypair` | all |
| `src/api/*.i` | `Model/Swig` | the exception handlers; not the SWIG typemaps |
| `src/jswrapper/getRandomSeed.js` | `Model/JsRandom` | all |
| `src/rust_wrapper/xmss_alt/*.rs` | `Model/Rust{Keccak,Hash,Wots,Xmss,Bds,Low}` | all but uncalled functions |
| `src/rust_wrapper/qrl/*.rs`, `shasha` | `Model/Rust{Api,Misc,Pool}` | all functions |
| `src/rust_wrapper/{kyber,dilithium}` | `Model/RustPq` | wrappers only |

**Not modelled:** SWIG and embind conversions of arguments and results, build scripts, versioneer; stack use
other than by automatic arrays (C85), allocation failure other than in the methods of C82 and the pool, timing.

## Properties that are false of the code

Where the natural property is false, `properties.jsonl` states exactly what the code does, and the theorems prove that and
refute the natural property (suffix `_refuted`, a negation with a witness or for every object):

* C06 odd mnemonics are accepted with one extra space; C08 the signature type is not looked at;
* C18 `XmssBasic` can be rewound and signs out of bounds; C44 `initialize_tree` rewinds `XmssFast`; C49, C68 copies share buffers and dangle;
* C24 the WOTS+ checksum is broken for w = 256; C36 unsupported hash functions give UB; C45 tall `XmssBasic` never signs;
  C46 unsupported w is not refused; C67 for w = 257 one signature fits every message; C47 `xmss_updateSK` wraps at 2^32;
* C62 saving the index after signing reuses a key after a crash, and an exhausted wallet cannot be restored;
  C65 with w = 256 signatures are forged by hashing forward;
* C50–C53 the Rust sponge ignores everything after the first block: wrong hashes, forgeable signatures, panics;
* C52 without overflow checks a small Rust `XMSSBasic` signs with one-time keys outside its tree and wraps from index 2^32-1 to 0;
* C74 in a Rust build without overflow checks heights count modulo 32 and taller objects never verify;
* C81 two exported JavaScript functions never return;
* C82 `initialize_tree` that runs out of memory leaves a signing object with the all-zero key, or one with dangling pointers;
* C83 the Rust SHAKE functions do not refuse an announced length beyond the end of the input;
* C89 the header comments of `xmss_Verifysig` are wrong; `xmssfast_Signmsg` does not notice that a key is used up;
* C90 a caught panic of the Rust `XMSSFast::sign` costs one index only: the next signature carries the path of the lost index;
* C91 the Rust `xmss_fast_sign_msg` does not notice that a key is used up;
* C84 a seed phrase has no checksum: a wrong or swapped word restores another wallet;
* C85 long messages overflow the stack in `sign` and `verify`; tall `XmssBasic` wallets overflow it in every `sign`;
* C86 phrases of C++ wallets with another address format, or with one more space, are not portable between C++ and Rust;
* C11 a valid address need not be the address of any public key;
* C75 an object shared by threads without a lock reuses one-time keys;
* C69 in Rust, parameters other than 2, 4, 16, 256 give signatures that fit many or all messages, or panic;
* C30 pools with base seeds of different lengths share keys; C55–C61 the Rust helpers: see there.

## How the properties are proved

| id | model | proof |
|---|---|---|
| C01–C03 | hex | induction over the vector |
| C04–C06 | mnemonics, 4096-word table, stream tokenizer, space counter | table facts by kernel evaluation, the rest by induction |
| C07, C08 | `QRLDescriptor` | byte arithmetic |
| C09, C26, C39 | constructors and getters | from the key generation equations |
| C10, C11 | `QRLHelper` | direct |
| C12, C14, C16, C17, C19, C43 | BDS traversal with checked arrays, `XmssFast` | refinement of the object to an ideal counter; scheduling invariant for the tree-hash instances (which level is worked on when); induction over histories |
| C13, C15 | `algsxmss.c`, `xmss_common.c` | loop invariants against a recursive Merkle tree |
| C18, C44, C45, C46, C49 | as the code does | explicit computation of the failing call, for every object; C44 for every w by refinement of an ideal object with undefined behaviour (Proof/FastAny) |
| C20–C22 | `verify`, `getHeightFromSigSize`, `xmss_Verifysig` with checked reads | case analysis; equality with a specification of acceptance |
| C23, C24 | `wots.c` | chain composition; checksum antichain |
| C25 | `validate_authpath`, WOTS chains | collision extraction by induction on height |
| C27, C47 | index bytes | arithmetic |
| C28–C31 | `XmssPool` transition system | invariants over all schedules; trace refinement |
| C32, C33 | `fips202.c` | unrolled permutation equals the bit-level rounds for every state; sponge by induction |
| C34, C35, C42, C48 | hashing and random helpers | induction, case analysis of the source's behaviour |
| C37, C38 | addresses | injectivity; independence lemmas |
| C40, C41 | wrappers | direct, external primitives as parameters |
| C50–C54 | Rust port | simulation: wherever the C/C++ model is `ok`, the Rust model gives the same value (function by function), plus an exact description of the sponge |
| C55–C59 | Rust helpers, pool, wrappers | direct, induction |
| C60, C61 | histories with `initialize_tree`; `xmss_update_sk` | simulation of the ideal object; equality with the C function |
| C62 | a wallet (disk, crash, restart) around the model of `XmssFast` | refinement to one counter; invariant "saved index is beyond every index handed out" |
| C63 | addresses, extended seeds, key generation | from C07, C09, C10, C15, C26 |
| C64 | histories and `verify` | collision extraction (C25) between the accepted pair and the signer's own signature or key tree |
| C65 | WOTS+ chains and checksum | chain composition; arithmetic of the w = 256 checksum |
| C66 | the end of a pool: members destroyed in reverse order while tasks run | invariant over all schedules; a decreasing measure |
| C67 | base_w with any mask w - 1 (same model as C23) | the C20/C21 proofs redone for the masked digits; bitwise reasoning for which bits count; the finite table of all usable w by kernel evaluation |
| C68 | a heap of allocations and objects with an owned allocation and a pointer (`Model/Lifetime`); freed memory has no cells | simulation by values: distinct objects own distinct allocations, and a whole object points into its own; the dangling case by computing `sign` on freed memory |
| C69 | the Rust model of C51–C53 with `base_w` in both build modes (`u32` shift counter, `u8` accumulator) | the loop invariants of `base_w` for a width that does not divide 8 (debug: panics; release: stuck on byte 0); the C52/C53 proofs redone over an arbitrary list of chain positions; pigeonhole on the first digest byte |
| C70 | `verify`, `sign` over histories (as C18, C44, C49) | the forger is a function of public data (`Spec/Reuse`); chain composition shows that its chains end where the honest ones end |
| C71 | the C++ `XmssFast` (C44) and the Rust `XMSSFast` (C52, C60) behind one disk (`Spec/CrossWallet`); a panic ends the process | both signers are kept canonical at the counter; induction over the events; the saved index as a lower bound |
| C72 | the Kyber wrappers of C41 and C57 and the JS getters (`Spec/KyberHistory`) | induction over the calls |
| C73 | the exception handlers of `src/api/*.i` (`Model/Swig`) around the functions of C02, C05, C10, C19, C20, C34, C39, C42 | the handlers are functions of the outcome; the outcome theorems of those properties |
| C74 | the Rust constructors, signers and `verify` of C51–C53 with the shifts of a release build masked exactly (`shl1`, `authCopy`, `roundRestart`) | the generators stop at `2^(height mod 32)` leaves; shape invariant for the buffers of the fast signer; the size of every signature over every history |
| C75 | `sign` and `setIndex` of both signers as sequences of atomic, sequentially consistent steps on the shared object (`Model/Threads`), interleaved by a schedule | run alone the steps are the call (`C75_alone`); with a lock a schedule is cut into whole calls (`Proof/Locked`); the races by executing the schedule on an object with any history; invariants over all schedules |
| C76 | the same functions as C12, C18, C34, read as functions of SHA-256 | `Asks n big f` (`Spec/Queries`): the result is determined by `n` values; composed function by function (`Proof/Queries`), with a potential argument for the merge loops |
| C77 | the same functions as C64 and C70 | a tree top-down and chain by chain comparison of an accepted signature with the honest tree (`honest_root`), then a case split on the first uncovered chain; the converse by splicing with a changed randomiser; instantiated with the refinement theorems C18 and C44 |
| C78 | the same functions as C15 and C10 | top-down through two honest trees with one root and public seed: first leaf, L-tree (its number of levels tells `w`), first chain, secret seed; at each step equal values come from equal inputs or two listed calls collide |
| C79 | the same functions as C12 and C19 | the last hash of two chain values: equal strings have equal addresses and keys (C37), or two listed calls collide |
| C80 | the Rust verify and the two Rust signers (C52, C53) | acceptance by the port is acceptance by C++ of the message it reads (C53), so C77 and C25 apply; the reading is injective up to the messages the port cannot tell apart |
| C81 | the two exported functions as least fixed points | fixed-point induction |
| C82 | the methods again, with the number of the allocation that fails (`Model/Memory`); freed vectors have no cells | histories: refinement of the counter that skips failed calls; `initialize_tree`: the tree-hash instances go through for any key (simulation up to node values) |
| C83 | the two SHAKE functions and `xmss_verify_sig` of the port on any slices and announced lengths (`Model/RustLow`) | absorbing and squeezing into any buffer; case analysis on which slice is too short, then C32 and C69 |
| C84 | mnemonics and constructors (C04, C09, C39) | the phrase is cut into descriptor and seed words; injectivity of the 12-bit groups; C78 for the public keys |
| C85 | `Model/Stack`: for each C function, the bytes of its arrays and the calls it makes, as a tree; a call fits into a stack if its arrays do and each of its calls fits into the rest | fitting is comparing with the largest sum along a path; the sums are computed bottom-up; `verify_reach` ties the checks of `verify` to the model of `verify` |
| C86 | `rustRestore`: the Rust `mnemonic2bin` and `from_extended_seed`, beside `restore` of C84 | both decode the same word numbers; what the first two words spell decides; C51 gives the same key, C87 the same phrase after any history |
| C87 | the Rust objects of C51/C69 over histories | canonical objects: the secret key is a function of the seed, the parameter and the index; for XMSSBasic every call writes only the first four bytes |
| C88 | `Verif/Spec/Rfc8391`: algorithms 1-14 of the RFC, transcribed with their own addresses and loops; no definition shared with the model or with `Spec/Xmss`, `Spec/Sig` | each algorithm is shown equal to the corresponding part of `Spec/Xmss`, `Spec/Sig`: treeHash by induction on the subtree with an invariant on its stack, ltree by strong induction on the row length, base_w through the model's loop; then C12, C13, C15, C20 and C53 |
| C89 | the functions of src/xmss-alt on any buffers (`Model/CLow`): every read and write checks the buffer | splitting any key buffer into its parts; the writes of a signature one after the other; then the lemmas of C12, C18, C19; histories by induction against a counter without limit; `honest_root` of C77 for the signatures beyond the tree |
| C90 | the object left by a panic (`Model/RustPanic`), histories with caught panics (`Spec/RustPanic`) | `sign` cut in three parts (before the key update, the signature, the rounds) and shown equal to the `sign` of C52; the index never falls in any call, by cases, then induction over the history; the lagging object computed; `honest_root` of C77 and: equal leaves of one key are the same leaf or give a collision; `XMSSBasic` against the counter `burningLoose` by induction |
| C91 | the functions of src/rust_wrapper/xmss_alt on any slices (`Model/RustSlices`): every read and write checks the slice, a failing check panics | as C89, with the simulation lemmas of C52 to C54 and C83: splitting any key slice into its parts; the writes of a signature one after the other; histories by induction against a counter without limit in which a message that cannot be signed panics |
| C92 | the fast functions with `k` as an argument (`Model/BdsK`), on arrays of the sizes for `k` | the invariants of C18 and C19 for any number of levels without tree-hash instances; each retained node has its slot in the row of its level, rows do not overlap (`rowOff_inj`), and up to `k = 26` the 32-bit byte offset of the slot does not wrap (`good_of_le`); it is written when its level is merged and read when its parent's turn comes; then as C89. For `k = 28` the invariant keeps the nodes that are the last to be written into their slot (`Good`): the sixteenth round reads node 134217733 of level 2 where node 3 of level 3 was; an accepted signature has the honest path (`honest_root`), so the two nodes would be equal and the hash calls that make them collide (`node_levels`) |
| C93 | the Rust fast functions with `k` as an argument (`Model/RustBdsK`), on any slices, each checked access panicking | each Rust function is simulated by the C function of `Model/BdsK` for this `k` (`treehashSetup_sim`, `bdsRound_sim`, `bdsTreehashUpdate_sim`); up to `k = 26` the u32 product for the offset of a retained node does not overflow; then as C91 with the invariants of C92. For `k = 28` a checked build does what the wrapping one does or panics (`Checked`), and leaf 239 is merged to a node whose offset is 2^32; the wrapping build is simulated by the C code and follows C92's refutation |
| C94 | `core_hash`, `prf`, `h_msg`, `hash_f`, `hash_h`, `wots_set_params`, `expand_seed`, `gen_chain`, `wots_pkgen`, `wots_sign`, `wots_pkFromSig` with `n` and the hash function value as arguments (`Model/WotsN`); slots that have not been written are `none` | specification for any `n` (`Spec/WotsN`); chains compose, the digits of `n = 32` generalised, for the unsupported pairs every step is the identity on the output (`Proof/WotsN`) |
| C95 | `l_tree`, `validate_authpath`, `xmss_Verifysig` with `n` (`Model/XmssN`) | simulation with the model of `n = 32`; for other `n` the value of the counter after the three subtractions, and that the final loops leave the buffer (`Proof/XmssN`) |
| C96 | the Rust `to_byte`, `core_hash`, `prf`, `h_msg`, `hash_h`, `hash_f`, `WOTSParams::new`, `gen_chain`, `wots_pk_from_sig`, `l_tree`, `validate_authpath`, `xmss_verify_sig` with `n` (`Model/RustN`); outputs that are not written keep their bytes | equality with the model of `n = 32` step by step; above 32 no step is an `Err` and the last loop leaves the buffer; below 32 every step keeps its output, so the root stays zero (`Proof/RustN`) |
| C97 | `expand_seed`, `wots_pkgen`, `get_seed`, `gen_leaf_wots`, `treehash`, `xmss_gen_keypair` of the Rust crate with `n` (`Model/RustKeyN`) | the control flow of `treehash` does not depend on the nodes, so it is the run for `n = 32` on a stack of zero nodes (simulation, `Proof/RustKeyN`); for `n = 32` equality step by step (`Proof/RustKeyN32`); with C96 for the verdict |
| C98 | the functions of C96 and C97 at `n = 64` | the exact value of the crate's sponge (C50): two inputs of the same length with the same first block have the same digest; then through `prf`, `hash_f`, `hash_h`, `expand_seed`, `get_seed` (`Proof/RustN64`) |

## Axioms per property

Output of `#print axioms` for every theorem of `MANIFEST.json` (no other axiom occurs; `Classical.choice`
enters through Mathlib tactics such as `omega`, `simp`, `by_cases`).

| property | theorem | axioms |
|---|---|---|
| C01 | `C01_hex_roundtrip` | propext, Quot.sound |
| C01 | `C01_hex_encoding` | propext, Quot.sound |
| C02 | `C02_hex_accepts` | propext, Classical.choice, Quot.sound |
| C02 | `C02_hex_canonical` | propext, Quot.sound |
| C02 | `C02_hex_injective` | propext, Quot.sound |
| C02 | `C02_hex_undefined` | propext, Quot.sound |
| C02 | `C02_hex_outcome` | propext, Quot.sound |
| C03 | `C03_hex_wrap` | propext, Quot.sound |
| C04 | `C04_mnemonic_roundtrip` | propext, Classical.choice, Quot.sound |
| C04 | `C04_mnemonic_encoding` | propext, Classical.choice, Quot.sound |
| C04 | `C04_mnemonic_throws` | propext, Classical.choice, Quot.sound |
| C04 | `C04_mnemonic_empty` | propext, Classical.choice, Quot.sound |
| C04 | `C04_wordlist` | propext, Quot.sound |
| C05 | `C05_mnemonic_accepts` | propext, Quot.sound |
| C05 | `C05_mnemonic_words` | propext, Quot.sound |
| C05 | `C05_mnemonic_canonical` | propext, Classical.choice, Quot.sound |
| C05 | `C05_mnemonic_injective` | propext, Classical.choice, Quot.sound |
| C05 | `C05_mnemonic_value` | propext, Classical.choice, Quot.sound |
| C05 | `C05_mnemonic_same_words` | propext, Classical.choice, Quot.sound |
| C06 | `C06_odd_rejected` | propext, Quot.sound |
| C06 | `C06_odd_accepted` | propext, Quot.sound |
| C06 | `C06_refuted` | propext, Quot.sound |
| C07 | `C07_descriptor_roundtrip` | propext, Classical.choice, Quot.sound |
| C07 | `C07_descriptor_injective` | propext, Classical.choice, Quot.sound |
| C07 | `C07_descriptor_layout` | propext, Classical.choice, Quot.sound |
| C07 | `C07_descriptor_throws` | propext, Quot.sound |
| C07 | `C07_descriptor_normalise` | propext, Classical.choice, Quot.sound |
| C08 | `C08_sigtype_ignored` | propext, Quot.sound |
| C08 | `C08_sigtype_indistinguishable` | propext, Quot.sound |
| C08 | `C08_verify_ignores_sigtype` | propext, Classical.choice, Quot.sound |
| C08 | `C08_verify_descriptor_nibbles` | propext, Classical.choice, Quot.sound |
| C08 | `C08_other_sigtype_refuted` | propext, Classical.choice, Quot.sound |
| C09 | `C09_extended_seed_constructor` | propext, Quot.sound |
| C09 | `C09_extended_seed_roundtrip` | propext, Classical.choice, Quot.sound |
| C09 | `C09_extended_seed_back` | propext, Classical.choice, Quot.sound |
| C10 | `C10_address_value` | propext, Quot.sound |
| C10 | `C10_address_throws` | propext, Quot.sound |
| C10 | `C10_address_valid` | propext, Classical.choice, Quot.sound |
| C11 | `C11_address_valid` | propext, Classical.choice, Quot.sound |
| C11 | `C11_checksum_unique` | propext, Classical.choice, Quot.sound |
| C11 | `C11_corrupted` | propext, Classical.choice, Quot.sound |
| C11 | `C11_unowned_refuted` | propext, Classical.choice, Quot.sound |
| C12 | `C12_fast_sign_verifies` | propext, Classical.choice, Quot.sound |
| C12 | `C39_fast_succeeds` | propext, Classical.choice, Quot.sound |
| C13 | `C13_basic_sign_verifies` | propext, Classical.choice, Quot.sound |
| C14 | `C14_same_key` | propext, Classical.choice, Quot.sound |
| C14 | `C14_same_signatures` | propext, Classical.choice, Quot.sound |
| C15 | `C15_fast_key` | propext, Classical.choice, Quot.sound |
| C15 | `C15_basic_key` | propext, Classical.choice, Quot.sound |
| C15 | `C12_fast_sign_verifies` | propext, Classical.choice, Quot.sound |
| C15 | `C13_basic_sign_verifies` | propext, Classical.choice, Quot.sound |
| C16 | `C16_fast_no_reuse` | propext, Classical.choice, Quot.sound |
| C17 | `C17_fast_setIndex` | propext, Classical.choice, Quot.sound |
| C17 | `C17_fast_exhaustion` | propext, Classical.choice, Quot.sound |
| C17 | `C17_fast_at_most` | propext, Classical.choice, Quot.sound |
| C17 | `C17_fast_all_used` | propext, Classical.choice, Quot.sound |
| C18 | `C18_basic_reuse_refuted` | propext, Classical.choice, Quot.sound |
| C18 | `C18_basic_exhausted_refuted` | propext, Classical.choice, Quot.sound |
| C18 | `C18_basic_refines` | propext, Classical.choice, Quot.sound |
| C18 | `C18_basic_reuse_always` | propext, Classical.choice, Quot.sound |
| C19 | `C19_fast_refines_counter` | propext, Classical.choice, Quot.sound |
| C19 | `C19_fast_defined` | propext, Classical.choice, Quot.sound |
| C19 | `C39_fast_succeeds` | propext, Classical.choice, Quot.sound |
| C20 | `C20_verify_spec` | propext, Classical.choice, Quot.sound |
| C20 | `C20_verify_no_throw` | propext, Classical.choice, Quot.sound |
| C20 | `C20_verify_true` | propext, Classical.choice, Quot.sound |
| C20 | `C20_verify_malformed` | propext, Classical.choice, Quot.sound |
| C21 | `C21_verify_safe` | propext, Classical.choice, Quot.sound |
| C21 | `C21_message_unchanged` | propext, Classical.choice, Quot.sound |
| C22 | `C22_signature_size` | propext, Quot.sound |
| C22 | `C22_height_from_size` | propext, Classical.choice, Quot.sound |
| C22 | `C22_size_roundtrip` | propext, Classical.choice, Quot.sound |
| C22 | `C12_fast_sign_verifies` | propext, Classical.choice, Quot.sound |
| C22 | `C13_basic_sign_verifies` | propext, Classical.choice, Quot.sound |
| C23 | `C23_wots_correct` | propext, Classical.choice, Quot.sound |
| C24 | `C24_digits` | propext, Classical.choice, Quot.sound |
| C24 | `C24_no_forward_forgery` | propext, Classical.choice, Quot.sound |
| C24 | `C24_w256_refuted` | propext, Classical.choice, Quot.sound |
| C25 | `C25_two_signatures` | propext, Classical.choice, Quot.sound |
| C25 | `C25_no_second_message` | propext, Classical.choice, Quot.sound |
| C25 | `C25_honest_key` | propext, Classical.choice, Quot.sound |
| C25 | `C25_honest_basic` | propext, Classical.choice, Quot.sound |
| C25 | `C25_calls_complete` | propext, Quot.sound |
| C25 | `C25_node_calls_complete` | propext, Quot.sound |
| C26 | `C26_fast_stable` | propext, Classical.choice, Quot.sound |
| C26 | `C26_fast_layout` | propext, Classical.choice, Quot.sound |
| C26 | `C26_basic_layout` | propext, Classical.choice, Quot.sound |
| C26 | `C26_basic_stable` | propext, Classical.choice, Quot.sound |
| C27 | `C27_base_setIndex` | propext, Classical.choice, Quot.sound |
| C27 | `C17_fast_setIndex` | propext, Classical.choice, Quot.sound |
| C27 | `C12_fast_sign_verifies` | propext, Classical.choice, Quot.sound |
| C28 | `C28_pool_in_order` | propext, Classical.choice, Quot.sound |
| C28 | `C28_pool_once` | propext, Classical.choice, Quot.sound |
| C28 | `C28_pool_current` | propext, Classical.choice, Quot.sound |
| C28 | `C28_pool_mutex` | propext, Classical.choice, Quot.sound |
| C28 | `C28_pool_none_skipped` | propext, Classical.choice, Quot.sound |
| C28 | `C28_pool_no_deadlock` | propext, Classical.choice, Quot.sound |
| C28 | `C28_pool_terminates` | propext, Classical.choice, Quot.sound |
| C28 | `C28_pool_completes` | propext, Classical.choice, Quot.sound |
| C28 | `C29_pool_trees` | propext, Classical.choice, Quot.sound |
| C29 | `C29_pool_trees` | propext, Classical.choice, Quot.sound |
| C29 | `C29_pool_tree_of_claim` | propext, Classical.choice, Quot.sound |
| C29 | `C29_pool_tree_value` | propext, Classical.choice, Quot.sound |
| C30 | `C30_pool_inputs` | propext, Classical.choice, Quot.sound |
| C30 | `C30_same_length` | propext, Classical.choice, Quot.sound |
| C30 | `C30_trees_differ` | propext, Classical.choice, Quot.sound |
| C30 | `C30_other_length_refuted` | propext, Classical.choice, Quot.sound |
| C30 | `C30_other_length_shared` | propext, Classical.choice, Quot.sound |
| C31 | `C31_pool_cache` | propext, Classical.choice, Quot.sound |
| C31 | `C31_pool_get_once` | propext, Classical.choice, Quot.sound |
| C31 | `C31_pool_full` | propext, Classical.choice, Quot.sound |
| C31 | `C31_pool_refilled` | propext, Classical.choice, Quot.sound |
| C31 | `C31_pool_available` | propext, Classical.choice, Quot.sound |
| C31 | `C31_pool_empty_forever` | propext, Classical.choice, Quot.sound |
| C32 | `C32_shake128` | propext, Classical.choice, Quot.sound |
| C32 | `C32_shake256` | propext, Classical.choice, Quot.sound |
| C32 | `C32_permutation` | propext, Classical.choice, Quot.sound |
| C32 | `C32_bits_injective` | propext, Quot.sound |
| C32 | `C32_states` | propext, Classical.choice, Quot.sound |
| C33 | `C33_shake_prefix` | propext, Classical.choice, Quot.sound |
| C34 | `C34_sha2_n` | propext, Quot.sound |
| C34 | `C34_sha2_n_add` | propext, Quot.sound |
| C35 | `C35_hash_chain` | propext, Quot.sound |
| C35 | `C35_hash_chain_stable` | propext, Classical.choice, Quot.sound |
| C35 | `C35_hash_chain_inputs` | propext, Quot.sound |
| C36 | `C36_verify_unsupported` | propext, Classical.choice, Quot.sound |
| C36 | `C36_basic_unsupported` | propext, Quot.sound |
| C36 | `C36_fast_unsupported` | propext, Classical.choice, Quot.sound |
| C37 | `C37_address_injective` | propext, Classical.choice, Quot.sound |
| C37 | `C37_uses_distinct` | propext, Classical.choice, Quot.sound |
| C37 | `C37_calls_distinct` | propext, Classical.choice, Quot.sound |
| C37 | `C37_prf_call` | propext, Quot.sound |
| C37 | `C37_msg_call` | propext, Quot.sound |
| C37 | `C37_f_call` | propext, Quot.sound |
| C37 | `C37_ltree_call` | propext, Quot.sound |
| C37 | `C37_tree_call` | propext, Quot.sound |
| C38 | `C38_leaf` | propext, Classical.choice, Quot.sound |
| C38 | `C38_ltree` | propext, Classical.choice, Quot.sound |
| C38 | `C38_wots_pkgen` | propext, Quot.sound |
| C38 | `C38_wots_sign` | propext, Classical.choice, Quot.sound |
| C38 | `C38_treehash` | propext, Classical.choice, Quot.sound |
| C38 | `C38_authpath` | propext, Classical.choice, Quot.sound |
| C38 | `C38_bds_round` | propext, Quot.sound |
| C38 | `C38_bds_update` | propext, Quot.sound |
| C39 | `C39_fast_throws` | propext, Classical.choice, Quot.sound |
| C39 | `C39_fast_succeeds` | propext, Classical.choice, Quot.sound |
| C39 | `C39_fast_tall_refuted` | propext, Classical.choice, Quot.sound |
| C39 | `C39_extended_seed_throws` | propext, Classical.choice, Quot.sound |
| C39 | `C39_basic_throws` | propext, Classical.choice, Quot.sound |
| C39 | `C39_basic_succeeds` | propext, Classical.choice, Quot.sound |
| C39 | `C39_basic_tall_refuted` | propext, Quot.sound |
| C40 | `C40_validate` | propext, Quot.sound |
| C40 | `C40_text` | propext, Classical.choice, Quot.sound |
| C40 | `C40_getters` | propext, Classical.choice, Quot.sound |
| C40 | `C40_hexseed` | propext, Quot.sound |
| C40 | `C40_hexseed_vs_native` | propext, Classical.choice, Quot.sound |
| C40 | `C40_hexseed_throws` | propext, Classical.choice, Quot.sound |
| C40 | `C40_hexseed_roundtrip` | propext, Classical.choice, Quot.sound |
| C40 | `C40_mnemonic_roundtrip` | propext, Classical.choice, Quot.sound |
| C40 | `C40_own_address` | propext, Classical.choice, Quot.sound |
| C40 | `C40_address_of_key` | propext, Classical.choice, Quot.sound |
| C40 | `C40_address_of_key_value` | propext, Classical.choice, Quot.sound |
| C40 | `C40_address_of_key_throws` | propext, Classical.choice, Quot.sound |
| C40 | `C40_sign_verify` | propext, Classical.choice, Quot.sound |
| C40 | `C40_basic_verify_spec` | propext, Classical.choice, Quot.sound |
| C40 | `C40_basic_sign_verify` | propext, Classical.choice, Quot.sound |
| C40 | `C40_basic_hexseed` | propext, Classical.choice, Quot.sound |
| C41 | `C41_kyber_constructor` | propext, Quot.sound |
| C41 | `C41_kyber_encode` | propext, Quot.sound |
| C41 | `C41_kyber_decode` | propext, Quot.sound |
| C41 | `C41_kyber_exchange` | propext, Quot.sound |
| C41 | `C41_dilithium_sign` | propext, Quot.sound |
| C41 | `C41_dilithium_split` | propext, Quot.sound |
| C41 | `C41_dilithium_open` | propext, Quot.sound |
| C41 | `C41_dilithium_unchecked_refuted` | propext, Quot.sound |
| C41 | `C41_extract_after_open_refuted` | propext, Quot.sound |
| C41 | `C41_js_open_verdict_lost_refuted` | propext, Quot.sound |
| C41 | `C41_js_hex` | propext, Quot.sound |
| C41 | `C41_js_extract_refuted` | propext |
| C42 | `C42_random_seed` | propext, Classical.choice, Quot.sound |
| C42 | `C48_returns_platform_bytes` | propext, Classical.choice, Quot.sound |
| C42 | `C48_throws_iff` | propext, Classical.choice, Quot.sound |
| C43 | `C43_history_independent` | propext, Classical.choice, Quot.sound |
| C43 | `C43_sign_is_skip` | propext, Classical.choice, Quot.sound |
| C44 | `C44_initialize_resets` | propext, Classical.choice, Quot.sound |
| C44 | `C44_reuse_refuted` | propext, Classical.choice, Quot.sound |
| C44 | `C44_full_refines` | propext, Classical.choice, Quot.sound |
| C44 | `C44_full_sign_verifies` | propext, Classical.choice, Quot.sound |
| C44 | `C44_total` | propext, Classical.choice, Quot.sound |
| C44 | `C44_any_sign` | propext, Classical.choice, Quot.sound |
| C44 | `C44_supported_agree` | propext, Classical.choice, Quot.sound |
| C45 | `C45_basic_tall` | propext, Classical.choice, Quot.sound |
| C46 | `C46_ctor_total` | propext, Classical.choice, Quot.sound |
| C46 | `C46_sign_total` | propext, Classical.choice, Quot.sound |
| C46 | `C46_basic_bad_w` | propext, Classical.choice, Quot.sound |
| C46 | `C46_verify_bad_w` | propext, Classical.choice, Quot.sound |
| C46 | `C46_verify_crash` | propext, Classical.choice, Quot.sound |
| C46 | `C46_basic_history` | propext, Classical.choice, Quot.sound |
| C47 | `C47_updateSK` | propext, Quot.sound |
| C47 | `C47_updateSK_forward` | propext, Classical.choice, Quot.sound |
| C47 | `C47_updateSK_rewind_refuted` | propext, Quot.sound |
| C48 | `C48_returns_platform_bytes` | propext, Classical.choice, Quot.sound |
| C48 | `C48_throws_iff` | propext, Classical.choice, Quot.sound |
| C49 | `C49_copy_refuted` | propext, Classical.choice, Quot.sound |
| C49 | `C49_original_spoiled` | propext, Classical.choice, Quot.sound |
| C49 | `C49_spoiled_rejected` | propext, Classical.choice, Quot.sound |
| C50 | `C50_shake128_short` | propext, Classical.choice, Quot.sound |
| C50 | `C50_shake256_short` | propext, Classical.choice, Quot.sound |
| C50 | `C50_shake128_second_block` | propext, Classical.choice, Quot.sound |
| C50 | `C50_shake256_second_block` | propext, Classical.choice, Quot.sound |
| C50 | `C50_shake128_panics` | propext, Classical.choice, Quot.sound |
| C50 | `C50_shake256_panics` | propext, Classical.choice, Quot.sound |
| C50 | `C50_shake128_collisions` | propext, Classical.choice, Quot.sound |
| C50 | `C50_shake256_collisions` | propext, Classical.choice, Quot.sound |
| C50 | `C50_shake128_fips_refuted` | propext, Classical.choice, Quot.sound |
| C50 | `C50_shake256_fips_refuted` | propext, Classical.choice, Quot.sound |
| C50 | `C50_shake_agrees` | propext, Classical.choice, Quot.sound |
| C50 | `C50_sha2_n` | propext, Quot.sound |
| C51 | `C51_same_getters` | propext, Classical.choice, Quot.sound |
| C51 | `C51_counts` | propext, Classical.choice, Quot.sound |
| C51 | `C51_object_address` | propext, Classical.choice, Quot.sound |
| C51 | `C51_address_defined` | propext, Classical.choice, Quot.sound |
| C51 | `C51_address_same` | propext, Classical.choice, Quot.sound |
| C51 | `C51_address_is_valid` | propext, Classical.choice, Quot.sound |
| C51 | `C51_fast_same_key` | propext, Classical.choice, Quot.sound |
| C51 | `C51_basic_same_key` | propext, Classical.choice, Quot.sound |
| C51 | `C51_new_refuses` | propext, Classical.choice, Quot.sound |
| C51 | `C51_tall_panics` | propext, Classical.choice, Quot.sound |
| C51 | `C51_from_extended_seed` | propext, Classical.choice, Quot.sound |
| C51 | `C51_extended_seed_roundtrip` | propext, Classical.choice, Quot.sound |
| C52 | `C52_fast_history` | propext, Classical.choice, Quot.sound |
| C52 | `C52_same_as_cpp` | propext, Classical.choice, Quot.sound |
| C52 | `C52_no_reuse` | propext, Classical.choice, Quot.sound |
| C52 | `C52_sign_panics_iff` | propext, Classical.choice, Quot.sound |
| C52 | `C52_sign_cut` | propext, Quot.sound |
| C52 | `C52_sign_verifies` | propext, Classical.choice, Quot.sound |
| C52 | `C52_basic_history` | propext, Classical.choice, Quot.sound |
| C52 | `C52_basic_reuse_refuted` | propext, Classical.choice, Quot.sound |
| C52 | `C52_basic_tall_refuted` | propext, Classical.choice, Quot.sound |
| C52 | `C52_basic_wrap_refuted` | propext, Classical.choice, Quot.sound |
| C52 | `C52_release_history` | propext, Classical.choice, Quot.sound |
| C52 | `C52_release_panics_iff` | propext, Classical.choice, Quot.sound |
| C52 | `C52_release_inside` | propext, Classical.choice, Quot.sound |
| C52 | `C52_release_indices` | propext, Classical.choice, Quot.sound |
| C52 | `C52_release_rollover_refuted` | propext, Classical.choice, Quot.sound |
| C53 | `C53_message_classes` | propext, Classical.choice, Quot.sound |
| C53 | `C53_accepts_iff` | propext, Classical.choice, Quot.sound |
| C53 | `C53_panics_iff` | propext, Classical.choice, Quot.sound |
| C53 | `C53_outcomes` | propext, Classical.choice, Quot.sound |
| C53 | `C53_agrees_short` | propext, Classical.choice, Quot.sound |
| C53 | `C53_forgery` | propext, Classical.choice, Quot.sound |
| C53 | `C53_refuses` | propext, Classical.choice, Quot.sound |
| C53 | `C53_signed_forgery` | propext, Classical.choice, Quot.sound |
| C54 | `C54_from_bytes` | propext, Classical.choice, Quot.sound |
| C54 | `C54_from_bytes_total` | propext, Classical.choice, Quot.sound |
| C54 | `C54_roundtrip` | propext, Classical.choice, Quot.sound |
| C54 | `C54_same_bytes` | propext, Classical.choice, Quot.sound |
| C54 | `C54_cpp_accepts_more` | propext, Classical.choice, Quot.sound |
| C55 | `C55_hex_same` | propext, Quot.sound |
| C55 | `C55_hstr2bin_same` | propext, Classical.choice, Quot.sound |
| C55 | `C55_hstr2bin_total` | propext, Quot.sound |
| C55 | `C55_hex_roundtrip` | propext, Classical.choice, Quot.sound |
| C55 | `C55_mnemonic_same` | propext, Classical.choice, Quot.sound |
| C55 | `C55_mnemonic_accepts` | propext, Classical.choice, Quot.sound |
| C55 | `C55_mnemonic_value` | propext, Classical.choice, Quot.sound |
| C55 | `C55_mnemonic_roundtrip` | propext, Classical.choice, Quot.sound |
| C55 | `C55_mnemonic_cpp` | propext, Classical.choice, Quot.sound |
| C55 | `C55_mnemonic_cpp_refuted` | propext, Classical.choice, Quot.sound |
| C56 | `C56_history` | propext, Classical.choice, Quot.sound |
| C56 | `C56_available` | propext, Classical.choice, Quot.sound |
| C56 | `C56_bad_height` | propext, Classical.choice, Quot.sound |
| C56 | `C56_tall_panics` | propext, Classical.choice, Quot.sound |
| C56 | `C56_texts_distinct` | propext, Classical.choice, Quot.sound |
| C56 | `C56_seeds_distinct` | propext, Classical.choice, Quot.sound |
| C56 | `C56_base_clash_refuted` | propext |
| C56 | `C56_seed_repeats_refuted` | propext, Quot.sound |
| C56 | `C56_cpp_differs_refuted` | propext, Quot.sound |
| C57 | `C57_kyber_new` | none |
| C57 | `C57_kyber_exchange` | none |
| C57 | `C57_kyber_self` | none |
| C57 | `C57_dilithium_new` | none |
| C57 | `C57_dilithium_open` | none |
| C57 | `C57_extract` | propext, Classical.choice, Quot.sound |
| C57 | `C57_extract_swapped_refuted` | propext, Classical.choice, Quot.sound |
| C57 | `C57_extract_wrong_refuted` | none |
| C58 | `C58_chain` | propext, Classical.choice, Quot.sound |
| C58 | `C58_short` | propext, Classical.choice, Quot.sound |
| C58 | `C58_truncated` | propext, Classical.choice, Quot.sound |
| C58 | `C58_identical_refuted` | propext, Classical.choice, Quot.sound |
| C58 | `C58_panics` | propext, Classical.choice, Quot.sound |
| C59 | `C59_random` | propext, Classical.choice, Quot.sound |
| C59 | `C59_random_same` | propext, Classical.choice, Quot.sound |
| C59 | `C59_entropy_refuted` | propext, Classical.choice, Quot.sound |
| C60 | `C60_full_history` | propext, Classical.choice, Quot.sound |
| C60 | `C60_rewind_refuted` | propext, Classical.choice, Quot.sound |
| C61 | `C61_update_sk` | propext, Classical.choice, Quot.sound |
| C61 | `C61_rewind_refuted` | propext, Classical.choice, Quot.sound |
| C62 | `C62_restore_identical` | propext, Classical.choice, Quot.sound |
| C62 | `C62_wallet_refines` | propext, Classical.choice, Quot.sound |
| C62 | `C62_no_reuse_across_crashes` | propext, Classical.choice, Quot.sound |
| C62 | `C62_save_after_sign_refuted` | propext, Classical.choice, Quot.sound |
| C62 | `C62_exhausted_restore_refuted` | propext, Classical.choice, Quot.sound |
| C63 | `C63_address_binds` | propext, Classical.choice, Quot.sound |
| C63 | `C63_address_tells` | propext, Classical.choice, Quot.sound |
| C63 | `C63_secret_binds` | propext, Classical.choice, Quot.sound |
| C63 | `C63_extended_seed_binds` | propext, Classical.choice, Quot.sound |
| C64 | `C64_forgery` | propext, Classical.choice, Quot.sound |
| C65 | `C65_hash_forward` | propext, Classical.choice, Quot.sound |
| C65 | `C65_checksum_protects` | propext, Classical.choice, Quot.sound |
| C65 | `C65_w256_positions` | propext, Classical.choice, Quot.sound |
| C65 | `C65_w256_condition` | propext, Classical.choice, Quot.sound |
| C65 | `C65_w256_refuted` | propext, Classical.choice, Quot.sound |
| C66 | `C66_destroy_safe` | propext, Classical.choice, Quot.sound |
| C66 | `C66_failed_constructor_safe` | propext, Classical.choice, Quot.sound |
| C66 | `C66_destroy_ends` | propext, Classical.choice, Quot.sound |
| C66 | `C66_failed_constructor_ends` | propext, Classical.choice, Quot.sound |
| C67 | `C67_verify_spec` | propext, Classical.choice, Quot.sound |
| C67 | `C67_sign_verifies` | propext, Classical.choice, Quot.sound |
| C67 | `C67_bits_ignored` | propext, Classical.choice, Quot.sound |
| C67 | `C67_bits_exact` | propext, Classical.choice, Quot.sound |
| C67 | `C67_lost_bits` | propext, Quot.sound |
| C67 | `C67_supported_agree` | propext, Classical.choice, Quot.sound |
| C67 | `C67_w17` | propext, Classical.choice, Quot.sound |
| C67 | `C67_w257` | propext, Classical.choice, Quot.sound |
| C67 | `C67_authenticates_refuted` | propext, Classical.choice, Quot.sound |
| C67 | `C67_fast_authenticates_refuted` | propext, Classical.choice, Quot.sound |
| C67 | `C44_any_sign` | propext, Classical.choice, Quot.sound |
| C68 | `C68_value_semantics` | propext, Classical.choice, Quot.sound |
| C68 | `C68_move_safe` | propext, Classical.choice, Quot.sound |
| C68 | `C68_swap_safe` | propext, Classical.choice, Quot.sound |
| C68 | `C68_dangling_refuted` | propext, Classical.choice, Quot.sound |
| C68 | `C68_assign_dangling_refuted` | propext, Classical.choice, Quot.sound |
| C68 | `C68_assign_moved_refuted` | propext, Classical.choice, Quot.sound |
| C68 | `C68_vector_growth_refuted` | propext, Classical.choice, Quot.sound |
| C68 | `C68_alias_reuse` | propext, Classical.choice, Quot.sound |
| C69 | `C69_full_history` | propext, Classical.choice, Quot.sound |
| C69 | `C69_basic_history` | propext, Classical.choice, Quot.sound |
| C69 | `C69_supported_agree` | propext, Classical.choice, Quot.sound |
| C69 | `C69_verify` | propext, Classical.choice, Quot.sound |
| C69 | `C69_debug_unusable` | propext, Classical.choice, Quot.sound |
| C69 | `C69_sign_verifies` | propext, Classical.choice, Quot.sound |
| C69 | `C69_release_forgery_refuted` | propext, Classical.choice, Quot.sound |
| C69 | `C69_message_independent_refuted` | propext, Classical.choice, Quot.sound |
| C69 | `C69_sizes` | propext, Classical.choice, Quot.sound |
| C70 | `C70_reuse_forges` | propext, Classical.choice, Quot.sound |
| C70 | `C70_fast_forgery` | propext, Classical.choice, Quot.sound |
| C70 | `C70_basic_forgery` | propext, Classical.choice, Quot.sound |
| C70 | `C70_copy_forgery` | propext, Classical.choice, Quot.sound |
| C71 | `C71_refines` | propext, Classical.choice, Quot.sound |
| C71 | `C71_no_reuse` | propext, Classical.choice, Quot.sound |
| C71 | `C71_same_extended_seed` | propext, Classical.choice, Quot.sound |
| C71 | `C71_same_replies` | propext, Classical.choice, Quot.sound |
| C71 | `C71_sign_verifies` | propext, Classical.choice, Quot.sound |
| C71 | `C71_long_message_refuted` | propext, Classical.choice, Quot.sound |
| C72 | `C72_history` | propext, Quot.sound |
| C72 | `C72_short_argument_refuted` | propext, Classical.choice, Quot.sound |
| C72 | `C72_exchange` | propext, Classical.choice, Quot.sound |
| C72 | `C72_stale_cyphertext_refuted` | none |
| C72 | `C72_failed_decode_refuted` | none |
| C72 | `C72_js_history` | propext, Classical.choice, Quot.sound |
| C72 | `C72_js_dilithium` | propext, Quot.sound |
| C72 | `C72_rust_history` | propext |
| C73 | `C73_signer_history` | propext, Classical.choice, Quot.sound |
| C73 | `C73_wrong_arguments` | propext, Classical.choice, Quot.sound |
| C73 | `C73_runtime_error` | propext, Classical.choice, Quot.sound |
| C73 | `C73_verify_silent` | propext, Classical.choice, Quot.sound |
| C74 | `C74_distinct_heights_refuted` | propext, Classical.choice, Quot.sound |
| C74 | `C74_recovery_refuted` | propext, Classical.choice, Quot.sound |
| C74 | `C74_never_verifies` | propext, Classical.choice, Quot.sound |
| C74 | `C74_basic_signs` | propext, Classical.choice, Quot.sound |
| C74 | `C74_fast_first` | propext, Classical.choice, Quot.sound |
| C75 | `C75_alone` | propext, Classical.choice, Quot.sound |
| C75 | `C75_fast_locked` | propext, Classical.choice, Quot.sound |
| C75 | `C75_basic_locked` | propext, Classical.choice, Quot.sound |
| C75 | `C75_fast_race_refuted` | propext, Classical.choice, Quot.sound |
| C75 | `C75_fast_race_every_index` | propext, Classical.choice, Quot.sound |
| C75 | `C75_fast_one_preemption` | propext, Classical.choice, Quot.sound |
| C75 | `C75_fast_one_preemption_every_index` | propext, Classical.choice, Quot.sound |
| C75 | `C75_fast_past_end` | propext, Classical.choice, Quot.sound |
| C75 | `C75_fast_any_schedule` | propext, Classical.choice, Quot.sound |
| C75 | `C75_basic_race_refuted` | propext, Classical.choice, Quot.sound |
| C75 | `C75_basic_any_schedule` | propext, Classical.choice, Quot.sound |
| C75 | `C75_race_forgery` | propext, Classical.choice, Quot.sound |
| C76 | `C76_verify` | propext, Classical.choice, Quot.sound |
| C76 | `C76_fast_new` | propext, Classical.choice, Quot.sound |
| C76 | `C76_fast_set_index` | propext, Classical.choice, Quot.sound |
| C76 | `C76_fast_sign` | propext, Classical.choice, Quot.sound |
| C76 | `C76_basic_new` | propext, Classical.choice, Quot.sound |
| C76 | `C76_basic_sign` | propext, Classical.choice, Quot.sound |
| C76 | `C76_rust_verify` | propext, Classical.choice, Quot.sound |
| C77 | `C77_price` | propext, Classical.choice, Quot.sound |
| C77 | `C77_forge_any_randomiser` | propext, Classical.choice, Quot.sound |
| C77 | `C77_basic_price` | propext, Classical.choice, Quot.sound |
| C77 | `C77_fast_price` | propext, Classical.choice, Quot.sound |
| C77 | `C77_basic_forge` | propext, Classical.choice, Quot.sound |
| C77 | `C77_basic_once` | propext, Classical.choice, Quot.sound |
| C78 | `C78_fast_public_key` | propext, Classical.choice, Quot.sound |
| C78 | `C78_basic_public_key` | propext, Classical.choice, Quot.sound |
| C78 | `C78_fast_basic_public_key` | propext, Classical.choice, Quot.sound |
| C78 | `C78_fast_address` | propext, Classical.choice, Quot.sound |
| C78 | `C78_basic_address` | propext, Classical.choice, Quot.sound |
| C78 | `C78_fast_basic_address` | propext, Classical.choice, Quot.sound |
| C79 | `C79_chain_values` | propext, Classical.choice, Quot.sound |
| C79 | `C79_signatures` | propext, Classical.choice, Quot.sound |
| C79 | `C79_fast_signatures` | propext, Classical.choice, Quot.sound |
| C79 | `C79_one_signer` | propext, Classical.choice, Quot.sound |
| C79 | `C79_pool` | propext, Classical.choice, Quot.sound |
| C80 | `C80_accepts_read` | propext, Classical.choice, Quot.sound |
| C80 | `C80_price` | propext, Classical.choice, Quot.sound |
| C80 | `C80_once` | propext, Classical.choice, Quot.sound |
| C80 | `C80_fast` | propext, Classical.choice, Quot.sound |
| C80 | `C80_basic` | propext, Classical.choice, Quot.sound |
| C81 | `C81_kem_keypair_refuted` | propext, Classical.choice, Quot.sound |
| C81 | `C81_sign_keypair_refuted` | propext, Classical.choice, Quot.sound |
| C82 | `C82_fast_history` | propext, Classical.choice, Quot.sound |
| C82 | `C82_fast_no_reuse` | propext, Classical.choice, Quot.sound |
| C82 | `C82_basic_history` | propext, Classical.choice, Quot.sound |
| C82 | `C82_init_first` | propext, Quot.sound |
| C82 | `C82_init_failed_refuted` | propext, Classical.choice, Quot.sound |
| C82 | `C82_init_zero_key_refuted` | propext, Classical.choice, Quot.sound |
| C82 | `C82_init_between_refuted` | propext, Classical.choice, Quot.sound |
| C82 | `C82_init_dangling_refuted` | propext, Classical.choice, Quot.sound |
| C82 | `C82_init_enough` | propext, Quot.sound |
| C82 | `C82_init_retry` | propext, Quot.sound |
| C83 | `C83_shake128` | propext, Classical.choice, Quot.sound |
| C83 | `C83_shake256` | propext, Classical.choice, Quot.sound |
| C83 | `C83_overread_refuted` | propext, Classical.choice, Quot.sound |
| C83 | `C83_verify_sig` | propext, Classical.choice, Quot.sound |
| C83 | `C83_verify_sig_zero` | propext, Classical.choice, Quot.sound |
| C83 | `C83_trailing` | propext, Classical.choice, Quot.sound |
| C83 | `C83_agrees` | propext, Classical.choice, Quot.sound |
| C84 | `C84_value` | propext, Classical.choice, Quot.sound |
| C84 | `C84_refused` | propext, Classical.choice, Quot.sound |
| C84 | `C84_accepts` | propext, Classical.choice, Quot.sound |
| C84 | `C84_same_wallet` | propext, Classical.choice, Quot.sound |
| C84 | `C84_wrong_word_refuted` | propext, Classical.choice, Quot.sound |
| C84 | `C84_letter_refuted` | propext, Classical.choice, Quot.sound |
| C85 | `C85_verify_bound` | propext, Classical.choice, Quot.sound |
| C85 | `C85_verify_exact` | propext, Classical.choice, Quot.sound |
| C85 | `C85_verify_overflow_refuted` | propext, Classical.choice, Quot.sound |
| C85 | `C85_fast_new` | propext, Classical.choice, Quot.sound |
| C85 | `C85_fast_new_exact` | propext, Classical.choice, Quot.sound |
| C85 | `C85_fast_set_index` | propext, Classical.choice, Quot.sound |
| C85 | `C85_fast_sign` | propext, Classical.choice, Quot.sound |
| C85 | `C85_fast_sign_exact` | propext, Classical.choice, Quot.sound |
| C85 | `C85_sign_without_verify` | propext, Classical.choice, Quot.sound |
| C85 | `C85_basic_sign` | propext, Classical.choice, Quot.sound |
| C85 | `C85_basic_exact` | propext, Classical.choice, Quot.sound |
| C85 | `C85_basic_tall_refuted` | propext, Classical.choice, Quot.sound |
| C85 | `verify_reach` | propext, Quot.sound |
| C86 | `C86_value` | propext, Classical.choice, Quot.sound |
| C86 | `C86_accepts` | propext, Classical.choice, Quot.sound |
| C86 | `C86_same_wallet` | propext, Classical.choice, Quot.sound |
| C86 | `C86_moves` | propext, Classical.choice, Quot.sound |
| C86 | `C86_format_refuted` | propext, Classical.choice, Quot.sound |
| C86 | `C86_spacing_refuted` | propext, Classical.choice, Quot.sound |
| C86 | `C86_wrong_word_refuted` | propext, Classical.choice, Quot.sound |
| C87 | `C87_fast_stable` | propext, Classical.choice, Quot.sound |
| C87 | `C87_fast_calls` | propext, Classical.choice, Quot.sound |
| C87 | `C87_basic_stable` | propext, Quot.sound |
| C88 | `C88_verify` | propext, Classical.choice, Quot.sound |
| C88 | `C88_registered` | propext, Classical.choice, Quot.sound |
| C88 | `C88_foreign` | propext, Classical.choice, Quot.sound |
| C88 | `C88_fast_sign` | propext, Classical.choice, Quot.sound |
| C88 | `C88_fast_registered` | propext, Classical.choice, Quot.sound |
| C88 | `C88_fast_history` | propext, Classical.choice, Quot.sound |
| C88 | `C88_rust_history` | propext, Classical.choice, Quot.sound |
| C88 | `C88_basic_key` | propext, Classical.choice, Quot.sound |
| C88 | `C88_basic_sign` | propext, Classical.choice, Quot.sound |
| C88 | `C88_rust_verify` | propext, Classical.choice, Quot.sound |
| C89 | `C89_verifysig` | propext, Classical.choice, Quot.sound |
| C89 | `C89_verifysig_height0` | propext, Classical.choice, Quot.sound |
| C89 | `C89_header_refuted` | propext, Classical.choice, Quot.sound |
| C89 | `C89_genkeypair` | propext, Classical.choice, Quot.sound |
| C89 | `C89_signmsg` | propext, Classical.choice, Quot.sound |
| C89 | `C89_signmsg_short` | propext, Quot.sound |
| C89 | `C89_roundtrip` | propext, Classical.choice, Quot.sound |
| C89 | `C89_fast_genkeypair_odd` | propext, Quot.sound |
| C89 | `C89_fast_genkeypair` | propext, Classical.choice, Quot.sound |
| C89 | `C89_fast_history` | propext, Classical.choice, Quot.sound |
| C89 | `C89_fast_beyond` | propext, Classical.choice, Quot.sound |
| C89 | `C89_fast_exhausted_refuted` | propext, Classical.choice, Quot.sound |
| C90 | `C90_agrees` | propext, Quot.sound |
| C90 | `C90_fast_no_reuse` | propext, Classical.choice, Quot.sound |
| C90 | `C90_fast_burned` | propext, Classical.choice, Quot.sound |
| C90 | `C90_fast_next_refuted` | propext, Classical.choice, Quot.sound |
| C90 | `C90_fast_next_rejected` | propext, Classical.choice, Quot.sound |
| C90 | `C90_fast_healed` | propext, Classical.choice, Quot.sound |
| C90 | `C90_basic_history` | propext, Classical.choice, Quot.sound |
| C91 | `C91_gen_keypair` | propext, Classical.choice, Quot.sound |
| C91 | `C91_sign_msg` | propext, Classical.choice, Quot.sound |
| C91 | `C91_sign_short` | propext, Classical.choice, Quot.sound |
| C91 | `C91_roundtrip` | propext, Classical.choice, Quot.sound |
| C91 | `C91_fast_odd` | propext, Quot.sound |
| C91 | `C91_fast_gen_keypair` | propext, Classical.choice, Quot.sound |
| C91 | `C91_fast_history` | propext, Classical.choice, Quot.sound |
| C91 | `C91_fast_accepted` | propext, Classical.choice, Quot.sound |
| C91 | `C91_fast_exhausted_refuted` | propext, Classical.choice, Quot.sound |
| C92 | `C92_set_params` | propext, Classical.choice, Quot.sound |
| C92 | `C92_two` | propext, Classical.choice, Quot.sound |
| C92 | `C92_genkeypair_odd` | propext, Classical.choice, Quot.sound |
| C92 | `C92_genkeypair` | propext, Classical.choice, Quot.sound |
| C92 | `C92_history` | propext, Classical.choice, Quot.sound |
| C92 | `C92_same` | propext, Classical.choice, Quot.sound |
| C92 | `C92_large_refuted` | propext, Classical.choice, Quot.sound |
| C93 | `C93_params` | propext, Classical.choice, Quot.sound |
| C93 | `C93_odd` | propext, Classical.choice, Quot.sound |
| C93 | `C93_gen_keypair` | propext, Classical.choice, Quot.sound |
| C93 | `C93_history` | propext, Classical.choice, Quot.sound |
| C93 | `C93_same` | propext, Classical.choice, Quot.sound |
| C93 | `C93_two` | propext, Classical.choice, Quot.sound |
| C93 | `C93_large_debug_refuted` | propext, Classical.choice, Quot.sound |
| C93 | `C93_large_release_refuted` | propext, Classical.choice, Quot.sound |
| C94 | `C94_pairs` | propext, Quot.sound |
| C94 | `C94_hash_values` | propext, Classical.choice, Quot.sound |
| C94 | `C94_hash_unsupported` | propext, Quot.sound |
| C94 | `C94_hmsg_keylen` | propext, Quot.sound |
| C94 | `C94_params` | propext, Quot.sound |
| C94 | `C94_wots_correct` | propext, Classical.choice, Quot.sound |
| C94 | `C94_wots_unsupported` | propext, Classical.choice, Quot.sound |
| C94 | `C94_no_forward_forgery` | propext, Classical.choice, Quot.sound |
| C94 | `C94_w256_refuted` | propext, Classical.choice, Quot.sound |
| C94 | `C94_same_32` | propext, Quot.sound |
| C95 | `C95_verify_32` | propext, Quot.sound |
| C95 | `C95_counter_64` | propext, Classical.choice, Quot.sound |
| C95 | `C95_only_32` | propext, Quot.sound |
| C96 | `C96_hash_unsupported` | propext, Quot.sound |
| C96 | `C96_hash_returns` | propext, Quot.sound |
| C96 | `C96_verify_32` | propext, Classical.choice, Quot.sound |
| C96 | `C96_panics` | propext, Classical.choice, Quot.sound |
| C96 | `C96_small_verdict` | propext, Classical.choice, Quot.sound |
| C96 | `C96_accepts_all_refuted` | propext, Classical.choice, Quot.sound |
| C97 | `C97_gen_keypair` | propext, Classical.choice, Quot.sound |
| C97 | `C97_gen_keypair_32` | propext, Classical.choice, Quot.sound |
| C97 | `C97_root_ignores_secret` | propext, Classical.choice, Quot.sound |
| C97 | `C97_generated_key_refuted` | propext, Classical.choice, Quot.sound |
| C98 | `C98_prf_shake128` | propext, Classical.choice, Quot.sound |
| C98 | `C98_prf_shake256_refuted` | propext, Classical.choice, Quot.sound |
| C98 | `C98_expand_seed_refuted` | propext, Classical.choice, Quot.sound |
| C98 | `C98_get_seed_refuted` | propext, Classical.choice, Quot.sound |
| C98 | `C98_hash_f_refuted` | propext, Classical.choice, Quot.sound |
| C98 | `C98_hash_h_refuted` | propext, Classical.choice, Quot.sound |
