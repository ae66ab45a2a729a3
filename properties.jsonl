{"id": "C01", "title": "Hex round trip", "statement": "hstr2bin(bin2hstr(v)) returns v, byte for byte.", "quantifier": "every byte vector v of any length (below the int loop limit 2^30 bytes)", "why_tests_cant": "tests try a few vectors; the claim is about all 256^n vectors of every length n", "anchors": ["src/qrl/misc.cpp:bin2hstr", "src/qrl/misc.cpp:hstr2bin", "src/qrl/misc.cpp:getHexValue"]}
{"id": "C02", "title": "hstr2bin accepts exactly the even-length hex strings", "statement": "For input of characters below 0x80, hstr2bin(s) succeeds iff s has even length and only characters 0-9a-fA-F; otherwise it throws invalid_argument. On success bin2hstr(hstr2bin(s)) is s lower-cased, so no two different byte vectors share an accepted spelling. In general, for every string of even length the first character that is not a hex digit decides: if it is in 0x80..0xFE the call is undefined (isxdigit of a negative char), otherwise (0xFF included, which is EOF) it throws.", "quantifier": "every string", "why_tests_cant": "needs every string, including every invalid character at every position", "anchors": ["src/qrl/misc.cpp:hstr2bin", "src/qrl/misc.cpp:getHexValue"]}
{"id": "C03", "title": "Line wrapping in bin2hstr only inserts newlines", "statement": "bin2hstr(v,wrap) with wrap>0 is the unwrapped hex text cut into lines of exactly wrap bytes (2*wrap characters), the last line non-empty and possibly shorter, joined by newline with no trailing newline; deleting the newlines gives bin2hstr(v,0).", "quantifier": "every vector v and every wrap > 0", "why_tests_cant": "needs all lengths and wraps, including exact multiples", "anchors": ["src/qrl/misc.cpp:bin2hstr"]}
{"id": "C04", "title": "Mnemonic round trip", "statement": "mnemonic2bin(bin2mnemonic(v)) returns v for every non-empty v whose size is a multiple of 3; bin2mnemonic throws invalid_argument exactly when the size is not a multiple of 3 and never reads outside the word list.", "quantifier": "every byte vector", "why_tests_cant": "a backup phrase must restore every possible seed; the tests try a handful and never the whole 4096-word list", "anchors": ["src/qrl/misc.cpp:bin2mnemonic", "src/qrl/misc.cpp:mnemonic2bin", "src/qrl/wordlist.cpp:wordlist"]}
{"id": "C05", "title": "Mnemonic decoding is injective on canonical phrases and rejects unknown words", "statement": "If mnemonic2bin accepts a phrase, every whitespace-separated word is in the 4096-word list; a phrase of an even number of list words joined by single spaces is always accepted and bin2mnemonic gives the same phrase back, so different canonical phrases decode to different bytes. An accepted phrase decodes to the 12-bit numbers of its words cut into bytes (after an odd number of words, C06, the last 4 bits are a byte of their own), so any two accepted phrases decode to the same bytes exactly if they have the same words.", "quantifier": "every string; every even-length sequence of list words", "why_tests_cant": "needs all phrases", "anchors": ["src/qrl/misc.cpp:mnemonic2bin", "src/qrl/wordlist.cpp:wordlist"]}
{"id": "C06", "title": "Which mnemonics with an odd number of words are rejected", "statement": "mnemonic2bin counts space characters, not words: a phrase with an odd number of words separated by single spaces is rejected with invalid_argument, but with one extra space, doubled between two words or before the first or after the last word, the check is defeated and any odd number of list words is accepted. (The natural property, that an odd number of words is always rejected, is refuted.)", "quantifier": "every string", "why_tests_cant": "the check and the tokenizer disagree only on inputs with unusual spacing, which no test tries", "anchors": ["src/qrl/misc.cpp:mnemonic2bin"]}
{"id": "C07", "title": "Descriptor round trip", "statement": "fromBytes(getBytes(d)) gives back the hash function, signature type, height and address format of d, for every hash value 0..15, signature type XMSS, even height <= 30 and address format 0..15; fromBytes throws iff the input is not 3 bytes. Heights above 30 are not representable: getBytes reduces them mod 32.", "quantifier": "every descriptor, every byte vector", "why_tests_cant": "tests pick a few heights; encode/decode must agree for all", "anchors": ["src/qrl/qrlDescriptor.h:QRLDescriptor::fromBytes", "src/qrl/qrlDescriptor.h:QRLDescriptor::getBytes"]}
{"id": "C08", "title": "The signature-type nibble of a descriptor is never looked at", "statement": "fromBytes gives signature type XMSS whatever the upper nibble of byte 0 is: two descriptors differing only there are indistinguishable, and verify gives the same answer for two public keys differing only there. Of the three descriptor bytes verify reads only the low nibbles of the first two, so every signature of every signer verifies under 65536 spellings of its key. (The natural property, that a key naming another signature type is not accepted as an XMSS key, is refuted.)", "quantifier": "every 67-byte extended public key", "why_tests_cant": "needs all descriptor bytes; tests only ever use type 0", "anchors": ["src/qrl/qrlDescriptor.h:QRLDescriptor::fromBytes", "src/qrl/xmssBase.cpp:XmssBase::verify"]}
{"id": "C09", "title": "Extended seed restores the same signer", "statement": "Building an XmssFast from getExtendedSeed() of another freshly built XmssFast (even height 4..30, supported hash function) gives the same height, hash function, secret key, public key, address and traversal state; and getExtendedSeed of an object built from a canonical extended seed is that seed.", "quantifier": "every 48-byte seed, height, hash function and address format", "why_tests_cant": "wallet recovery must work for every seed", "anchors": ["src/qrl/xmssBase.cpp:XmssBase::XmssBase", "src/qrl/xmssBase.cpp:XmssBase::getExtendedSeed", "src/qrl/xmssFast.cpp:XmssFast::XmssFast"]}
{"id": "C10", "title": "Derived addresses are valid", "statement": "getAddress(epk) returns a 39-byte address accepted by addressIsValid whenever epk has 67 bytes and address format 0, and throws invalid_argument in exactly the other cases; the first 3 bytes are the canonical descriptor of epk.", "quantifier": "every byte vector epk", "why_tests_cant": "needs every key and every malformed length", "anchors": ["src/qrl/qrlHelper.h:QRLHelper::getAddress", "src/qrl/qrlHelper.h:QRLHelper::addressIsValid"]}
{"id": "C11", "title": "Address checksum decides validity", "statement": "addressIsValid(a) never throws; it is true iff a has 39 bytes, address format 0, and its last 4 bytes are the last 4 bytes of SHA-256 of the first 35. So for each 35-byte prefix exactly one (or zero) 4-byte suffix is accepted: any corruption confined to the checksum is detected. A corruption of the first 35 bytes goes unnoticed only if SHA-256 of two different 35-byte strings agrees in its last four bytes. (That a valid address is the address of some public key is refuted: every 35 bytes with address format 0 can be completed to a valid address, but with a signature-type nibble or third byte other than 0 no public key has it, and with an unsupported hash function or a height below 4 no XmssFast has it.)", "quantifier": "every byte vector", "why_tests_cant": "needs all vectors and all corruptions", "anchors": ["src/qrl/qrlHelper.h:QRLHelper::addressIsValid"]}
{"id": "C12", "title": "XmssFast signatures verify at every reachable state", "statement": "For every seed, even height 4..30 and supported hash function, after any sequence of setIndex and sign calls (including ones that throw), if the index is below 2^height then sign succeeds and verify(message, signature, getPK()) is true.", "quantifier": "every seed, height, hash function, history of calls and message", "why_tests_cant": "correctness of the BDS traversal depends on every schedule of tree-hash updates over all 2^height indices and all skips; tests walk a few small trees", "anchors": ["src/qrl/xmssFast.cpp:XmssFast::sign", "src/qrl/xmssFast.cpp:XmssFast::setIndex", "src/xmss-alt/algsxmss_fast.c:bds_round", "src/xmss-alt/algsxmss_fast.c:bds_treehash_update", "src/xmss-alt/algsxmss_fast.c:treehash_update", "src/xmss-alt/xmss_common.c:xmss_Verifysig"]}
{"id": "C13", "title": "XmssBasic signatures verify", "statement": "For every seed, even height (4..24), supported hash function and w in {2,4,16,256}, at every index below 2^height, XmssBasic::sign succeeds and verify(message, signature, getPK(), w) is true.", "quantifier": "every seed, height, hash function, w, index and message", "why_tests_cant": "needs all indices, seeds and messages", "anchors": ["src/qrl/xmssBasic.cpp:XmssBasic::sign", "src/xmss-alt/algsxmss.c:xmss_Signmsg", "src/xmss-alt/algsxmss.c:compute_authpath_wots", "src/xmss-alt/xmss_common.c:validate_authpath"]}
{"id": "C14", "title": "Fast and basic signers are interchangeable", "statement": "For the same seed, height and hash function XmssFast and XmssBasic have the same secret and public key, and (heights 4..24; beyond, XmssBasic::sign is undefined, C45) at the same index produce byte-identical signatures for every message, however the index was reached.", "quantifier": "every seed, height, hash function, history and message", "why_tests_cant": "tests compare a few indices on one seed", "anchors": ["src/xmss-alt/algsxmss_fast.c:xmssfast_Genkeypair", "src/xmss-alt/algsxmss.c:xmss_Genkeypair", "src/xmss-alt/algsxmss_fast.c:xmssfast_Signmsg", "src/xmss-alt/algsxmss.c:xmss_Signmsg"]}
{"id": "C15", "title": "Public root and authentication path are those of the XMSS Merkle tree", "statement": "The root in the public key is the root of the binary hash tree whose leaves are the L-tree compressions of the WOTS+ public keys 0..2^h-1, and the path in a signature at index i consists of the siblings of the nodes on the path from leaf i, in the sense of RFC 8391.", "quantifier": "every seed, height, hash function, index", "why_tests_cant": "an error in an address or in one level shows only at particular indices", "anchors": ["src/xmss-alt/algsxmss.c:treehash", "src/xmss-alt/algsxmss_fast.c:treehash_setup", "src/xmss-alt/algsxmss.c:compute_authpath_wots", "src/xmss-alt/xmss_common.c:l_tree"]}
{"id": "C16", "title": "XmssFast never uses a one-time key twice", "statement": "Over any history of setIndex and sign calls on one XmssFast, the indices in the returned signatures are strictly increasing; in particular no two signatures carry the same index.", "quantifier": "every history of calls, including failing ones", "why_tests_cant": "index reuse breaks the scheme; needs every history", "anchors": ["src/qrl/xmssFast.cpp:XmssFast::sign", "src/xmss-alt/algsxmss_fast.c:xmssfast_update", "src/xmss-alt/algsxmss_fast.c:xmssfast_Signmsg"]}
{"id": "C17", "title": "XmssFast exhaustion and rewind are refused without effect", "statement": "setIndex(n) throws iff n >= 2^height or n < getIndex(); sign throws iff getIndex() = 2^height; a throwing call leaves the object unchanged; getRemainingSignatures never underflows; from a fresh object at most 2^height signatures can ever be produced, and exactly that many are produced by 2^height calls of sign.", "quantifier": "every history of calls", "why_tests_cant": "needs whole-life histories of up to 2^30 signatures", "anchors": ["src/xmss-alt/algsxmss_fast.c:xmssfast_update", "src/qrl/xmssBase.h:XmssBase::getRemainingSignatures"]}
{"id": "C18", "title": "XmssBasic can be rewound and signs past its last key", "statement": "On every XmssBasic (height 4..24), setIndex never checks its argument: after it has signed with index i, setIndex(i) makes the next sign use index i again, and sign at index 2^height or beyond reads outside the array of tree nodes. (The natural property, that no two signatures of one object carry the same index and that sign throws when exhausted, is refuted.)", "quantifier": "every history of calls", "why_tests_cant": "needs histories with rewinds and exhaustion", "anchors": ["src/qrl/xmssBase.cpp:XmssBase::setIndex", "src/qrl/xmssBasic.cpp:XmssBasic::sign", "src/xmss-alt/algsxmss.c:compute_authpath_wots"]}
{"id": "C19", "title": "BDS traversal stays inside its buffers", "statement": "For every even height 4..30, key generation and any sequence of setIndex and sign calls access only valid elements of the stack, stacklevels, auth, keep, treehash and retain buffers, and never use an uninitialised or unfinished tree-hash node.", "quantifier": "every height, history and message", "why_tests_cant": "an overflow or an unfinished node occurs only at particular indices of particular heights", "anchors": ["src/xmss-alt/algsxmss_fast.c:treehash_setup", "src/xmss-alt/algsxmss_fast.c:treehash_update", "src/xmss-alt/algsxmss_fast.c:bds_treehash_update", "src/xmss-alt/algsxmss_fast.c:bds_round", "src/qrl/xmssFast.cpp:XmssFast::initialize_tree"]}
{"id": "C20", "title": "verify rejects malformed input without throwing", "statement": "XmssBase::verify never throws, and returns true only if the key has 67 bytes, the descriptor height is an even number 4..30 and the signature has exactly getSignatureSize bytes for that height and w; everything else it answers with false. Input of that shape it answers with whether the recomputed root is the root in the key, provided the key names a supported hash function (C36).", "quantifier": "every message, signature, key and every w in {2,4,16,256}", "why_tests_cant": "needs every length combination, including 8-bit height wrap-around", "anchors": ["src/qrl/xmssBase.cpp:XmssBase::verify", "src/qrl/xmssBase.cpp:XmssBase::getHeightFromSigSize"]}
{"id": "C21", "title": "verify stays inside its buffers and does not touch the message", "statement": "For accepted sizes, every read of the signature and key by verification is in range and no byte is written through the message pointer (the residual length it copies is zero).", "quantifier": "every input of accepted size, every w in {2,4,16,256}", "why_tests_cant": "memory safety over all sizes", "anchors": ["src/xmss-alt/xmss_common.c:xmss_Verifysig", "src/xmss-alt/xmss_common.c:validate_authpath", "src/qrl/xmssBase.cpp:XmssBase::verify"]}
{"id": "C22", "title": "Signature size and height determine each other", "statement": "getSignatureSize = 4+32+32*len(w)+32*height, the signature returned by sign has that size, and getHeightFromSigSize(getSignatureSize) = height for heights 0..255; getHeightFromSigSize throws iff the size is below the base size or not 4 mod 32.", "quantifier": "every height, size and w in {2,4,16,256}", "why_tests_cant": "needs all sizes", "anchors": ["src/qrl/xmssBase.cpp:XmssBase::getSignatureSize", "src/qrl/xmssBase.cpp:XmssBase::getHeightFromSigSize", "src/qrl/xmssBase.cpp:XmssBase::calculateSignatureBaseSize", "src/xmss-alt/wots.c:wots_set_params"]}
{"id": "C23", "title": "WOTS+ correctness", "statement": "The public key recovered from a WOTS+ signature on a digest equals the generated public key, for every digest, key seed, public seed, address and w in {2,4,16,256}.", "quantifier": "every digest, seed, address, w", "why_tests_cant": "chain positions differ for each of the 2^256 digests", "anchors": ["src/xmss-alt/wots.c:wots_sign", "src/xmss-alt/wots.c:wots_pkgen", "src/xmss-alt/wots.c:wots_pkFromSig", "src/xmss-alt/wots.c:gen_chain", "src/xmss-alt/wots.c:base_w"]}
{"id": "C24", "title": "WOTS+ checksum blocks chain-advancing forgeries", "statement": "For w = 2, 4 and 16, for two different digests some chain position of the first is larger than that of the second, so a signature on one digest can never be turned into one on another just by hashing forward. For w = 256 the code shifts the high checksum byte out, and there are two different digests with every position of the first at most that of the second.", "quantifier": "every pair of 32-byte digests, every w in {2,4,16,256}", "why_tests_cant": "a statement about all pairs of digests", "anchors": ["src/xmss-alt/wots.c:wots_sign", "src/xmss-alt/wots.c:wots_pkFromSig", "src/xmss-alt/wots.c:base_w"]}
{"id": "C25", "title": "Accepted signatures bind leaf and path", "statement": "If verify accepts two signatures under one key that carry the same index, then two of the hash calls made by the two verifications collide, or the authentication paths are equal and in every chain one signature value leads to the other by hashing forward; for w = 2, 4 and 16 the two signatures and messages are moreover equal or one of them reveals an earlier value of some chain. A signature accepted under an honestly generated key names a one-time key of the tree, carries its path and its chains end in that one-time public key, or a collision among the listed calls is exhibited.", "quantifier": "every pair of accepted signatures", "why_tests_cant": "adversarial inputs; no test can enumerate them", "anchors": ["src/xmss-alt/xmss_common.c:validate_authpath", "src/xmss-alt/xmss_common.c:xmss_Verifysig", "src/xmss-alt/hash.c:hash_h"]}
{"id": "C26", "title": "Key material is stable and laid out as documented", "statement": "getSK is 132 bytes = index || SK_SEED || SK_PRF || PUB_SEED || root; getPK = descriptor || root || PUB_SEED (67 bytes); over any history of calls only the 4 index bytes of the secret key change and getPK, getSeed, getExtendedSeed, getAddress and getHeight stay constant.", "quantifier": "every seed, height, hash function and history", "why_tests_cant": "needs every history", "anchors": ["src/qrl/xmssBase.cpp:XmssBase::getPK", "src/qrl/xmssBase.cpp:XmssBase::getSKSeed", "src/xmss-alt/algsxmss_fast.c:xmssfast_Signmsg", "src/xmss-alt/algsxmss.c:xmss_Signmsg"]}
{"id": "C27", "title": "Index encoding round trip", "statement": "XmssBasic::setIndex(n) returns n and getIndex then returns n for every 32-bit n; XmssFast::setIndex(n), when it does not throw, leaves getIndex() = n; the first four bytes of a signature are the big-endian index used.", "quantifier": "every 32-bit index", "why_tests_cant": "2^32 values", "anchors": ["src/qrl/xmssBase.cpp:XmssBase::setIndex", "src/qrl/xmssBase.cpp:XmssBase::getIndex", "src/xmss-alt/algsxmss_fast.c:xmssfast_update"]}
{"id": "C28", "title": "XmssPool issues each index exactly once, in order", "statement": "Under any interleaving of getNextTree calls from any number of threads and any completion order of the background builds, the k-th claim (in lock order) is issued index starting_index+k; no index is issued twice (before 2^64 claims) and none is skipped except one for each call that fails because a thread could not be started or its future stored, or because memory ran out while the tree was built, and getCurrentIndex is starting_index plus the number of claims.", "quantifier": "every schedule, number of threads, pool size and starting index, and every failure of an allocation or of starting a thread", "why_tests_cant": "concurrency: all schedules", "anchors": ["src/qrl/xmssPool.cpp:XmssPool::getNextTree", "src/qrl/xmssPool.cpp:XmssPool::fillCache", "src/qrl/xmssPool.h:XmssPool::getCurrentIndex"]}
{"id": "C29", "title": "XmssPool hands out the tree of the issued index", "statement": "The tree returned for an issued index is the XmssFast derived from (base_seed, height, index), whether it came from the cache or was built inline, and independent of the schedule; if that derivation throws, the same exception reaches the caller (bad_alloc aside, which loses the index, C28).", "quantifier": "every schedule", "why_tests_cant": "concurrency: all schedules and completion orders", "anchors": ["src/qrl/xmssPool.cpp:XmssPool::getNextTree", "src/qrl/xmssPool.cpp:XmssPool::prepareTree"]}
{"id": "C30", "title": "XmssPool index derivation never collides before hashing", "statement": "For one base seed, and for base seeds of one length, different (base seed, index) pairs give different inputs to SHAKE256; so two trees of one pool, in any state, have different extended seeds and secrets, or a SHAKE256 collision is exhibited. Base seeds of different lengths do share inputs: a pool whose base seed has one more byte b hands out at index j the very key the shorter one hands out at index 256(j+1)+b-1. (The natural property, that pools with different base seeds have different keys, is refuted for different lengths.)", "quantifier": "every pair of base seeds and 64-bit indices", "why_tests_cant": "2^64 indices", "anchors": ["src/qrl/xmssPool.cpp:XmssPool::prepareTree"]}
{"id": "C31", "title": "XmssPool cache invariant", "statement": "At every point of every schedule the cache holds at most pool_size futures, for consecutive indices starting at getCurrentIndex; each future is consumed at most once; isAvailable is false on an empty cache and otherwise reports the next tree; after a claim from a non-empty cache the cache is full again; this survives failures to start a background thread, to store its future, or to get the memory for a tree.", "quantifier": "every schedule, including failures to start threads and to allocate", "why_tests_cant": "concurrency and fault injection", "anchors": ["src/qrl/xmssPool.cpp:XmssPool::fillCache", "src/qrl/xmssPool.cpp:XmssPool::isAvailable", "src/qrl/xmssPool.cpp:XmssPool::getNextTree"]}
{"id": "C32", "title": "SHAKE128 and SHAKE256 follow FIPS 202", "statement": "For every message and output length the library's shake128/shake256 return what FIPS 202 defines: sponge with rate 168/136 bytes, suffix 1111, pad10*1 and the permutation Keccak-f[1600].", "quantifier": "every message length and output length", "why_tests_cant": "the padding corner cases and the unrolled permutation must agree for all 1600-bit states", "anchors": ["src/xmss-alt/fips202.c:KeccakF1600_StatePermute", "src/xmss-alt/fips202.c:keccak_absorb", "src/xmss-alt/fips202.c:keccak_squeezeblocks", "src/xmss-alt/fips202.c:shake128", "src/xmss-alt/fips202.c:shake256"]}
{"id": "C33", "title": "SHAKE outputs of different lengths are consistent", "statement": "shake(n, m) has n bytes and is a prefix of shake(n', m) for n <= n'.", "quantifier": "every message and pair of output lengths", "why_tests_cant": "block-boundary behaviour for all lengths", "anchors": ["src/xmss-alt/fips202.c:shake128", "src/xmss-alt/fips202.c:shake256"]}
{"id": "C34", "title": "sha2_256_n is iterated SHA-256", "statement": "sha2_256_n(x,c) throws iff c = 0, equals c-fold sha2_256, and sha2_256_n(sha2_256_n(x,a),b) = sha2_256_n(x,a+b); the result always has 32 bytes.", "quantifier": "every input and count", "why_tests_cant": "all counts", "anchors": ["src/qrl/hashing.cpp:sha2_256_n"]}
{"id": "C35", "title": "Hash-chain seeds are indexed and prefix-stable", "statement": "getHashChainSeed(seed,shift,count) returns count entries of 32 bytes, entry i being SHAKE256 of seed||LE32(shift)||LE32(i); asking for more entries does not change the earlier ones, and distinct (shift,i) hash distinct inputs.", "quantifier": "every seed, 32-bit shift and count", "why_tests_cant": "all counts and shifts", "anchors": ["src/qrl/misc.cpp:getHashChainSeed"]}
{"id": "C36", "title": "An unsupported hash function leads to undefined behaviour", "statement": "A well-formed key or seed whose descriptor names a hash function other than SHA2_256, SHAKE_128 and SHAKE_256 (values 3..15) is not refused by verify nor by the XmssFast and XmssBasic constructors: the hash helper returns without writing its output and the call goes on with uninitialised memory. (The natural property, that it is refused, is refuted.)", "quantifier": "every descriptor", "why_tests_cant": "needs the 13 unused hash values on every path", "anchors": ["src/xmss-alt/hash.c:core_hash", "src/qrl/xmssBase.cpp:XmssBase::verify", "src/qrl/qrlDescriptor.h:QRLDescriptor::fromBytes"]}
{"id": "C37", "title": "Hash calls are domain separated", "statement": "Address serialisation is injective; the OTS, L-tree and tree-node addresses used for a key never coincide, nor do addresses of different chains, steps, nodes or key/mask roles; the inputs given to the hash primitive by F, H, H_msg and PRF are pairwise different for the supported key sizes.", "quantifier": "every index, chain, step, node below 2^32", "why_tests_cant": "all address combinations", "anchors": ["src/xmss-alt/hash_address.c", "src/xmss-alt/hash.c:addr_to_byte", "src/xmss-alt/hash.c:core_hash"]}
{"id": "C38", "title": "Hash address reuse leaves no stale fields", "statement": "Results of leaf generation, L-tree, tree hashing and signing do not depend on leftover contents of the mutable 8-word address arrays shared between calls.", "quantifier": "every initial content of the mutable fields", "why_tests_cant": "stale state appears only for particular call orders", "anchors": ["src/xmss-alt/hash_address.c", "src/xmss-alt/algsxmss.c:gen_leaf_wots", "src/xmss-alt/algsxmss.c:treehash", "src/xmss-alt/xmss_common.c:l_tree"]}
{"id": "C39", "title": "Constructor preconditions", "statement": "XmssFast(seed,height,..) and XmssBasic(seed,height,..) throw invalid_argument iff the seed is not 48 bytes or the height is not an even number in 4..254; XmssFast(extended_seed) throws iff it is not 51 bytes or its descriptor height is 0 or 2. With a supported hash function and a height up to 30 they otherwise succeed. Even heights from 32 on pass all checks and are undefined behaviour (shift by 32 or more).", "quantifier": "every seed, height, hash function", "why_tests_cant": "all lengths and heights", "anchors": ["src/qrl/xmssBase.cpp:XmssBase::XmssBase", "src/qrl/xmssFast.cpp:XmssFast::initialize_tree", "src/qrl/xmssBasic.cpp:XmssBasic::XmssBasic"]}
{"id": "C40", "title": "The JS API agrees with the raw API", "statement": "validateAddress(c+hex(a)) is addressIsValid(a) for every character c and every a of at least 3 bytes, and the JS getters read a's descriptor; on arbitrary 7-bit text validateAddress is true exactly when the text after its first character is hex of a valid address. fromHexSeed(getHexSeed()) and fromMnemonic(getMnemonic()) rebuild the same signer when the address format is 0; fromHexSeed drops the address format of the descriptor, so for other formats it differs from the raw XmssFast(extended_seed). The JS getAddress() of a signer is valid; the exported getAddress(epk) omits the leading 'Q' and is not accepted by validateAddress. JS sign/verify on hex text agree with the raw calls. The JS XmssBasic class signs and verifies with every usable Winternitz parameter; its hex seed does not record that parameter, so Xmss.fromHexSeed(basic.getHexSeed()) is the w = 16, address format 0 signer of the same seed, height and hash function.", "quantifier": "every address, seed", "why_tests_cant": "all strings", "anchors": ["src/jswrapper/jsqrlwrapper.cpp"]}
{"id": "C41", "title": "Kyber and Dilithium wrappers: sizes, slicing and what is not checked", "statement": "Assuming the reference primitives honour their contract: Kyber(pk,sk) throws iff a size is wrong; after kem_encode getMyKey/getCypherText have the fixed sizes and a key exchange gives both sides the same key; Dilithium::sign returns message size + CRYPTO_BYTES bytes, extract_signature and extract_message of it give signature and message, and sign_open accepts what sign of a generated key produced and puts the message first in the output. Arguments that are too short are read past their end (kem_encode, kem_decode, sign, sign_open, extract_*). extract_message of the output of sign_open is not promised to be the message, the JS sign_open hides the verdict, and the JS extract_message never has a defined result.", "quantifier": "every message and key", "why_tests_cant": "all messages", "anchors": ["src/kyber/kyber.cpp", "src/dilithium/dilithium.cpp"]}
{"id": "C42", "title": "getRandomSeed is fail-closed and has the requested size", "statement": "getRandomSeed(n,entropy) returns n bytes, a function of n bytes actually read from the OS source and the entropy string; it throws runtime_error if the source cannot be opened or is short. The JS getRandomSeed returns n bytes of the platform source or throws.", "quantifier": "every size, entropy and behaviour of the OS source", "why_tests_cant": "fault behaviour of the OS", "anchors": ["src/qrl/misc.cpp:getRandomSeed", "src/jswrapper/getRandomSeed.js"]}
{"id": "C43", "title": "XmssFast signing histories commute with skipping", "statement": "Any two histories of setIndex and sign calls from the same fresh XmssFast that reach the same index leave objects that behave identically from then on (same signatures for the same later messages).", "quantifier": "every pair of histories", "why_tests_cant": "all ways of reaching an index", "anchors": ["src/xmss-alt/algsxmss_fast.c:xmssfast_update", "src/xmss-alt/algsxmss_fast.c:xmssfast_Signmsg"]}
{"id": "C44", "title": "The public initialize_tree rewinds an XmssFast", "statement": "Calling the public initialize_tree() on a fresh or used XmssFast sets its index back to 0, after which the one-time keys are used again for other messages. For histories of setIndex, sign and initialize_tree(w) with any values of w: a call is undefined behaviour exactly if it is initialize_tree(w) with a w for which wots_set_params is undefined (0, 1, w >= 2^31, 2^29+1, 2^30+1, 2^30+2^29+1) or a sign below 2^height while the current w is outside 2..7, 16..31 and 256..511; otherwise the replies are those of an ideal object with a parameter and a counter, and every signature verifies with the current w under the current getPK(). (The natural property, that no public call rewinds an XmssFast, is refuted; setIndex and sign never rewind it, C16.)", "quantifier": "every history of public calls", "why_tests_cant": "needs histories with re-initialisation", "anchors": ["src/qrl/xmssFast.h:XmssFast::initialize_tree", "src/qrl/xmssFast.cpp:XmssFast::initialize_tree"]}
{"id": "C45", "title": "XmssBasic at heights 26, 28 and 30 constructs but never signs", "statement": "For heights 26, 28 and 30 the XmssBasic constructor succeeds for every seed, hash function and w in {2,4,16,256}, but every call of sign is undefined behaviour: the node array of the authentication-path computation has 2*2^h*32 bytes in 32-bit arithmetic, which wraps to 0. (The natural property, that an object the constructor accepted can sign, is refuted.)", "quantifier": "every seed, hash function, message and index", "why_tests_cant": "no test builds trees of that height", "anchors": ["src/xmss-alt/algsxmss.c:compute_authpath_wots", "src/qrl/xmssBasic.cpp:XmssBasic::sign"]}
{"id": "C46", "title": "Every Winternitz parameter: what the constructor, sign and verify do", "statement": "With a 48-byte seed and a valid height the XmssBasic constructor is undefined behaviour exactly for w = 0, 1, w >= 2^31 and 2^29+1, 2^30+1, 2^30+2^29+1, and returns an object for every other w. On every history of setIndex and sign calls the object is a counter without checks: with w in 2..7, 16..31 or 256..511 and a height up to 24, sign at an index below 2^height returns the signature of that one-time key; in every other case sign is undefined behaviour. verify with a w of neither class returns false on wrong-shaped input and is undefined behaviour on right-shaped input; with a w for which the constructor is undefined it is undefined for every 67-byte key. (The natural property, that an unsupported w is refused, is refuted.)", "quantifier": "every w, seed, height, history of calls, message, signature and key", "why_tests_cant": "all values of w, and all histories", "anchors": ["src/xmss-alt/wots.c:wots_set_params", "src/xmss-alt/wots.c:base_w", "src/qrl/xmssBasic.cpp:XmssBasic::XmssBasic", "src/qrl/xmssBase.cpp:XmssBase::verify"]}
{"id": "C47", "title": "xmss_updateSK only moves forward, within 32 bits", "statement": "xmss_updateSK(sk,k) returns -1 and changes nothing if the key's index is k or more; otherwise it returns 0, sets the index to k modulo 2^32 and changes no other byte. So it never moves back for k < 2^32, but k = 2^32 resets any key to index 0.", "quantifier": "every key and 64-bit k", "why_tests_cant": "2^64 values of k", "anchors": ["src/xmss-alt/algsxmss.c:xmss_updateSK"]}
{"id": "C48", "title": "The JavaScript getRandomSeed fails closed", "statement": "getRandomSeed(size) of the JS bundle returns exactly the bytes the platform's cryptographic generator wrote (size of them, 48 by default), and throws if there is no such generator, if it throws, if the size is not positive, or if 16 or more requested bytes all came back zero.", "quantifier": "every platform behaviour and integer size", "why_tests_cant": "fault behaviour of the platform", "anchors": ["src/jswrapper/getRandomSeed.js"]}
{"id": "C49", "title": "A copy of an XmssFast is not an independent signer", "statement": "Copying a fresh XmssFast shares its traversal buffers with the copy. After the original has signed once, the copy signs with the same one-time key 0 and its signature carries the authentication path of leaf 1 instead of leaf 0. It also spoils the original: its next signature (index 1) is proper, but the one after (index 2) carries a wrong node in its authentication path, and verify rejects it unless two listed hash calls collide. (The natural property, that a copy signs like a separately built object or is impossible, is refuted.)", "quantifier": "every seed, height, hash function and messages", "why_tests_cant": "needs object aliasing over all keys", "anchors": ["src/qrl/xmssFast.h:XmssFast", "src/qrl/xmssFast.cpp:XmssFast::initialize_tree", "src/xmss-alt/algsxmss_fast.h:bds_state"]}
{"id": "C50", "title": "Rust SHAKE is FIPS 202 only below one block", "statement": "The Rust port's shake128/shake256 return the FIPS 202 value (and the C++ value) for messages shorter than one block (168/136 bytes). For one block to just under two, they return the FIPS 202 value of a different string, the first block followed by the beginning of the message again, so everything after the first block is ignored and messages that share length and first block collide; from two blocks on they panic. sha2_256_n fails iff count = 0 and is otherwise the count-fold hash. (The natural property, FIPS 202 for every message, is refuted.)", "quantifier": "every message and output length", "why_tests_cant": "the failure starts at a length no test of the port reaches; which strings collide is a claim about all messages", "anchors": ["src/rust_wrapper/xmss_alt/fips202.rs:keccak_absorb", "src/rust_wrapper/xmss_alt/fips202.rs:shake128", "src/rust_wrapper/xmss_alt/fips202.rs:shake256", "src/rust_wrapper/qrl/hashing.rs"]}
{"id": "C51", "title": "Rust builds the same keys and addresses as C++", "statement": "For a 48-byte seed and even height 4..30, XMSSFast::new (w=16) and XMSSBasic::new (w in 2,4,16,256) succeed in debug and release builds and hold the secret key the C++ constructors produce; all getters agree, except that the number of remaining signatures panics in a checked build if the index was set past the end. Other seed lengths, odd heights and heights below 4 are Err; even heights from 32 on panic in a build with overflow checks. get_address succeeds exactly for 67-byte keys with a supported hash and address format 0, never panics and returns the C++ address; address_is_valid never panics and is true exactly where C++ says true and the hash function is supported. from_extended_seed restores the signer.", "quantifier": "every seed, height, hash function, key and address", "why_tests_cant": "equality of two 2^height-leaf tree builders over all seeds and heights", "anchors": ["src/rust_wrapper/xmss_alt/algsxmss_fast.rs", "src/rust_wrapper/xmss_alt/algsxmss.rs", "src/rust_wrapper/qrl/xmss_fast.rs", "src/rust_wrapper/qrl/xmss_basic.rs", "src/rust_wrapper/qrl/xmss_base.rs", "src/rust_wrapper/qrl/qrl_helper.rs:get_address", "src/rust_wrapper/qrl/qrl_helper.rs:address_is_valid"]}
{"id": "C52", "title": "Rust signing histories", "statement": "Over any history of set_index and sign calls a Rust XMSSFast behaves like the ideal one-way counter that, at index i, signs the message its hash sees in place of the given one; with an index left, sign panics iff the message is too long for its sponge (208 bytes for SHAKE128, 144 for SHAKE256). If all messages are short (below 40/8 bytes; SHA2: below 2^32-128) the replies are byte for byte those of C++. No two signatures of one object carry the same index, and each returned signature is accepted by Rust verify. XMSSBasic accepts every set_index (index reuse); with overflow checks, and in every build from height 8 on, sign at an index of 2^height or more panics; from height 26 on it constructs but panics on every sign. Without overflow checks (heights 4 to 24) it is, over every history with any 32-bit indices, a 32-bit counter without any check: sign returns a signature exactly if the message is not too long and the index is in the tree or, at height 4, within 16 of a multiple of 2^30 or, at height 6, one of the last 64 32-bit numbers; outside the tree the signature is made with a one-time key that is no leaf and its path holds other nodes of the tree (or zeros); after index 2^32-1 the counter goes on at 0. (The natural property, that a signer refuses indices it has no key for, is refuted.)", "quantifier": "every seed, height, hash function, history of calls and message, debug and release builds", "why_tests_cant": "every history and message; traversal state errors show at particular indices only", "anchors": ["src/rust_wrapper/qrl/xmss_fast.rs", "src/rust_wrapper/qrl/xmss_basic.rs", "src/rust_wrapper/xmss_alt/algsxmss_fast.rs:xmss_fast_sign_msg", "src/rust_wrapper/xmss_alt/algsxmss.rs:xmss_sign_msg", "src/rust_wrapper/xmss_alt/hash.rs"]}
{"id": "C53", "title": "Which signatures Rust verify accepts", "statement": "Rust verify returns Ok exactly if the key has address format 0 and a supported hash function and C++ verify accepts, with the same signature and key, the message the Rust hash sees in place of the given one; it panics exactly on well-formed input with a too long message; otherwise Err. For short messages Rust and C++ accept the same. A signature made by the Rust signer on a message of 40..207 bytes (SHAKE128; 8..143 for SHAKE256) is accepted by Rust for every other message of that length with the same first 40 (8) bytes: existential forgery. (The natural properties, that a signature binds the whole message and that verify never panics, are refuted.)", "quantifier": "every message, signature, key, w in {2,4,16,256}", "why_tests_cant": "adversarial inputs; acceptance is a claim about all of them", "anchors": ["src/rust_wrapper/qrl/xmss_base.rs:verify", "src/rust_wrapper/xmss_alt/xmss_common.rs:xmss_verify_sig", "src/rust_wrapper/xmss_alt/hash.rs:h_msg", "src/rust_wrapper/xmss_alt/fips202.rs:keccak_absorb"]}
{"id": "C54", "title": "Rust descriptors", "statement": "from_bytes succeeds exactly on three bytes naming hash function 0..2 and address format 0 (the signature type nibble is not looked at), never panics, and reads the same descriptor as C++, which accepts strictly more; descriptors of even height below 32 survive get_bytes/from_bytes; get_bytes gives the C++ bytes.", "quantifier": "every byte vector and descriptor", "why_tests_cant": "all byte triples and malformed lengths", "anchors": ["src/rust_wrapper/qrl/qrl_descriptor.rs"]}
{"id": "C55", "title": "Rust hex and mnemonics", "statement": "The Rust bin2hstr, hstr2bin, bin2mnemonic and mnemonic2bin give the C++ text and bytes; hstr2bin never panics and accepts exactly the even-length hex texts; mnemonic2bin accepts exactly texts whose Unicode-white-space-separated words are an even number of list words, decodes them to the bytes of their 12-bit indices, and undoes bin2mnemonic. On 7-bit text each accepts what the other accepts if also its own parity test (words in Rust, space characters in C++) passes, with the same bytes; but two words separated by a tab are accepted by Rust only, and three words with single spaces and a trailing space by C++ only.", "quantifier": "every byte vector and every Unicode text", "why_tests_cant": "all texts, including non-ASCII ones and odd spacing", "anchors": ["src/rust_wrapper/qrl/misc.rs:bin2hstr", "src/rust_wrapper/qrl/misc.rs:hstr2bin", "src/rust_wrapper/qrl/misc.rs:bin2mnemonic", "src/rust_wrapper/qrl/misc.rs:mnemonic2bin", "src/rust_wrapper/qrl/wordlist.rs:WORDLIST"]}
{"id": "C56", "title": "The Rust key pool", "statement": "A new XMSSPool hands out, call after call of get_next_tree, the trees of the indices from the starting index on, whatever the cache size: none skipped, repeated or out of order, and get_current_index is the starting index plus the number of calls. For even heights 4..30, and without overflow checks for every even height from 4 on, every answer is a tree and is_available says yes iff the cache size is positive; for odd heights and heights below 4 the pool is still made, and each call returns Err and uses up an index; for even heights from 32 on with overflow checks the first tree made panics. The tree seed of an index is SHA-256 of the hex base seed followed by the decimal index+1, followed by its own first 16 bytes. Base seeds of equal length never share a hash input; base seeds of different lengths do, so two such pools hand out the same keys; and the seeds are not those of the C++ pool (shown for the base seed of 48 zero bytes).", "quantifier": "every base seed, height, starting index, cache size and number of calls", "why_tests_cant": "every length of history and every cache size", "anchors": ["src/rust_wrapper/qrl/xmss_pool.rs"]}
{"id": "C57", "title": "Kyber and Dilithium in Rust", "statement": "Assuming the pqcrypto crates honour their contract: Kyber::new and Dilithium::new accept keys of the right sizes and panic on others (never Err); a key exchange gives both sides the same secret and leaves keys alone; sign_open of what sign produced returns the message. extract_message and extract_signature cut the signed message at the wrong end: of signature||message they return the first |message| bytes and the last CRYPTO_BYTES bytes, which is right only if signature||message = message||signature, and both panic on inputs shorter than CRYPTO_BYTES. (The natural property, that they return message and signature, is refuted.)", "quantifier": "every key, message and randomness, debug and release builds", "why_tests_cant": "all messages", "anchors": ["src/rust_wrapper/kyber/kyber.rs", "src/rust_wrapper/dilithium/dilithium.rs"]}
{"id": "C58", "title": "Rust hash-chain seeds", "statement": "get_hash_chain_seed(seed, shift, count) gives the C++ list for seeds of up to 128 bytes. For 129..263 bytes an entry depends only on the part of shift and position inside the first 136 bytes, so from 132 bytes on all entries of the list are equal and from 136 on they are equal for all shifts; from 264 bytes on every call for at least one entry panics. (The natural property, that entries are the SHAKE256 values of seed, shift and position, is refuted.)", "quantifier": "every seed, shift and count", "why_tests_cant": "all lengths", "anchors": ["src/rust_wrapper/qrl/misc.rs:get_hash_chain_seed", "src/rust_wrapper/xmss_alt/fips202.rs:keccak_absorb"]}
{"id": "C59", "title": "Rust get_random_seed", "statement": "get_random_seed(n, entropy) returns n bytes or panics; it panics exactly if the system generator fails or n plus the entropy's UTF-8 length reaches 272. Below 136 it is the C++ value for the same system bytes; otherwise entropy beyond the first 136-n bytes is ignored. (The natural property, that all of the caller's entropy counts, is refuted.)", "quantifier": "every size, entropy text and behaviour of the generator", "why_tests_cant": "fault behaviour of the generator, all texts", "anchors": ["src/rust_wrapper/qrl/misc.rs:get_random_seed"]}
{"id": "C60", "title": "The public initialize_tree rewinds a Rust XMSSFast", "statement": "On any history of set_index, sign and initialize_tree(w), w in {2,4,16,256}, a Rust XMSSFast behaves like the ideal object whose initialize_tree sets the parameter and resets the counter, with panics at the same calls; so sign, initialize_tree, sign uses one-time key 0 twice. (The natural property, that no public call rewinds a signer, is refuted.)", "quantifier": "every seed, height, hash function and history, debug and release builds", "why_tests_cant": "needs histories with re-initialisation", "anchors": ["src/rust_wrapper/qrl/xmss_fast.rs:initialize_tree"]}
{"id": "C61", "title": "Rust xmss_update_sk", "statement": "xmss_update_sk(sk,k) returns what the C function returns and changes the key in the same way for every key of at least 4 bytes (C47, including the reset to index 0 for k = 2^32), and panics on a shorter one.", "quantifier": "every key and 64-bit k", "why_tests_cant": "2^64 values of k", "anchors": ["src/rust_wrapper/xmss_alt/algsxmss.rs:xmss_update_sk"]}
{"id": "C62", "title": "Crash recovery of a wallet", "statement": "A wallet keeps the extended seed and a saved index on disk; a crash at any point loses the XmssFast, and a restart rebuilds it from getExtendedSeed() and calls setIndex(saved). If the saved index is the index at the crash (and below 2^height) the rebuilt object is the lost one. Over any history of calls, saves and crashes the wallet behaves like one counter that a crash sets to the saved index. If an index beyond each signature is saved before it is handed out, no two signatures of the wallet's whole life carry the same index; saving after signing is refuted as a discipline (a crash between the two makes the next signature use the same one-time key), and a wallet that saved the index 2^height cannot be restarted.", "quantifier": "every seed, height, hash function, address format and history of calls, saves and crashes", "why_tests_cant": "all crash points of all histories", "anchors": ["src/qrl/xmssFast.cpp:XmssFast::XmssFast", "src/qrl/xmssFast.cpp:XmssFast::setIndex", "src/qrl/xmssBase.cpp:XmssBase::getExtendedSeed", "src/xmss-alt/algsxmss_fast.c:xmssfast_update"]}
{"id": "C63", "title": "Addresses and seeds identify their owner", "statement": "Two public keys with the same address are equal or collide under SHA-256; an address tells the hash function and height of its key. Two signers, in any state, with the same extended seed were built from the same arguments and had the same keys; two with the same 96 secret bytes have the same seed, or their seeds collide under SHAKE256.", "quantifier": "every pair of public keys and of signers with any histories", "why_tests_cant": "all pairs of keys", "anchors": ["src/qrl/qrlHelper.h:QRLHelper::getAddress", "src/qrl/xmssBase.cpp:XmssBase::getExtendedSeed", "src/xmss-alt/algsxmss_fast.c:xmssfast_Genkeypair"]}
{"id": "C64", "title": "A forged signature costs a collision or an earlier chain value", "statement": "For any XmssFast, any history of calls and any (message, signature) that verify accepts under its public key: the signer returned exactly that signature for that message; or two different inputs among the hash calls of these verifications and of key generation have the same hash; or the signature reveals, in some WOTS+ chain of the one-time key it names, a value strictly before every value the signer has published of that chain.", "quantifier": "every signer, history, message and signature", "why_tests_cant": "adversarial inputs; no test can enumerate them", "anchors": ["src/qrl/xmssBase.cpp:XmssBase::verify", "src/xmss-alt/xmss_common.c:xmss_Verifysig", "src/xmss-alt/wots.c:wots_pkFromSig", "src/qrl/xmssFast.cpp:XmssFast::sign"]}
{"id": "C65", "title": "With w = 256 signatures can be forged by hashing forward", "statement": "For w = 2, 4, 16 and 256, whoever has one accepted signature and a message whose chain positions (same randomiser and index) are nowhere smaller has a signature for that message without knowing a secret. For w = 2, 4 and 16 no two different digests are in that relation; for w = 256, where the code keeps the checksum only modulo 256, they are exactly when no byte gets smaller and the checksum modulo 256 does not, and every digest whose bytes are together at least 256 below their maximum (32 * 255) has such a partner. (The natural property, that the checksum prevents this for every accepted w, is refuted.)", "quantifier": "every accepted signature and message; every pair of 32-byte digests", "why_tests_cant": "quantifies over all digests and messages", "anchors": ["src/xmss-alt/wots.c:wots_sign", "src/xmss-alt/wots.c:wots_pkFromSig", "src/qrl/xmssBase.cpp:XmssBase::verify"]}
{"id": "C66", "title": "Destroying a pool is safe", "statement": "If an XmssPool is destroyed while no call on it is in progress, whatever calls were made before, then in every schedule each background task that is still running finds the pool's seed and height alive until it finishes; when the destructor returns no task is running; the destructor cannot get stuck and takes boundedly many steps. All of this also holds when the constructor itself fails, after any number of tasks, because a thread could not be started or the future of one that was could not be stored.", "quantifier": "every history of calls before the destruction, every schedule of background tasks and destructor", "why_tests_cant": "use after free depends on the schedule; member order is invisible to tests", "anchors": ["src/qrl/xmssPool.h:~XmssPool", "src/qrl/xmssPool.h:XmssPool", "src/qrl/xmssPool.cpp:fillCache", "src/qrl/xmssPool.cpp:prepareTree"]}
{"id": "C67", "title": "With w not a power of two signatures do not cover the whole message digest", "statement": "For every w in 2..7, 16..31 and 256..511 XmssBasic, and XmssFast after initialize_tree(w), signs and verify accepts what it signed, at every index. But the chain positions are cut out with the mask w-1, so unless w is 2, 4, 16 or 256 some bits of every digest byte do not count: two digests have the same chain positions iff they agree on the bits that count, and messages whose digests agree there are answered alike by verify. With w = 17 one bit of each byte counts; with w = 257 none does, and one signature of any message is accepted for every message. (The natural property, that an accepted signature authenticates the message, is refuted.)", "quantifier": "every seed, height, index, message, signature, key and w in these ranges", "why_tests_cant": "all messages; no test of the library uses such a w", "anchors": ["src/xmss-alt/wots.c:base_w", "src/xmss-alt/wots.c:wots_set_params", "src/qrl/xmssBasic.cpp:XmssBasic::sign", "src/qrl/xmssBase.cpp:XmssBase::verify"]}
{"id": "C68", "title": "Moving or swapping XmssFast objects is safe, copying or keeping them in a std::vector is not", "statement": "In every program that constructs, copies, moves, assigns, move-assigns, destroys and calls XmssFast objects in any order, each object behaves as a value of its own as long as sign and setIndex are called only on whole objects: constructed directly or by moving or move-assigning from a whole object, not moved from or copy-assigned since, or re-initialised by initialize_tree since. In particular an object that was moved, with the source destroyed, goes on exactly where the source was, and std::swap exchanges two objects. A copy is not whole, whether made by construction or by assignment: if the original is destroyed or re-initialised, signing with the copy is undefined behaviour (use of freed memory); while the original lives, a copy and a moved-from object sign with the same one-time keys. A std::vector of XmssFast copies and then destroys its elements when it grows, so signing with any element after that is undefined behaviour. Assigning a moved-from object to the original, which keeps its memory, has the same effect on the copies of the original. (The natural property, that XmssFast objects can be copied and kept in containers like other values, is refuted.)", "quantifier": "every program over objects, seeds, heights, hash functions and messages", "why_tests_cant": "needs all interleavings of construction, copying, moving, assignment and destruction", "anchors": ["src/qrl/xmssFast.h:XmssFast", "src/qrl/xmssFast.cpp:XmssFast::initialize_tree", "src/qrl/xmssBase.h:XmssBase::~XmssBase", "src/xmss-alt/algsxmss_fast.h:bds_state"]}
{"id": "C69", "title": "Rust with any Winternitz parameter below 2^16", "statement": "For every w from 2 to 65535, on any history of set_index, sign and initialize_tree(w'), w' in that range, in debug and release builds, a Rust XMSSFast behaves like an ideal object with a parameter and a counter: same replies, panics at the same calls; XMSSBasic gives the same signatures and accepts every set_index. If floor(log2 w) divides 8, what sign returns is accepted by verify in every build. If not, a build with overflow checks builds the key but panics on every sign and on verify of every well-formed input; a build without them cuts all chain positions out of the first byte of the digest, so of any 257 messages two get the same signature, accepted for both. If w mod 256 = 1 (overflow checks: w = 257) all messages get the same signature and it is accepted for all of them. verify accepts exactly if the recomputed root is the key's, and panics exactly on well-formed input with a too long message or, with overflow checks, such a w. Rust has more chains than C++ exactly for these w. (The natural property, that a signature stands for its message, is refuted.)", "quantifier": "every w in 2..65535, seed, height, hash function, history, message, signature and key, debug and release builds", "why_tests_cant": "all parameters and messages; no test uses such a w", "anchors": ["src/rust_wrapper/xmss_alt/wots.rs:WOTSParams", "src/rust_wrapper/xmss_alt/wots.rs:base_w", "src/rust_wrapper/xmss_alt/wots.rs:wots_sign", "src/rust_wrapper/xmss_alt/wots.rs:wots_pk_from_sig", "src/rust_wrapper/qrl/xmss_fast.rs", "src/rust_wrapper/qrl/xmss_base.rs:verify"]}
{"id": "C70", "title": "What reusing a one-time key costs", "statement": "Whoever has signatures made with the same one-time key for any messages, and nothing secret, has an accepted signature for every further message all of whose chain positions (same randomiser and index) are at or after the position of one of these messages: explicitly, for signatures with one index returned by an XmssFast over any history that also calls initialize_tree(16), by an XmssBasic (any of the four w, height up to 24) over any history with setIndex, and by an XmssFast and its copy, where the copy's own signature is not even accepted. (The natural property, that what the library returns never lets others sign, therefore rests on callers not using these functions.)", "quantifier": "every seed, height, hash function, history, message and set of known signatures", "why_tests_cant": "all histories and messages; needs the algebra of the hash chains", "anchors": ["src/xmss-alt/wots.c:wots_sign", "src/xmss-alt/wots.c:wots_pkFromSig", "src/qrl/xmssFast.cpp:XmssFast::initialize_tree", "src/qrl/xmssBase.cpp:XmssBase::setIndex", "src/qrl/xmssBase.cpp:XmssBase::verify"]}
{"id": "C71", "title": "One wallet on two implementations", "statement": "A wallet that keeps the 51-byte extended seed and a saved index on disk, and whose process can be killed at any point (or die of a Rust panic) and be started again on either the C++ library or the Rust port (debug or release), rebuilds the signer and calls setIndex, behaves call by call as one counter that a start sets to the saved index: no schedule of calls, saves, kills and changes of implementation is undefined; if the saved index is always written ahead of a signature and never lowered, the indices of all signatures ever returned are strictly increasing and below 2^height; both implementations write the same extended seed and report the same public key, and every signature is accepted under it for the message asked, by the implementation that signed and, for messages short enough for the Rust port to read in full, by both; and if all messages are short enough for the Rust port to read in full, the replies and indices are those of the same schedule run on C++ alone. Without that last condition it is false: on a message the port panics on, the Rust process dies where the C++ process signs.", "quantifier": "every seed, even height 4..30, hash function, saved index, build mode and every finite sequence of calls, saves, kills and starts", "why_tests_cant": "all crash points, histories and changes of implementation", "anchors": ["src/qrl/xmssFast.cpp:XmssFast::setIndex", "src/qrl/xmssFast.cpp:XmssFast::sign", "src/qrl/xmssBase.cpp:XmssBase::getExtendedSeed", "src/rust_wrapper/qrl/xmss_fast.rs:from_extended_seed", "src/rust_wrapper/qrl/xmss_fast.rs:set_index", "src/rust_wrapper/qrl/xmss_fast.rs:sign"]}
{"id": "C72", "title": "A Kyber object over a history of calls", "statement": "Over any history of kem_encode and kem_decode calls (arguments of at least the size the primitives read; a single shorter one makes the history undefined) a Kyber object keeps its two own keys, getMyKey is the key of the last call whatever it returned, and getCypherText is that of the last kem_encode; so a key exchange works at any point of the lives of two objects. The JS wrapper behaves as the C++ object on the bytes of its hex arguments, refuses non-hex text without effect, and its getters report the hex of the C++ ones. The Rust port behaves alike. Refuted: that getMyKey and getCypherText always belong together (not after a kem_decode), and that a kem_decode which returns false has no effect (it replaces the key).", "quantifier": "every contract-keeping KEM, object and finite history of calls", "why_tests_cant": "all histories", "anchors": ["src/kyber/kyber.cpp:Kyber::kem_encode", "src/kyber/kyber.cpp:Kyber::kem_decode", "src/kyber/kyber.h:Kyber", "src/jswrapper/jskybwrapper.cpp:KyberWrapper", "src/jswrapper/jsdilwrapper.cpp:DilithiumWrapper", "src/rust_wrapper/kyber/kyber.rs:Kyber"]}
{"id": "C73", "title": "What Python and Go programs see of errors", "statement": "Through the SWIG bindings every exception of the library reaches the caller as a Python ValueError or RuntimeError or as a Go panic: a program that catches them and carries on sees, over any history of setIndex and sign calls on an XmssFast, the ideal counter, with a ValueError (a panic) exactly where the counter refuses, after which the signer is as it was; wrong arguments of the constructors, hstr2bin, mnemonic2bin and getAddress are ValueErrors (panics) exactly in the listed cases; only getRandomSeed raises a RuntimeError, exactly when the device fails or is short; verify raises nothing.", "quantifier": "every argument and every finite history of calls", "why_tests_cant": "all inputs and histories", "anchors": ["src/api/pyqrllib.i:HandleAllExceptions", "src/api/pyqrllib.i:%exception", "src/api/kyber.i:%exception", "src/api/dilithium.i:%exception", "src/qrl/xmssFast.cpp:XmssFast::sign"]}
{"id": "C74", "title": "Rust without overflow checks at heights of 32 and more", "statement": "In a Rust build without overflow checks, for every seed, hash function, w from 2 to 65535 and even height from 32 on, both constructors succeed (a build with overflow checks panics, C51). But two even heights (from 4 on) that agree modulo 32 give the same secret key, public key, extended seed and address and announce the same number of signatures, 2^(height mod 32); from_extended_seed of such an extended seed gives, in every build, the object of height mod 32 (an error if that is 0 or 2), never the object it came from; and no signature that any history of calls on such an object returns is ever accepted under its own public key, in any build, for any message. Signing still spends the one-time keys of the wallet of height mod 32: a simple signer with height mod 32 from 2 to 24 returns, over every history below index 2^(height mod 32), exactly that wallet's signatures with 32 bytes more for each extra level, and the first signature of an XMSSFast holds index, randomness and one-time signature of that wallet's first one. (The natural properties that different heights are different wallets, that the extended seed recovers the signer and that signatures verify are refuted.)", "quantifier": "every seed, hash function, w, even height from 32 on, history of calls and message", "why_tests_cant": "all heights, histories and messages; a tree of the announced height could not be built by a test", "anchors": ["src/rust_wrapper/xmss_alt/algsxmss.rs", "src/rust_wrapper/xmss_alt/algsxmss_fast.rs", "src/rust_wrapper/qrl/xmss_fast.rs", "src/rust_wrapper/qrl/xmss_basic.rs", "src/rust_wrapper/qrl/xmss_base.rs:get_height_from_sig_size", "src/rust_wrapper/qrl/qrl_descriptor.rs:get_bytes"]}
{"id": "C75", "title": "One signer called by several threads", "statement": "Any number of threads call setIndex and sign on one object; each call is a sequence of steps on the shared object (reading the index, checking it, advancing the traversal, writing the index, ...) and a schedule interleaves the steps. If at most one call is under way at a time (a lock held for the whole call), every schedule is a history of whole calls: the replies, in the order in which the calls ended, and the final object are those of that history, and with XmssFast no call is undefined. Without a lock the library gives no such guarantee: after any history that leaves an even index or the last one, two calls of XmssFast::sign can both return accepted signatures made with the same one-time key (at the other odd indices the first returns its signature, and the second has the signature with the same index ready and returns it unless it meets undefined behaviour in its last step); a single preemption inside sign is enough to make two calls use one one-time key; with one signature left, two calls can both return, one with index 2^height, after which getRemainingSignatures() says 2^32-1; two calls of XmssBasic::sign can reuse the key at every index; and the two signatures of a race let anyone sign every message they cover (C70). What survives every schedule of any calls: the public key, address and seeds never change, and every returned signature has the right length and the honest index, randomiser and chain values of the caller's message for the index it carries; with XmssBasic and enough signatures left every returned signature is accepted. (The natural property, that threads may share a signer, is refuted.)", "quantifier": "every seed, height, hash function, history, number of threads, calls, messages and schedule", "why_tests_cant": "all schedules; races do not show in tests", "anchors": ["src/qrl/xmssFast.cpp:XmssFast::sign", "src/qrl/xmssFast.cpp:XmssFast::setIndex", "src/xmss-alt/algsxmss_fast.c:xmssfast_update", "src/xmss-alt/algsxmss_fast.c:xmssfast_Signmsg", "src/qrl/xmssBasic.cpp:XmssBasic::sign", "src/xmss-alt/algsxmss.c:xmss_Signmsg"]}
{"id": "C76", "title": "How much of SHA-256 a call depends on", "statement": "With hash function SHA2_256, the result of verify on any message, signature and key whatsoever is determined by at most 3400 values of SHA-256 at w = 16 (1 + 3(w-1)len + 4(len-1) + 120 in general), and at most one of them is at an input of more than 128 bytes: a crafted signature cannot make verify look at more, and the message is hashed once. After any history on a new XmssFast, sign is determined by at most 3085 + 3351 + (h/2 - 1)(3347 + 4(h+1)) values whatever the index, again with at most one long input; setIndex by that without the 3085 for each index skipped; the constructors by 3351 values per leaf; XmssBasic::sign by 3085 and the whole tree. The Rust verify needs no more values than the C++ one (messages the port reads in full).", "quantifier": "every message, signature, key, seed, height and finite history of calls", "why_tests_cant": "a bound over all inputs and all reachable traversal states", "anchors": ["src/xmss-alt/xmss_common.c:xmss_Verifysig", "src/xmss-alt/algsxmss_fast.c:xmssfast_Signmsg", "src/xmss-alt/algsxmss_fast.c:bds_treehash_update", "src/xmss-alt/algsxmss_fast.c:treehash_setup", "src/xmss-alt/algsxmss.c:compute_authpath_wots", "src/xmss-alt/wots.c:gen_chain"]}
{"id": "C77", "title": "What an accepted signature costs, whatever the signer did", "statement": "For any honest key (w = 2, 4, 16 or 256), whatever signatures have been published with its one-time keys, each used once or many times: if verify accepts a message and a signature, then two different inputs among the hash calls of this verification and of key generation have the same hash; or the index is one of the tree and the signature's position in every WOTS+ chain is at or after the position of some published signature with the same one-time key; or in some chain the signature holds a value strictly before all published ones, which hashes forward to each of them and to the chain's end. The price is exact: where every position is covered, anyone who holds the published signatures has an accepted one, with a randomiser of his own choice. This holds of every XmssBasic history (including setIndex backwards) and every XmssFast history (including initialize_tree(16)); and an XmssBasic with w = 2, 4 or 16 whose caller never repeats an index gives the guarantee of C64.", "quantifier": "every seed, height, hash function, history, message, signature and randomiser", "why_tests_cant": "adversarial inputs after arbitrary misuse; no test can enumerate them", "anchors": ["src/qrl/xmssBase.cpp:XmssBase::verify", "src/xmss-alt/xmss_common.c:xmss_Verifysig", "src/xmss-alt/wots.c:wots_pkFromSig", "src/qrl/xmssBasic.cpp:XmssBasic::sign", "src/qrl/xmssFast.cpp:XmssFast::sign", "src/qrl/xmssBase.cpp:XmssBase::setIndex"]}
{"id": "C78", "title": "A public key and an address belong to one wallet", "statement": "Two XmssFast objects with the same public key were built with the same hash function and height and from the same seed; or their seeds are different and agree in bytes 0-31 and 64-95 of the SHAKE256 expansion; or two different strings among the hash calls of the two key generations have the same hash. The same holds of XmssBasic objects and across the two classes, and although the public key does not name w, two values of w (2, 4, 16, 256) never share one, except with such a collision. Equal addresses mean the same, with a SHA-256 collision of the two public keys as one more exception.", "quantifier": "every pair of seeds, heights, hash functions, address formats and w", "why_tests_cant": "all pairs of wallets", "anchors": ["src/xmss-alt/algsxmss_fast.c:xmssfast_Genkeypair", "src/xmss-alt/algsxmss.c:xmss_Genkeypair", "src/xmss-alt/algsxmss.c:treehash", "src/xmss-alt/xmss_common.c:l_tree", "src/xmss-alt/wots.c:wots_pkgen", "src/qrl/xmssBase.cpp:XmssBase::getPK", "src/qrl/qrlHelper.h:QRLHelper::getAddress"]}
{"id": "C79", "title": "No chain value belongs to two one-time keys", "statement": "The 32-byte values that signatures reveal in their WOTS+ chains are never shared: if a chain value of one signature equals a chain value of another (of the same or another signer, of either class, any w and index, same hash function), then it is the same wallet seed, index, chain and position; or two different wallet seeds agree in the first or last 32 of their 96 expanded bytes; or two different strings among the hash calls that lead to the two values collide. In particular two signatures of one XmssFast, and two chains of one signature, share none, and so do signatures of two trees of one pool, whose seeds are different or a SHAKE256 collision.", "quantifier": "every pair of signers, histories, signatures and chains; every pair of tree indices of a pool", "why_tests_cant": "all pairs of signatures of all wallets", "anchors": ["src/xmss-alt/wots.c:wots_sign", "src/xmss-alt/wots.c:gen_chain", "src/xmss-alt/algsxmss.c:get_seed", "src/xmss-alt/hash_address.c", "src/xmss-alt/hash.c:hash_f", "src/qrl/xmssPool.cpp:prepareTree"]}
{"id": "C80", "title": "What acceptance by the Rust port means", "statement": "If the Rust verify accepts a message and a signature under the public key of a Rust XMSSFast (w = 2, 4, 16; any history of sign and set_index calls), then the signature is one that signer returned, for this message or for one the port cannot tell from it (same length, cut by its SHAKE after the same 40 or 8 bytes: see C53); or two different inputs among the hash calls of this verification, of the verification of the published signatures and of key generation have the same hash; or the pair carries a value of the one-time key strictly before the published one in some chain. For XMSSBasic, whatever indices were set and reused, and for any set of published signatures of the key: a collision, or every chain position the message demands is covered by published signatures with the same index, or an earlier chain value.", "quantifier": "every build mode, hash function, w, seed, height, history, message and signature", "why_tests_cant": "ranges over all histories and all forgeries", "anchors": ["src/rust_wrapper/qrl/xmss_base.rs:verify", "src/rust_wrapper/xmss_alt/xmss_common.rs:xmss_verify_sig", "src/rust_wrapper/qrl/xmss_fast.rs:sign", "src/rust_wrapper/qrl/xmss_basic.rs:sign"]}
{"id": "C81", "title": "The exported key-pair functions never return", "statement": "The functions crypto_kem_keypair and crypto_sign_keypair that the JavaScript builds export take two single bytes and only call themselves: no call of either, with any arguments, returns. (The natural property, that they fill in a key pair, is refuted.)", "quantifier": "every pair of arguments", "why_tests_cant": "a test that never ends proves nothing; the claim is about every execution", "anchors": ["src/jswrapper/jskybwrapper.cpp:crypto_kem_keypair", "src/jswrapper/jsdilwrapper.cpp:crypto_sign_keypair"]}
{"id": "C82", "title": "Running out of memory", "statement": "Each call may find no memory at any of its allocations and throw std::bad_alloc. XmssFast::sign and XmssBasic::sign then have done nothing: over any history of setIndex and sign calls in which any allocations fail, the successful replies and the final object are those of the history without the failed calls, and XmssFast never uses a one-time key twice. XmssFast::initialize_tree on an existing object gives no such guarantee (the natural property, that a call that fails leaves the wallet as it was, is refuted): unless its very first allocation fails, it leaves an object that holds the all-zero key, with the wallet's extended seed but with zeros as secret seed, root and public seed and index 0; if the second or third allocation fails, sign then returns signatures whose index, randomiser and chain values everybody can compute; from the sixth on every sign reads freed memory; in between it is one or the other. A later initialize_tree that succeeds repairs all of it.", "quantifier": "every seed, height, hash function, history of calls, set of failing allocations, message and w = 2, 4, 16, 256", "why_tests_cant": "every point at which memory may run out, in every history", "anchors": ["src/qrl/xmssFast.cpp:XmssFast::sign", "src/qrl/xmssFast.cpp:XmssFast::initialize_tree", "src/qrl/xmssBasic.cpp:XmssBasic::sign", "src/qrl/xmssBase.cpp:XmssBase::setIndex"]}
{"id": "C83", "title": "The Rust crate's low-level functions on any slices", "statement": "All modules of the crate are public. fips202::shake128 and shake256, given any output and input slices and any announced lengths, either panic or write to the first outlen bytes of the output the FIPS 202 value of what they read, and leave the rest of the slice as it was; they panic exactly if the output is shorter than announced, the announced input is two blocks or more, or it is below one block and longer than the slice, or one block or more and the slice shorter than a block. (That a length beyond the end of the input is always refused is refuted: from one block on the beginning is read again.) xmss_verify_sig, given any message, signature and key slices, any announced message length, height from 1 on and w from 2 to 65535, panics if the key slice has less than 64 bytes, the signature slice less than a signature or the message less than announced; otherwise it never changes the message and answers 0 exactly if the root recomputed from the signature is the key's, panicking only where that recomputation does (C69). Bytes after the signature, the key and the announced message do not matter, and it accepts what verify accepts. With height 0 it always panics.", "quantifier": "every slice, announced length, height, w, hash function and build mode", "why_tests_cant": "all slices and lengths", "anchors": ["src/rust_wrapper/xmss_alt/fips202.rs:shake128", "src/rust_wrapper/xmss_alt/fips202.rs:shake256", "src/rust_wrapper/xmss_alt/xmss_common.rs:xmss_verify_sig", "src/rust_wrapper/xmss_alt/hash.rs:h_msg", "src/rust_wrapper/mod.rs"]}
{"id": "C84", "title": "Which mistakes in a seed phrase are noticed", "statement": "Restoring a wallet from a phrase (mnemonic2bin and the extended-seed constructor, or fromMnemonic in JavaScript) refuses with invalid_argument every text with a word that is not in the list, with more or less than 34 words, or with an even number of space characters, and nothing else but a second word that spells a height below 4 (a first word that names an unsupported hash function is undefined, C36). Nothing ties the words of a phrase together (the natural property, that a wrong word is noticed, is refuted): if any of the words 3 to 34 of a wallet's own phrase are replaced by other list words, or swapped, the phrase restores another wallet of the same height and hash function, with another seed, and with the same public key only if there is a hash collision (C78); since there are list words that differ in one letter, one wrong letter can do that. Two phrases restore the same wallet exactly if they agree in words 3 to 34, in the hash function and address format that the first word names and the height that the second names: each wallet has 16 times 256 phrases.", "quantifier": "every text, every wallet and every way of replacing words", "why_tests_cant": "all phrases and all mistakes", "anchors": ["src/qrl/misc.cpp:mnemonic2bin", "src/qrl/misc.cpp:bin2mnemonic", "src/qrl/wordlist.cpp", "src/qrl/xmssFast.cpp:XmssFast::XmssFast", "src/qrl/qrlDescriptor.h:QRLDescriptor::fromExtendedSeed", "src/jswrapper/jsqrlwrapper.cpp:fromMnemonic"]}
{"id": "C85", "title": "Stack use", "statement": "The stack that the library's automatic arrays take does not depend on secrets, on the signature or on the history: building an XmssFast of any height takes less than 8 KiB, setIndex less than 4 KiB however far it skips, XmssFast::sign the message and at most 4 KiB, verify the message and at most 16 KiB (plus what the SHA-256 library takes). But messages of any size are not accepted (the natural property is refuted): the whole message is put on the stack, so on a stack of any size sign, and verify with any bytes of the right lengths as public key (naming a supported hash function) and signature, overflow it on every message of that size or longer; and there are messages and stack sizes for which sign works and verify of the result overflows. XmssBasic::sign takes 64 bytes for each one-time key of the wallet: with 8 MiB of stack an XmssBasic of height 18 or more is built but never signs, up to height 16 it signs messages of up to 8,300,000 bytes.", "quantifier": "every message, signature, key, height, hash function, history, stack size; w = 2, 4, 16, 256 for verify and XmssBasic", "why_tests_cant": "all sizes of messages and stacks, every point of every history", "anchors": ["src/xmss-alt/hash.c:core_hash", "src/xmss-alt/xmss_common.c:xmss_Verifysig", "src/xmss-alt/algsxmss.c:compute_authpath_wots", "src/xmss-alt/algsxmss_fast.c:treehash_setup", "src/xmss-alt/algsxmss_fast.c:xmssfast_Signmsg", "src/qrl/xmssBase.cpp:XmssBase::verify", "src/qrl/xmssBasic.cpp:XmssBasic::sign"]}
{"id": "C86", "title": "A seed phrase between the C++ library and the Rust port", "statement": "The phrase that a C++ XmssFast with address format 0 shows after any history restores, in Rust (mnemonic2bin and from_extended_seed), the new Rust object with the same seed, height and hash function, and that object shows, after any history of its own, the same phrase. Rust restores exactly the texts of 34 list words, separated by any Unicode white space, whose first word names a supported hash function and address format 0 and whose second spells a height of 4 or more; every other text is an error, never a panic. A 7-bit text is restored by Rust and has an odd number of space characters exactly if C++ restores it as a wallet with address format 0, and then secret key, index, public key, extended seed and address agree. Refuted are the natural properties that every wallet moves (the phrase of a C++ wallet with another address format is an error in Rust), that both libraries restore the same texts (a space after a wallet's phrase makes C++ refuse it and Rust not) and that a wrong word is noticed (whatever list words replace words 3 to 34, Rust restores a wallet with another seed).", "quantifier": "every text, seed, height, hash function, address format, history, both Rust build modes", "why_tests_cant": "all texts and all histories on both sides", "anchors": ["src/rust_wrapper/qrl/misc.rs:mnemonic2bin", "src/rust_wrapper/qrl/misc.rs:bin2mnemonic", "src/rust_wrapper/qrl/xmss_fast.rs:from_extended_seed", "src/rust_wrapper/qrl/qrl_descriptor.rs:from_bytes", "src/qrl/misc.cpp:mnemonic2bin", "src/qrl/xmssFast.cpp:XmssFast::XmssFast"]}
{"id": "C87", "title": "A Rust signer stays the same wallet", "statement": "After any history of set_index, sign and initialize_tree(w'), w' from 2 to 65535, in both build modes, a Rust XMSSFast reports the hash function, height, seed, extended seed, secret seeds and public seed it was created with, and its root, public key and address are those of a new object with the parameter of the last initialize_tree, or of the constructor if there was none; without initialize_tree all of its secret key but the index is as at the start. A Rust XMSSBasic, whatever its height and parameters, keeps everything but the index over every history of set_index and sign that does not panic.", "quantifier": "every seed, height, hash function, parameter, history, both Rust build modes", "why_tests_cant": "all histories of calls", "anchors": ["src/rust_wrapper/qrl/xmss_fast.rs:initialize_tree", "src/rust_wrapper/qrl/xmss_fast.rs:sign", "src/rust_wrapper/qrl/xmss_base.rs:set_index", "src/rust_wrapper/qrl/xmss_base.rs:get_pk", "src/rust_wrapper/qrl/xmss_basic.rs:sign"]}
{"id": "C88", "title": "Interoperability with RFC 8391", "statement": "verify answers, for every message, signature and public key that names a supported hash function and for w = 2, 4, 16 and 256, what algorithm 14 (XMSS_verify) of RFC 8391 says for the root and SEED in the key, and false if the sizes do not fit or the key names a height below 4. For the registered parameter sets XMSS-SHA2_h_256, XMSS-SHAKE_h_256 and XMSS-SHAKE256_h_256 (h = 10, 16, 20; w = 16) it answers exactly as an RFC 8391 verifier that gets the same key with the four-byte OID in place of the three descriptor bytes. Any signer that follows algorithms 10 and 12, with whatever one-time keys of the right size, has all its signatures accepted. Over any history, an XmssFast replies as a signer of RFC 8391 that skips indices forward would: it holds the root and SEED of algorithm 10 and signs as algorithm 12 does at its index, byte by byte, so that RFC 8391 verifiers accept it; the same holds of a Rust XMSSFast within the message lengths of C53 (w = 16), and of an XmssBasic for each w (its keys at every height, its signatures up to height 24); the Rust verify accepts as algorithm 14 within these lengths.", "quantifier": "every message, signature, key, seed, height, hash function and w of the interface, every history of calls, every choice of one-time keys by a foreign signer", "why_tests_cant": "no set of test vectors covers all indices, heights and messages; a wrong address field or node order at one index breaks interoperability there only", "anchors": ["src/xmss-alt/xmss_common.c:xmss_Verifysig", "src/xmss-alt/algsxmss_fast.c:xmssfast_Signmsg", "src/xmss-alt/wots.c", "src/xmss-alt/hash.c", "src/xmss-alt/hash_address.c", "src/qrl/xmssBase.cpp:XmssBase::verify", "src/qrl/xmssFast.cpp", "src/qrl/xmssBasic.cpp", "src/rust_wrapper/qrl/xmss_base.rs:verify"]}
{"id": "C89", "title": "The C functions on the caller's own buffers", "statement": "A program that calls the functions of src/xmss-alt itself, with its own buffers (not overlapping), gets this, for w = 2, 4, 16, 256 and each hash function. xmss_Verifysig reads 64 bytes of key, a whole signature and msglen bytes of msg, is undefined if one of them is missing (and for h = 0, with any signature buffer below 128 GiB), returns 0 exactly if the signature leads to the root in the key and -1 otherwise, and never changes msg nor looks at what follows the signature - unlike its header comment, which says that msg is an output that carries the message following the signature. xmss_Genkeypair and xmssfast_Genkeypair make the same key, write 64 and 132 bytes and leave the rest alone; for odd heights xmssfast_Genkeypair returns -1 and touches nothing. xmss_Signmsg signs with whatever the key buffer holds, writes one signature, adds one to the index, and is undefined when a buffer is too short, the height is 26 or more or the index is outside the tree; on keys of xmss_Genkeypair every signature is accepted by xmss_Verifysig. Over any history, xmssfast_update and xmssfast_Signmsg on a key of xmssfast_Genkeypair are a counter: xmssfast_update throws when asked to go back or out of the tree, xmssfast_Signmsg always returns 0. In particular it does not notice that the key is used up: it goes on to write signatures whose index is not in the tree, which xmss_Verifysig rejects unless two named hash calls collide.", "quantifier": "every content and length of every buffer, every message, seed, height, hash function and w of the interface, every history of calls (up to 2^32 - 2^h)", "why_tests_cant": "tests use buffers of the right size and stop at the last leaf", "anchors": ["src/xmss-alt/xmss_common.c:xmss_Verifysig", "src/xmss-alt/xmss_common.h:xmss_Verifysig", "src/xmss-alt/algsxmss.c:xmss_Genkeypair", "src/xmss-alt/algsxmss.c:xmss_Signmsg", "src/xmss-alt/algsxmss_fast.c:xmssfast_Genkeypair", "src/xmss-alt/algsxmss_fast.c:xmssfast_Signmsg", "src/xmss-alt/algsxmss_fast.c:xmssfast_update"]}
{"id": "C90", "title": "A Rust signer after a caught panic", "statement": "A Rust panic unwinds, so a program can catch it (catch_unwind, a thread, a server loop) and use the signer again. Whatever the object, its parameters and its state, and whatever happens in any history of set_index and sign with every panic caught, the indices in the signatures an XMSSFast returns strictly increase and stay below its index: no one-time key is used twice. A panicking sign (a message too long for the port's sponge does it, or a parameter the build cannot use) has used up its index but not moved the tree state: the natural property that the panic costs one index only is false. The next sign at i + 1 returns a signature with the index, randomness and chains of i + 1 and the authentication path of i (or panics), which verify accepts for no message unless two named hash calls collide. initialize_tree and set_index(i + 1) repair the object. An XMSSBasic keeps no such state: over every history with caught panics it is a counter that moves on at every sign, and each signature it returns is the honest one.", "quantifier": "every object, build mode, history of calls with caught panics, tree state left by a panic; every seed, even height 4..30, hash function, w from 2 to 65535, message", "why_tests_cant": "A test that catches a panic sees one object and one message; key reuse after a failure, and the signatures after it, concern all histories.", "anchors": ["src/rust_wrapper/qrl/xmss_fast.rs: XMSSFast::sign, set_index", "src/rust_wrapper/qrl/xmss_basic.rs: XMSSBasic::sign", "src/rust_wrapper/xmss_alt/algsxmss_fast.rs: xmss_fast_sign_msg, xmss_fast_update", "src/rust_wrapper/xmss_alt/algsxmss.rs: xmss_sign_msg"]}
{"id": "C91", "title": "The Rust signing functions on the caller's own slices", "statement": "A program that calls the functions of src/rust_wrapper/xmss_alt itself, with its own slices, gets this for each hash function, every w from 2 to 65535 and both builds. xmss_gen_keypair (heights below 32) and xmss_fast_gen_keypair (even heights from 4 to 30) make the same key, write 64 and 132 bytes, leave what follows alone, and panic exactly if a key slice or the 48 bytes of seed are too short; for odd heights xmss_fast_gen_keypair returns an error. xmss_sign_msg signs with whatever the key slice holds, writes one signature, adds one to the index, and panics exactly if a slice is too short, the height is 26 or more, the index is outside the tree, or the message cannot be signed; a key slice below 132 bytes panics in both signing functions. Signatures made with keys of xmss_gen_keypair are accepted by xmss_verify_sig. Over any history, xmss_fast_update and xmss_fast_sign_msg on a key of xmss_fast_gen_keypair are a counter: xmss_fast_update returns an error when asked to go back or out of the tree, xmss_fast_sign_msg returns 0 or panics; what it writes while the tree has a leaf is accepted by xmss_verify_sig. The natural property that it stops when the key is used up is false: it goes on to return 0 and writes signatures whose index is not in the tree.", "quantifier": "every content and length of every slice, every message, seed, height, hash function, w from 2 to 65535, build, every history of calls (shorter than 2^32 - 2^h)", "why_tests_cant": "tests use slices of the right size and stop at the last leaf", "anchors": ["src/rust_wrapper/xmss_alt/algsxmss.rs:xmss_gen_keypair", "src/rust_wrapper/xmss_alt/algsxmss.rs:xmss_sign_msg", "src/rust_wrapper/xmss_alt/algsxmss_fast.rs:xmss_fast_gen_keypair", "src/rust_wrapper/xmss_alt/algsxmss_fast.rs:xmss_fast_sign_msg", "src/rust_wrapper/xmss_alt/algsxmss_fast.rs:xmss_fast_update", "src/rust_wrapper/xmss_alt/xmss_common.rs:xmss_verify_sig"]}
{"id": "C92", "title": "The traversal parameter k of the C fast functions cannot be seen from outside, up to k = 26", "statement": "A program that calls the fast functions of src/xmss-alt itself chooses how many top levels of the tree are kept in memory (the parameter k of xmss_set_params; XmssFast always uses 2). xmss_set_params sets the struct exactly if 2 <= k < h and h, k are both even or both odd; with both odd xmssfast_Genkeypair returns -1 and touches nothing. With every even k and arrays of the sizes that go with k (treehash h - k, retain 2^k - k - 1 nodes, the others as in XmssFast), no access of xmssfast_Genkeypair leaves the arrays, no node is used before it is written, and it makes the key that xmss_Genkeypair makes. With every even k up to 26, over every history of xmssfast_update and xmssfast_Signmsg the return values, the exceptions, the signatures and the key buffer are those of a counter in which k does not occur: two programs with different k and the same seed and calls see the same. With k = 28, which only h = 30 allows, this is false: the retained nodes take 8 GiB, their byte offset is a 32-bit number and wraps around, and key generation overwrites some of them. A program that moves to leaf 16 with xmssfast_update and signs gets return value 0 twice and a signature that xmss_Verifysig rejects (or a hash collision).", "quantifier": "every even k and h with 2 <= k < h <= 30 (histories: k <= 26), w = 2, 4, 16, 256, hash function, seed, content and length of the buffers, message, every history of calls (up to 2^32 - 2^h)", "why_tests_cant": "The library's tests only run k = 2; the rows of retained nodes for larger k are never executed, and with k = 28 a key takes 2^30 leaves and 8 GiB.", "anchors": ["src/xmss-alt/xmss_common.c:xmss_set_params", "src/xmss-alt/algsxmss_fast.c:treehash_setup", "src/xmss-alt/algsxmss_fast.c:bds_round", "src/xmss-alt/algsxmss_fast.c:bds_treehash_update", "src/xmss-alt/algsxmss_fast.c:xmssfast_Genkeypair", "src/xmss-alt/algsxmss_fast.c:xmssfast_Signmsg", "src/xmss-alt/algsxmss_fast.c:xmssfast_update"]}
{"id": "C93", "title": "The traversal parameter k of the Rust crate's fast functions cannot be seen from outside, up to k = 26", "statement": "XMSSParams::new is Ok exactly if 2 <= k < h and h, k are both even or both odd, and an error otherwise (the C function silently leaves the struct unset). With both odd xmss_fast_gen_keypair is an error and touches nothing. With every even k up to 26 and vectors of the sizes XMSSFast uses, written with this k, xmss_fast_gen_keypair panics exactly if a slice of the caller is too short and otherwise makes the key that xmss_gen_keypair makes; without overflow checks (release) this holds for every even k. Over every history of xmss_fast_update and xmss_fast_sign_msg with an even k up to 26 the results, the panics, the signatures and the key slice are those of a counter in which k does not occur: two programs with different k and the same seed and calls see the same, in debug and in release builds. With k = 28, which only h = 30 allows, it is false: the offset of a retained node is a u32 and overflows. Key generation panics in a debug build whatever it is given; in a release build it makes the right key, but a program that moves to leaf 16 with xmss_fast_update and signs gets Ok(0) twice and a signature that xmss_verify_sig rejects (or a hash collision).", "quantifier": "every even k and h with 2 <= k < h <= 30 (histories: k <= 26), every w with 2 <= w < 2^16, hash function, seed, content and length of the slices, message, build, every history of calls (up to 2^32 - 2^h)", "why_tests_cant": "The crate's tests only run k = 2, so the rows of retained nodes for larger k are never executed.", "anchors": ["src/rust_wrapper/xmss_alt/xmss_common.rs:XMSSParams::new", "src/rust_wrapper/xmss_alt/algsxmss_fast.rs:treehash_setup", "src/rust_wrapper/xmss_alt/algsxmss_fast.rs:bds_round", "src/rust_wrapper/xmss_alt/algsxmss_fast.rs:bds_treehash_update", "src/rust_wrapper/xmss_alt/algsxmss_fast.rs:xmss_fast_gen_keypair", "src/rust_wrapper/xmss_alt/algsxmss_fast.rs:xmss_fast_sign_msg", "src/rust_wrapper/xmss_alt/algsxmss_fast.rs:xmss_fast_update"]}
{"id": "C94", "title": "The hash functions and WOTS+ for n other than 32", "statement": "hash.c and wots.c take the output length n as a parameter. Exactly five pairs are supported: SHA2-256 with 32 bytes, SHAKE-128 and SHAKE-256 with 32 and 64 bytes. For these prf, h_msg, hash_f and hash_h return 0 and write the values of RFC 8391 for this n; wots_set_params gives the lengths of the RFC; wots_pkgen and wots_sign give its public key and signature, whatever the buffers held, and wots_pkFromSig gives the public key back. With n = 64 and w = 2, 4, 16 no signature can be turned into one on another digest by hashing forward (with w = 256 it can). For every other pair, for instance SHA2-256 with 64 bytes, the hash functions return 1 and write nothing; the functions of WOTS+ ignore that, report nothing, leave their output as it was, and wots_pkFromSig gives back the signature itself, so that any string is a valid signature on every digest under the public key equal to it.", "quantifier": "all hash function values, n, w of the interface, digests, seeds, addresses, previous buffer contents", "why_tests_cant": "the library only ever passes n = 32, and the tests with it; the statement ranges over all inputs and previous buffer contents", "anchors": ["src/xmss-alt/hash.c: core_hash, prf, h_msg, hash_h, hash_f", "src/xmss-alt/wots.c: wots_set_params, expand_seed, gen_chain, wots_pkgen, wots_sign, wots_pkFromSig"]}
{"id": "C95", "title": "xmss_Verifysig is usable for n = 32 only", "statement": "xmss_Verifysig takes n from the parameters, but starts its byte counter from lengths for n = 32. For n = 32 it is the verification of the other claims. For every other n it has undefined behaviour on every message buffer, signature and public key, valid or not: with n = 64 the root is computed correctly sized, and then the loop that copies or clears the message runs for 2^64 - 32 (1 + len + h) bytes; with the other n the digest is never written.", "quantifier": "all n up to 4096 except 32, hash function values, w of the interface, heights, messages below 2^63 bytes, signatures, public keys", "why_tests_cant": "no test can cover all signatures and messages, and no test calls the function with another n", "anchors": ["src/xmss-alt/xmss_common.c: xmss_Verifysig, l_tree, validate_authpath"]}
{"id": "C96", "title": "The Rust verification for n other than 32", "statement": "WOTSParams has a public field n, so xmss_verify_sig of the crate can be called with any n. For n = 32 it is the verification of the other claims. For every n from 33 on, also for n = 64 that SHAKE supports, every call panics, in debug and release builds, whatever the message, signature and key. For every n below 32 no hash function exists, the hash functions return 1 and leave their outputs as they were, nobody looks at that result, and with buffers that are large enough xmss_verify_sig ignores message and signature: it accepts if and only if the root in the public key consists of zeros, and overwrites (32 - n)(1 + len + h) bytes of the message. (The natural property, that an accepted signature has something to do with the key holder, is refuted for n below 32: under a zero root everything is accepted. C++ is undefined there, C95.)", "quantifier": "all n from 1 to 4096, hash functions, both builds, w of the interface, heights, messages, signatures and keys", "why_tests_cant": "the tests only use n = 32; what happens to every signature for every other n needs a proof over all inputs", "anchors": ["src/rust_wrapper/xmss_alt/xmss_common.rs:xmss_verify_sig", "src/rust_wrapper/xmss_alt/hash.rs:core_hash", "src/rust_wrapper/xmss_alt/wots.rs:WOTSParams"]}
{"id": "C97", "title": "The Rust key generation for n below 32", "statement": "XMSSParams has public fields, so xmss_gen_keypair of the crate can be called with n below 32. For n = 32 it is the key generation of the other claims. For every n from 1 to 31, every hash function, seed and height it panics exactly if a slice is too short, and otherwise returns 0, as after success, with the key derived from the seed and a root of n zero bytes, whatever the secret seed; nothing reports that no hash function was computed. (The natural property, that only the holder of the secret key can make a signature that verifies under a generated key, is refuted: under every key generated with n below 32 every signature of the right length is accepted for every message.)", "quantifier": "all n from 1 to 31, hash functions, both builds, w of the interface, heights, seeds, buffers, messages and signatures", "why_tests_cant": "the tests only use n = 32; that the root is zero for every seed and that every signature is accepted ranges over all inputs", "anchors": ["src/rust_wrapper/xmss_alt/algsxmss.rs:xmss_gen_keypair", "src/rust_wrapper/xmss_alt/algsxmss.rs:treehash", "src/rust_wrapper/xmss_alt/wots.rs:wots_pkgen"]}
{"id": "C98", "title": "The Rust hash functions for n = 64", "statement": "For n = 64, which the crate accepts for SHAKE, the sponge only sees one block. prf with SHAKE-128 is that of RFC 8391. prf with SHAKE-256 only depends on the key and the first 8 bytes of its input, so the seeds of all one-time keys of a tree are the same and so are all secret values of a one-time key; hash_f only depends on the first 40 (SHAKE-128) or 8 (SHAKE-256) of the 64 bytes of its input; hash_h does not depend on the right child. (The natural properties, a pseudorandom function and hash functions that bind their whole input, are refuted.)", "quantifier": "all keys, inputs, addresses, seeds and children", "why_tests_cant": "no test uses n = 64, and that a byte never counts is a statement about all inputs", "anchors": ["src/rust_wrapper/xmss_alt/hash.rs:core_hash", "src/rust_wrapper/xmss_alt/hash.rs:hash_h", "src/rust_wrapper/xmss_alt/hash.rs:hash_f", "src/rust_wrapper/xmss_alt/wots.rs:expand_seed", "src/rust_wrapper/xmss_alt/algsxmss.rs:get_seed"]}
