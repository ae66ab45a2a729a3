ok   bin2hstr wrap 4  [tests/cpp/qrl/misc_test.cpp]
ok   hstr2bin  [tests/cpp/qrl/misc_test.cpp]
ok   bin2mnemonic 0  [tests/cpp/qrl/misc_test.cpp]
ok   bin2mnemonic b  [tests/cpp/qrl/misc_test.cpp]
ok   bin2mnemonic c  [tests/cpp/qrl/misc_test.cpp]
ok   bin2mnemonic 4  [tests/cpp/qrl/misc_test.cpp]
ok   bin2mnemonic 6a  [tests/cpp/qrl/misc_test.cpp]
ok   bin2mnemonic 6b  [tests/cpp/qrl/misc_test.cpp]
ok   mnemonic2bin 1  [tests/cpp/qrl/misc_test.cpp]
ok   mnemonic2bin unknown  [tests/cpp/qrl/misc_test.cpp]
ok   mnemonic2bin long  [tests/cpp/qrl/misc_test.cpp]
ok   bin2mnemonic long  [tests/cpp/qrl/misc_test.cpp]
ok   odd words  [tests/python/test_misc.py]
ok   absorb absorb  [tests/python/test_misc.py]
ok   hstr2bin Z  [tests/python/test_misc.py]
ok   hstr2bin Z0  [tests/python/test_misc.py]
ok   sha2_256  [tests/cpp/qrl/hashing_test.cpp]
ok   sha2_256_n 16  [tests/cpp/qrl/hashing_test.cpp]
ok   shake128  [tests/cpp/qrl/hashing_test.cpp]
ok   shake256  [tests/cpp/qrl/hashing_test.cpp]
ok   shake256 64  [tests/python/test_shake.py]
ok   getHashChainSeed 0  [tests/cpp/qrl/misc_test.cpp]
ok   getHashChainSeed 1  [tests/cpp/qrl/misc_test.cpp]
ok   getHashChainSeed 2  [tests/cpp/qrl/misc_test.cpp]
ok   getHashChainSeed 3  [tests/cpp/qrl/misc_test.cpp]
ok   getHashChainSeed 4  [tests/cpp/qrl/misc_test.cpp]
ok   getHashChainSeed 5  [tests/cpp/qrl/misc_test.cpp]
ok   getHashChainSeed 6  [tests/cpp/qrl/misc_test.cpp]
ok   getHashChainSeed 7  [tests/cpp/qrl/misc_test.cpp]
ok   getHashChainSeed 8  [tests/cpp/qrl/misc_test.cpp]
ok   getHashChainSeed 9  [tests/cpp/qrl/misc_test.cpp]
ok   XmssBasic h4 address, hash 0  [tests/python/test_xmss.py, tests/cpp/qrl/xmssBasic*_test.cpp]
ok   valid, hash 0  [tests/python/test_xmss.py, tests/cpp/qrl/xmssBasic*_test.cpp]
ok   verify, hash 0  [tests/python/test_xmss.py, tests/cpp/qrl/xmssBasic*_test.cpp]
ok   verify altered message  [tests/python/test_xmss.py, tests/cpp/qrl/xmssBasic*_test.cpp]
ok   verify altered signature  [tests/python/test_xmss.py, tests/cpp/qrl/xmssBasic*_test.cpp]
ok   XmssFast = XmssBasic PK, hash 0  [tests/cpp/qrl/xmssComparison_test.cpp]
ok   hash 0 signature 0: fast = basic  [tests/cpp/qrl/xmssComparison_test.cpp]
ok   hash 0 signature 0 verifies  [tests/cpp/qrl/xmssComparison_test.cpp]
ok   hash 0 signature 1: fast = basic  [tests/cpp/qrl/xmssComparison_test.cpp]
ok   hash 0 signature 1 verifies  [tests/cpp/qrl/xmssComparison_test.cpp]
ok   hash 0 signature 2: fast = basic  [tests/cpp/qrl/xmssComparison_test.cpp]
ok   hash 0 signature 2 verifies  [tests/cpp/qrl/xmssComparison_test.cpp]
ok   hash 0 signature 3: fast = basic  [tests/cpp/qrl/xmssComparison_test.cpp]
ok   hash 0 signature 3 verifies  [tests/cpp/qrl/xmssComparison_test.cpp]
ok   hash 0 signature 4: fast = basic  [tests/cpp/qrl/xmssComparison_test.cpp]
ok   hash 0 signature 4 verifies  [tests/cpp/qrl/xmssComparison_test.cpp]
ok   hash 0 signature 5: fast = basic  [tests/cpp/qrl/xmssComparison_test.cpp]
ok   hash 0 signature 5 verifies  [tests/cpp/qrl/xmssComparison_test.cpp]
ok   hash 0 signature 6: fast = basic  [tests/cpp/qrl/xmssComparison_test.cpp]
ok   hash 0 signature 6 verifies  [tests/cpp/qrl/xmssComparison_test.cpp]
ok   hash 0 signature 7: fast = basic  [tests/cpp/qrl/xmssComparison_test.cpp]
ok   hash 0 signature 7 verifies  [tests/cpp/qrl/xmssComparison_test.cpp]
ok   hash 0 signature 8: fast = basic  [tests/cpp/qrl/xmssComparison_test.cpp]
ok   hash 0 signature 8 verifies  [tests/cpp/qrl/xmssComparison_test.cpp]
ok   hash 0 signature 9: fast = basic  [tests/cpp/qrl/xmssComparison_test.cpp]
ok   hash 0 signature 9 verifies  [tests/cpp/qrl/xmssComparison_test.cpp]
ok   hash 0 signature 10: fast = basic  [tests/cpp/qrl/xmssComparison_test.cpp]
ok   hash 0 signature 10 verifies  [tests/cpp/qrl/xmssComparison_test.cpp]
ok   hash 0 signature 11: fast = basic  [tests/cpp/qrl/xmssComparison_test.cpp]
ok   hash 0 signature 11 verifies  [tests/cpp/qrl/xmssComparison_test.cpp]
ok   hash 0 signature 12: fast = basic  [tests/cpp/qrl/xmssComparison_test.cpp]
ok   hash 0 signature 12 verifies  [tests/cpp/qrl/xmssComparison_test.cpp]
ok   hash 0 signature 13: fast = basic  [tests/cpp/qrl/xmssComparison_test.cpp]
ok   hash 0 signature 13 verifies  [tests/cpp/qrl/xmssComparison_test.cpp]
ok   hash 0 signature 14: fast = basic  [tests/cpp/qrl/xmssComparison_test.cpp]
ok   hash 0 signature 14 verifies  [tests/cpp/qrl/xmssComparison_test.cpp]
ok   XmssBasic h4 PK  [tests/python/test_xmss.py, tests/cpp/qrl/xmssBasic*_test.cpp]
ok   XmssBasic h4 address, hash 1  [tests/python/test_xmss.py, tests/cpp/qrl/xmssBasic*_test.cpp]
ok   valid, hash 1  [tests/python/test_xmss.py, tests/cpp/qrl/xmssBasic*_test.cpp]
ok   verify, hash 1  [tests/python/test_xmss.py, tests/cpp/qrl/xmssBasic*_test.cpp]
ok   verify altered message  [tests/python/test_xmss.py, tests/cpp/qrl/xmssBasic*_test.cpp]
ok   verify altered signature  [tests/python/test_xmss.py, tests/cpp/qrl/xmssBasic*_test.cpp]
ok   XmssFast = XmssBasic PK, hash 1  [tests/cpp/qrl/xmssComparison_test.cpp]
ok   hash 1 signature 0: fast = basic  [tests/cpp/qrl/xmssComparison_test.cpp]
ok   hash 1 signature 0 verifies  [tests/cpp/qrl/xmssComparison_test.cpp]
ok   hash 1 signature 1: fast = basic  [tests/cpp/qrl/xmssComparison_test.cpp]
ok   hash 1 signature 1 verifies  [tests/cpp/qrl/xmssComparison_test.cpp]
ok   hash 1 signature 2: fast = basic  [tests/cpp/qrl/xmssComparison_test.cpp]
ok   hash 1 signature 2 verifies  [tests/cpp/qrl/xmssComparison_test.cpp]
ok   hash 1 signature 3: fast = basic  [tests/cpp/qrl/xmssComparison_test.cpp]
ok   hash 1 signature 3 verifies  [tests/cpp/qrl/xmssComparison_test.cpp]
ok   hash 1 signature 4: fast = basic  [tests/cpp/qrl/xmssComparison_test.cpp]
ok   hash 1 signature 4 verifies  [tests/cpp/qrl/xmssComparison_test.cpp]
ok   hash 1 signature 5: fast = basic  [tests/cpp/qrl/xmssComparison_test.cpp]
ok   hash 1 signature 5 verifies  [tests/cpp/qrl/xmssComparison_test.cpp]
ok   hash 1 signature 6: fast = basic  [tests/cpp/qrl/xmssComparison_test.cpp]
ok   hash 1 signature 6 verifies  [tests/cpp/qrl/xmssComparison_test.cpp]
ok   hash 1 signature 7: fast = basic  [tests/cpp/qrl/xmssComparison_test.cpp]
ok   hash 1 signature 7 verifies  [tests/cpp/qrl/xmssComparison_test.cpp]
ok   hash 1 signature 8: fast = basic  [tests/cpp/qrl/xmssComparison_test.cpp]
ok   hash 1 signature 8 verifies  [tests/cpp/qrl/xmssComparison_test.cpp]
ok   hash 1 signature 9: fast = basic  [tests/cpp/qrl/xmssComparison_test.cpp]
ok   hash 1 signature 9 verifies  [tests/cpp/qrl/xmssComparison_test.cpp]
ok   hash 1 signature 10: fast = basic  [tests/cpp/qrl/xmssComparison_test.cpp]
ok   hash 1 signature 10 verifies  [tests/cpp/qrl/xmssComparison_test.cpp]
ok   hash 1 signature 11: fast = basic  [tests/cpp/qrl/xmssComparison_test.cpp]
ok   hash 1 signature 11 verifies  [tests/cpp/qrl/xmssComparison_test.cpp]
ok   hash 1 signature 12: fast = basic  [tests/cpp/qrl/xmssComparison_test.cpp]
ok   hash 1 signature 12 verifies  [tests/cpp/qrl/xmssComparison_test.cpp]
ok   hash 1 signature 13: fast = basic  [tests/cpp/qrl/xmssComparison_test.cpp]
ok   hash 1 signature 13 verifies  [tests/cpp/qrl/xmssComparison_test.cpp]
ok   hash 1 signature 14: fast = basic  [tests/cpp/qrl/xmssComparison_test.cpp]
ok   hash 1 signature 14 verifies  [tests/cpp/qrl/xmssComparison_test.cpp]
ok   XmssBasic h4 address, hash 2  [tests/python/test_xmss.py, tests/cpp/qrl/xmssBasic*_test.cpp]
ok   valid, hash 2  [tests/python/test_xmss.py, tests/cpp/qrl/xmssBasic*_test.cpp]
ok   verify, hash 2  [tests/python/test_xmss.py, tests/cpp/qrl/xmssBasic*_test.cpp]
ok   verify altered message  [tests/python/test_xmss.py, tests/cpp/qrl/xmssBasic*_test.cpp]
ok   verify altered signature  [tests/python/test_xmss.py, tests/cpp/qrl/xmssBasic*_test.cpp]
ok   XmssFast = XmssBasic PK, hash 2  [tests/cpp/qrl/xmssComparison_test.cpp]
ok   hash 2 signature 0: fast = basic  [tests/cpp/qrl/xmssComparison_test.cpp]
ok   hash 2 signature 0 verifies  [tests/cpp/qrl/xmssComparison_test.cpp]
ok   hash 2 signature 1: fast = basic  [tests/cpp/qrl/xmssComparison_test.cpp]
ok   hash 2 signature 1 verifies  [tests/cpp/qrl/xmssComparison_test.cpp]
ok   hash 2 signature 2: fast = basic  [tests/cpp/qrl/xmssComparison_test.cpp]
ok   hash 2 signature 2 verifies  [tests/cpp/qrl/xmssComparison_test.cpp]
ok   hash 2 signature 3: fast = basic  [tests/cpp/qrl/xmssComparison_test.cpp]
ok   hash 2 signature 3 verifies  [tests/cpp/qrl/xmssComparison_test.cpp]
ok   hash 2 signature 4: fast = basic  [tests/cpp/qrl/xmssComparison_test.cpp]
ok   hash 2 signature 4 verifies  [tests/cpp/qrl/xmssComparison_test.cpp]
ok   hash 2 signature 5: fast = basic  [tests/cpp/qrl/xmssComparison_test.cpp]
ok   hash 2 signature 5 verifies  [tests/cpp/qrl/xmssComparison_test.cpp]
ok   hash 2 signature 6: fast = basic  [tests/cpp/qrl/xmssComparison_test.cpp]
ok   hash 2 signature 6 verifies  [tests/cpp/qrl/xmssComparison_test.cpp]
ok   hash 2 signature 7: fast = basic  [tests/cpp/qrl/xmssComparison_test.cpp]
ok   hash 2 signature 7 verifies  [tests/cpp/qrl/xmssComparison_test.cpp]
ok   hash 2 signature 8: fast = basic  [tests/cpp/qrl/xmssComparison_test.cpp]
ok   hash 2 signature 8 verifies  [tests/cpp/qrl/xmssComparison_test.cpp]
ok   hash 2 signature 9: fast = basic  [tests/cpp/qrl/xmssComparison_test.cpp]
ok   hash 2 signature 9 verifies  [tests/cpp/qrl/xmssComparison_test.cpp]
ok   hash 2 signature 10: fast = basic  [tests/cpp/qrl/xmssComparison_test.cpp]
ok   hash 2 signature 10 verifies  [tests/cpp/qrl/xmssComparison_test.cpp]
ok   hash 2 signature 11: fast = basic  [tests/cpp/qrl/xmssComparison_test.cpp]
ok   hash 2 signature 11 verifies  [tests/cpp/qrl/xmssComparison_test.cpp]
ok   hash 2 signature 12: fast = basic  [tests/cpp/qrl/xmssComparison_test.cpp]
ok   hash 2 signature 12 verifies  [tests/cpp/qrl/xmssComparison_test.cpp]
ok   hash 2 signature 13: fast = basic  [tests/cpp/qrl/xmssComparison_test.cpp]
ok   hash 2 signature 13 verifies  [tests/cpp/qrl/xmssComparison_test.cpp]
ok   hash 2 signature 14: fast = basic  [tests/cpp/qrl/xmssComparison_test.cpp]
ok   hash 2 signature 14 verifies  [tests/cpp/qrl/xmssComparison_test.cpp]
ok   XmssFast h6 PK  [tests/python/test_xmss.py, tests/cpp/qrl/xmssBasic*_test.cpp]
ok   XmssFast h6 address  [tests/python/test_xmss.py, tests/cpp/qrl/xmssBasic*_test.cpp]
ok   height 7  [tests/python/test_xmss.py, tests/cpp/qrl/xmssBasic*_test.cpp]
ok   verify w=4  [tests/cpp/qrl/xmssFast_test.cpp (w = 4)]
ok   verify w=16  [tests/cpp/qrl/xmssFast_test.cpp (w = 4)]
ok   C++ pool tree 0  [tests/cpp/qrl/xmssPool_test.cpp, tests/python/test_xmsspool.py]
ok   C++ pool tree 1  [tests/cpp/qrl/xmssPool_test.cpp, tests/python/test_xmsspool.py]
ok   C++ pool tree 2  [tests/cpp/qrl/xmssPool_test.cpp, tests/python/test_xmsspool.py]
ok   C++ pool tree 3  [tests/cpp/qrl/xmssPool_test.cpp, tests/python/test_xmsspool.py]
ok   C++ pool tree 4  [tests/cpp/qrl/xmssPool_test.cpp, tests/python/test_xmsspool.py]
ok   bin2hstr wrap 4  [tests/rust/qrl/misc.rs, hashing.rs]
ok   bin2mnemonic 6b  [tests/rust/qrl/misc.rs, hashing.rs]
ok   mnemonic2bin  [tests/rust/qrl/misc.rs, hashing.rs]
ok   mnemonic2bin long  [tests/rust/qrl/misc.rs, hashing.rs]
ok   mnemonic2bin unknown  [tests/rust/qrl/misc.rs, hashing.rs]
ok   get_hash_chain_seed 0  [tests/rust/qrl/misc.rs, hashing.rs]
ok   get_hash_chain_seed 1  [tests/rust/qrl/misc.rs, hashing.rs]
ok   get_hash_chain_seed 2  [tests/rust/qrl/misc.rs, hashing.rs]
ok   get_hash_chain_seed 3  [tests/rust/qrl/misc.rs, hashing.rs]
ok   get_hash_chain_seed 4  [tests/rust/qrl/misc.rs, hashing.rs]
ok   get_hash_chain_seed 5  [tests/rust/qrl/misc.rs, hashing.rs]
ok   get_hash_chain_seed 6  [tests/rust/qrl/misc.rs, hashing.rs]
ok   get_hash_chain_seed 7  [tests/rust/qrl/misc.rs, hashing.rs]
ok   get_hash_chain_seed 8  [tests/rust/qrl/misc.rs, hashing.rs]
ok   get_hash_chain_seed 9  [tests/rust/qrl/misc.rs, hashing.rs]
ok   Rust XMSSBasic h4 address  [tests/rust/qrl/xmss_basic*.rs]
ok   Rust XMSSFast h4 address  [tests/rust/qrl/xmss_basic*.rs]
ok   Rust XMSSBasic h4 address  [tests/rust/qrl/xmss_basic*.rs]
ok   Rust XMSSFast h4 address  [tests/rust/qrl/xmss_basic*.rs]
ok   Rust XMSSBasic h4 address  [tests/rust/qrl/xmss_basic*.rs]
ok   Rust XMSSFast h4 address  [tests/rust/qrl/xmss_basic*.rs]
ok   Rust pool tree 0  [tests/rust/qrl/xmss_pool.rs]
ok   Rust pool tree 1  [tests/rust/qrl/xmss_pool.rs]
ok   Rust pool tree 2  [tests/rust/qrl/xmss_pool.rs]
ok   Rust pool tree 3  [tests/rust/qrl/xmss_pool.rs]
ok   Rust pool tree 4  [tests/rust/qrl/xmss_pool.rs]
