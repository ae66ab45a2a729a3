Verif.Model.Basic
Verif.Spec.Sha256
Verif.Model.Keccak
Verif.Model.Wordlist
Verif.Model.Misc
Verif.Model.Hashing
Verif.Model.Hash
Verif.Model.Wots
Verif.Model.XmssCommon
Verif.Model.XmssCore
Verif.Model.Bds
Verif.Model.Descriptor
Verif.Model.XmssApi
Verif.Model.Pool
Verif.Model.RustBasic
Verif.Model.RustKeccak
Verif.Model.RustHash
Verif.Model.RustWots
Verif.Model.RustXmss
Verif.Model.RustBds
Verif.Model.RustApi
Verif.Model.RustMisc
Verif.Model.RustPool
