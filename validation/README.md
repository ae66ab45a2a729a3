# Running the model on the repository's own test vectors

`VecMain.lean.txt` is a Lean program over the model (`Verif/Model/*`, with SHA-256 instantiated by
`Verif/Spec/Sha256.lean`). It evaluates the model on the literal vectors found in `/repo/tests`
(C++, Python, Go and Rust suites) and prints one line per comparison; `result.txt` is its output:
176 lines, all `ok`. This is a test of the model's fidelity, not part of any proof.

To repeat: copy `VecMain.lean.txt` to `/tmp/vec/VecMain.lean` and `mods.txt` to `/tmp/vec/`, make
`/tmp/vec/c`, and run `build.sh`, then `/tmp/vec/vec`.
