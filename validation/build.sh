set -e
cd /verif/lean
rm -f /tmp/vec/c/*
lake build $(sed 's/$/:c.o.export/' /tmp/vec/mods.txt) 2>&1 | tail -3
LP=$(lake env printenv LEAN_PATH); cd /tmp/vec; LEAN_PATH=$LP lean --root=/tmp/vec VecMain.lean -c /tmp/vec/c/VecMain.c; leanc -O2 -c /tmp/vec/c/VecMain.c -o /tmp/vec/c/VecMain.o
leanc -o vec c/VecMain.o $(for m in $(cat mods.txt); do echo /verif/lean/.lake/build/ir/${m//./\/}.c.o.export; done) -rdynamic
