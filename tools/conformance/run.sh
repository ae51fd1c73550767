#!/bin/sh
# Run the repo's own test data on the Lean model of the core (State.step), compiled to native code.
# Tests, not proofs: they only support the claim that the model is the program.  Needs a finished `lake build`.
set -e
here=$(cd "$(dirname "$0")" && pwd); lean=$here/../../lean
CONF=${CONF:-/tmp/conf.run}; export CONF; mkdir -p "$CONF"; cd "$CONF"
LEAN_PATH=$(cd "$lean" && lake env printenv LEAN_PATH); export LEAN_PATH
for n in Conf SeqRun WitRun; do
  cp "$here/$n.lean.txt" $n.lean
  lean -c $n.c $n.lean
  leanc -O2 -o $n.exe $n.c $(sed "s#\.#/#g; s#^#$lean/.lake/build/ir/#; s#\$#.c#" "$here/mods")
done
cp "$here/UcRun.lean.txt" UcRun.lean; lean --run UcRun.lean > UcRun.out
python3 "$here/upstream.py"; python3 "$here/seq.py"; python3 "$here/wit.py"; python3 "$here/ucode.py"
