#!/bin/sh
# Runs the tests of /repo/src/tests.rs on the model (see lean/Verif/Conformance.lean). Takes about two minutes.
cd "$(dirname "$0")/../lean" && lake build Verif.Conformance >/dev/null &&
f=$(mktemp --suffix=.lean) && printf 'import Verif.Conformance\ndef main : IO Unit := MUL.Conformance.report\n' > "$f" &&
lake env lean --run "$f"; rm -f "$f"
