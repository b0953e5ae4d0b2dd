#!/bin/bash
# Replays the crate's own tests on the model (lean/Verif/Conformance/Replay.lean) and compares the formal binary32
# arithmetic with the machine's (Conformance/Machine.lean).  Prints the numbers of checks and the lists of failures.
cd "$(dirname "$0")/../lean" || exit 1
f=$(mktemp --suffix=.lean)
printf 'import Verif.Conformance.Machine\n#eval Auburn.Replay.result\n#eval Auburn.Machine.result\n' > "$f"
lake env lean "$f"; rm -f "$f"
