#!/bin/bash
# Compares the answers of the model with brute force on random shapes (lean/Verif/Conformance/Claims.lean).
cd "$(dirname "$0")/../lean" || exit 1
f=$(mktemp --suffix=.lean)
printf 'import Verif.Conformance.Claims\n#eval Auburn.Claims.result %s\n' "${1:-200}" > "$f"
lake env lean "$f"; rm -f "$f"
