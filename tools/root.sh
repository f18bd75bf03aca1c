#!/bin/sh
# Regenerate lean/Verif.lean: one import per module.
cd "$(dirname "$0")/../lean" && find Verif -name '*.lean' | sort | sed 's/\.lean$//; s#/#.#g; s/^/import /' > Verif.lean
