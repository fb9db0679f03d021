#!/bin/sh
# Regenerate Verif.lean from the modules present.
cd /verif/lean && find Verif -name '*.lean' | sort | sed 's#/#.#g; s#\.lean$##; s#^#import #' > Verif.lean
