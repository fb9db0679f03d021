#!/bin/sh
# commit.sh MESSAGE: regenerate imports and manifest, build, commit, run the gate in the background (/tmp/vcheck.out).
set -e
/verif/tools/imports.sh
(cd /verif/lean && lake build > /tmp/build.log 2>&1) || { grep -A8 "error" /tmp/build.log; exit 1; }
python3 /verif/tools/manifest.py
cd /verif && git add -A && git commit -qm "$1"
(setsid nohup vcheck > /tmp/vcheck.out 2>&1 &)
