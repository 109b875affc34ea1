#!/bin/sh
# milestone: regenerate, build, commit only if the build succeeds, check
cd /verif && python3 tools/gen_props.py && python3 tools/gen_manifest.py | tail -1 && python3 tools/gen_design.py && python3 tools/gen_coverage.py && cd lean && lake build > /tmp/ms.log 2>&1 || { grep -n "error" -A5 /tmp/ms.log | head -30; exit 1; }
cd /verif && python3 tools/gen_axioms.py && git add -A && git commit -qm "$1" && vcheck 2>&1 | tail -1
