#!/bin/bash
# regenerate, build, commit; usage: milestone.sh "message"
set -e
cd /verif
python3 tools/mkprops.py; python3 tools/mkmanifest.py; python3 tools/mkcoverage.py >/dev/null; python3 tools/mkdesign.py
cd lean && lake build 2>&1 | grep -E "error:|depends on axioms.*(sorry|native)" && exit 1
cd .. && git add -A && git commit -qm "$1" && vcheck 2>&1 | tail -1
