#!/bin/sh
# usage: tools/milestone.sh "commit message"
set -e
cd /verif
python3 tools/mkprops.py >/dev/null; sh tools/mkroot.sh; (cd tools && python3 mkmanifest.py)
(cd lean && lake build > /tmp/milestone.log 2>&1) || { grep -E "error" /tmp/milestone.log | head; exit 1; }
git add -A; git commit -qm "$1"
vcheck
