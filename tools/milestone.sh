#!/bin/sh
# build, refresh the manifest, list the axioms, commit with message $1
cd /verif/lean
timeout 2400 lake build > /tmp/build.out 2>&1 || { grep -A6 "error" /tmp/build.out | head -30; echo "BUILD FAILED"; exit 1; }
cd /verif && python3 tools/mkmanifest.py && python3 tools/mkaxioms.py
cd /verif && git add -A && git commit -qm "$1"
