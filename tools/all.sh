#!/bin/sh
# Regenerate the derived files and build.
cd "$(dirname "$0")/.." && python3 tools/gen_props.py && sh tools/gen_root.sh && python3 tools/gen_manifest.py && cd lean && lake build 2>&1 | grep -v '^✔\|trace' | tail -${1:-30}
