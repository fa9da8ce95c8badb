#!/bin/bash
# regenerate properties, manifest, axioms and DESIGN after a build
set -e
cd "$(dirname "$0")/.."
python3 tools/gen_properties.py
(cd lean && lake build 2>&1 | tail -1)
python3 tools/gen_manifest.py
python3 tools/gen_axioms.py | tail -3
python3 tools/gen_design.py
