#!/usr/bin/env python3
"""Regenerate lean/Verif.lean (imports of every module) and MANIFEST.json."""
import glob, os, subprocess, sys
root = os.path.dirname(os.path.dirname(os.path.abspath(__file__)))
mods = []
for d in ("Model", "Spec", "Proofs", "Props"):
    for f in sorted(glob.glob(os.path.join(root, "lean/Verif", d, "*.lean"))):
        mods.append("import Verif.%s.%s" % (d, os.path.basename(f)[:-5]))
open(os.path.join(root, "lean/Verif.lean"), "w").write("\n".join(mods) + "\n")
subprocess.run([sys.executable, os.path.join(root, "tools/gen_manifest.py")], check=True)
