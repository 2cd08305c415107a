#!/usr/bin/env python3
"""Regenerate lean/Verif.lean (imports every module) and MANIFEST.json."""
import glob, os, runpy
root = os.path.dirname(os.path.dirname(os.path.abspath(__file__)))
os.chdir(os.path.join(root, "lean"))
mods = sorted(f[:-5].replace("/", ".") for f in glob.glob("Verif/**/*.lean", recursive=True))
open("Verif.lean", "w").write("".join(f"import {m}\n" for m in mods))
runpy.run_path(os.path.join(root, "tools", "manifest.py"))
