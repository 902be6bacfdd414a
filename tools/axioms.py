"""Prints, for DESIGN.md, which axioms the manifest's theorems depend on (needs a finished build)."""
import json, os, re, subprocess

ROOT = os.path.dirname(os.path.dirname(os.path.abspath(__file__)))
man = json.load(open(os.path.join(ROOT, "MANIFEST.json")))
names = [t for c in man["claims"] for t in c["theorems"]]
src = "import Verif\n" + "\n".join(f"#print axioms {t}" for t in names)
out = subprocess.run(["lake", "env", "lean", "--stdin"], input=src, text=True, capture_output=True,
                     cwd=os.path.join(ROOT, "lean")).stdout
groups = {}
for m in re.finditer(r"'(\S+)' (?:depends on axioms: \[([^\]]*)\]|does not depend on any axioms)", out):
    ax = tuple(sorted(re.split(r",\s*", m.group(2)))) if m.group(2) else ()
    groups.setdefault(ax, []).append(m.group(1).split(".")[-1])
assert sum(map(len, groups.values())) == len(names), out[-2000:]
for ax, ts in sorted(groups.items(), key=lambda g: len(g[0])):
    print(f"* {', '.join(f'`{a}`' for a in ax) or 'no axioms'} ({len(ts)}): " + ", ".join(sorted(ts)) + ".")
