"""Writes MANIFEST.json: theorem names are collected from lean/Verif/Props by property prefix.

A claim is "partial" if it is listed in NOTES with status partial; every theorem whose name
starts with the property id is listed.
"""
import json, os, re, sys

ROOT = os.path.dirname(os.path.dirname(os.path.abspath(__file__)))
sys.path.insert(0, os.path.join(ROOT, "tools"))
from notes import NOTES  # noqa: E402

thms = {}
for d, _, fs in os.walk(os.path.join(ROOT, "lean/Verif/Props")):
    for f in sorted(fs):
        ns = []
        for line in open(os.path.join(d, f)):
            m = re.match(r"namespace (\S+)", line)
            if m:
                ns.append(m.group(1))
            m = re.match(r"end (\S+)", line)
            if m and ns and ns[-1] == m.group(1):
                ns.pop()
            m = re.match(r"(?:private |protected )?theorem ((C\d{2,3})\S*)", line)
            if m:
                thms.setdefault(m.group(2), []).append(".".join(ns + [m.group(1)]))
claims = []
for line in open(os.path.join(ROOT, "properties.jsonl")):
    pid = json.loads(line)["id"]
    if pid not in thms:
        continue
    status, note = NOTES.get(pid, ("proved", ""))
    claims.append({"property": pid, "status": status, "theorems": sorted(thms[pid]), "note": note})
with open(os.path.join(ROOT, "MANIFEST.json"), "w") as f:
    f.write('{"claims": [\n' + ",\n".join(json.dumps(c) for c in claims) + "\n]}\n")
print(len(claims), "claims,", sum(len(c["theorems"]) for c in claims), "theorems")
