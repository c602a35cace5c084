#!/usr/bin/env python3
"""Writes MANIFEST.json. Each entry: property id, status, note; theorem names are found in Verif/Props by prefix."""
import json, re, glob, os
root = os.path.dirname(os.path.dirname(os.path.abspath(__file__)))
names = {}
for f in sorted(glob.glob(root + "/lean/Verif/Props/*.lean")):
    ns = []
    for line in open(f):
        m = re.match(r"namespace (\S+)", line)
        if m: ns.append(m.group(1))
        m = re.match(r"end (\S+)", line)
        if m and ns and ns[-1] == m.group(1): ns.pop()
        m = re.match(r"theorem (C(\d+)_\S+)", line)
        if m: names.setdefault("C" + m.group(2), []).append(".".join(ns + [m.group(1)]))
status = {}
for line in open(root + "/tools/status.txt"):
    line = line.rstrip("\n")
    if not line or line.startswith("#"): continue
    pid, st, note = line.split("|", 2)
    status[pid.strip()] = (st.strip(), note.strip())
claims = []
for line in open(root + "/properties.jsonl"):
    pid = json.loads(line)["id"]
    if pid not in status:
        if pid in names: print("no status for", pid)
        continue
    st, note = status[pid]
    th = names.get(pid, [])
    if st != "not_applicable" and not th: print("no theorems for", pid); continue
    claims.append({"property": pid, "status": st, "theorems": th, "note": note})
json.dump({"claims": claims}, open(root + "/MANIFEST.json", "w"), indent=1, ensure_ascii=False)
print(len(claims), "claims,", sum(len(c["theorems"]) for c in claims), "theorems")
