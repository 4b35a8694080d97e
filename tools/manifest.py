"""Regenerate MANIFEST.json: statuses and notes are kept here, theorem names are collected
from the sources by their Cnn_ prefix (or bare Cnn name)."""
import json, os, re, sys
root = os.path.dirname(os.path.dirname(os.path.abspath(__file__)))
notes = json.load(open(os.path.join(root, "tools", "claims.json")))
thms = {}
d = os.path.join(root, "lean/Verif/Props")
for f in sorted(os.listdir(d)):
    src = open(os.path.join(d, f)).read()
    ns = re.search(r"^namespace (\S+)", src, re.M).group(1)
    for m in re.finditer(r"^theorem ((C\d\d+)_\S+)", src, re.M):
        thms.setdefault(m.group(2), []).append(ns + "." + m.group(1))
claims = []
for line in open(os.path.join(root, "properties.jsonl")):
    pid = json.loads(line)["id"]
    if pid not in notes:
        continue
    n = notes[pid]
    claims.append({"property": pid, "status": n["status"], "theorems": thms.get(pid, []), "note": n["note"]})
json.dump({"claims": claims}, open(os.path.join(root, "MANIFEST.json"), "w"), indent=1)
print(len(claims), "claims;", sorted(set(thms) - set(notes)), "without a note")
