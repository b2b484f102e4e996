"""Regenerate MANIFEST.json from the theorem names in the Props files and scripts/notes.json."""
import glob, json, os, re

root = os.path.dirname(os.path.dirname(os.path.abspath(__file__)))
names = {}
for f in sorted(glob.glob(root + "/lean/Verif/**/Props*.lean", recursive=True)):
    for m in re.finditer(r"^theorem (C(\d\d\d?)_\w+)", open(f).read(), re.M):
        names.setdefault("C" + m.group(2), []).append("ML." + m.group(1))
notes = json.load(open(root + "/scripts/notes.json"))
claims = []
for line in open(root + "/properties.jsonl"):
    pid = json.loads(line)["id"]
    if pid not in names:
        continue
    entry = notes.get(pid, {})
    claims.append({
        "property": pid,
        "status": entry.get("status", "proved"),
        "theorems": names[pid],
        "note": entry.get("note", ""),
    })
json.dump({"claims": claims}, open(root + "/MANIFEST.json", "w"), indent=1)
print(len(claims), "claims", sum(len(c["theorems"]) for c in claims), "theorems")
