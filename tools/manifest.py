"""Rewrite MANIFEST.json from the theorem names in lean/Verif/Props and the notes below."""
import glob, json, os, re

root = os.path.dirname(os.path.dirname(os.path.abspath(__file__)))
notes = json.load(open(os.path.join(root, "tools", "notes.json")))
props = [json.loads(l) for l in open(os.path.join(root, "properties.jsonl")) if l.strip()]
thms = {}
for f in sorted(glob.glob(os.path.join(root, "lean/Verif/Props/*.lean"))):
    for line in open(f):
        m = re.match(r"theorem (C\d+)_(\S+)", line)
        if m:
            name = "PcSaft.Props.%s_%s" % (m.group(1), m.group(2))
            thms.setdefault(m.group(1), []).append(name)
claims = []
for p in props:
    t = thms.get(p["id"], [])
    if not t:
        continue
    partial = any(x.endswith("_partial") for x in t)
    claims.append({"property": p["id"], "status": "partial" if partial else "proved",
                   "theorems": t, "note": notes.get(p["id"], "")})
unknown = set(thms) - {p["id"] for p in props}
assert not unknown, unknown
json.dump({"claims": claims}, open(os.path.join(root, "MANIFEST.json"), "w"), indent=1, ensure_ascii=False)
print(len(claims), "of", len(props), "missing:", [p["id"] for p in props if p["id"] not in thms])
