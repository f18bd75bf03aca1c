"""Write MANIFEST.json from the theorems in lean/Verif/Props: names, and for the notes the
docstrings of the partial and negative ones. tools/notes.json may override notes."""
import json, re, pathlib
root = pathlib.Path(__file__).resolve().parent.parent
notes = json.loads((root / "tools/notes.json").read_text())
ids = [json.loads(l)["id"] for l in (root / "properties.jsonl").read_text().splitlines() if l.strip()]
thms = {i: [] for i in ids}
docs = {}
for f in sorted((root / "lean/Verif/Props").glob("*.lean")):
    text = f.read_text()
    space = re.search(r"^namespace (\S+)", text, re.M).group(1)
    for m in re.finditer(r"^theorem\s+(C\d\d+)_(\S+)", text, re.M):
        thms[m.group(1)].append(f"{space}.{m.group(1)}_{m.group(2)}")
    for m in re.finditer(r"/--((?:(?!-/).)*)-/\s*theorem\s+(C\d\d+_\S+)", text, re.S):
        docs[space + "." + m.group(2)] = " ".join(m.group(1).split())
claims = []
for i in ids:
    n = notes.get(i, {})
    if not thms[i] and n.get("status") != "not_applicable":
        continue
    partial = any(t.endswith("_partial") or "_violated" in t for t in thms[i])
    status = n.get("status") or ("partial" if partial else "proved")
    note = n.get("note")
    if note is None:
        parts = []
        for t in thms[i]:
            short, doc = t.rsplit(".", 1)[1], docs.get(t, "")
            if t.endswith("_partial"):
                m = re.search(r"(Missing|Partial): (.*)", doc)
                word = {"Missing": "lacks", "Partial": "is partial"}
                parts.append(f"{short} {word[m.group(1)]}: {m.group(2)}" if m else f"{short}: {doc}")
            elif "_violated" in t:
                parts.append(f"{short} (the code does not have the property): {doc}")
        note = " ".join(parts)
    claims.append({"property": i, "status": status, "theorems": thms[i], "note": note})
(root / "MANIFEST.json").write_text(json.dumps({"claims": claims}, indent=1, ensure_ascii=False) + "\n")
print(len(claims), "claims;", sum(len(t) for t in thms.values()), "theorems; missing:",
      [i for i in ids if i not in {c["property"] for c in claims}])
