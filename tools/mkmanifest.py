#!/usr/bin/env python3
"""Write lean/Verif.lean and MANIFEST.json from the theorem files (run from anywhere)."""
import json, pathlib, re

root = pathlib.Path(__file__).resolve().parent.parent
lean = root / "lean"
mods = sorted(".".join(p.relative_to(lean).with_suffix("").parts) for p in (lean / "Verif").rglob("*.lean"))
(lean / "Verif.lean").write_text("".join(f"import {m}\n" for m in mods))

found, docs = {}, {}
for p in sorted((lean / "Verif" / "Props").rglob("*.lean")):
    ns = []
    for m in re.finditer(r"/--((?:(?!-/).)*?)-/\s*\ntheorem (C\d\d_\w*)", p.read_text(), re.S):
        docs[m[2]] = " ".join(m[1].split()).replace("**", "").replace("`", "")
    for line in p.read_text().splitlines():
        if m := re.match(r"namespace (\S+)", line):
            ns.append(m[1])
        elif m := re.match(r"end (\S+)", line):
            if ns and ns[-1] == m[1]:
                ns.pop()
        elif m := re.match(r"theorem (C\d\d)_(\S+)", line):
            found.setdefault(m[1], []).append(".".join(ns + [f"{m[1]}_{m[2]}"]))

notes = json.loads((root / "tools" / "notes.json").read_text())
claims = []
for line in (root / "properties.jsonl").read_text().splitlines():
    i = json.loads(line)["id"]
    ths = found.get(i, [])
    note = notes.get(i, {})
    if ths:
        status = note.get("status") or ("partial" if any(t.endswith("_partial") or "counterexample" in t for t in ths) else "proved")
    else:
        status = note.get("status", "not_applicable")
    auto = ""
    if status == "partial":
        parts = []
        for t in ths:
            short = t.split(".")[-1]
            doc = docs.get(short, "")
            if short.endswith("_partial") and (m := re.search(r"(?:Missing|What is missing)[^:]*:.*", doc)):
                parts.append(f"{short}: {m[0]}")
            elif "counterexample" in short:
                parts.append(f"{short}: {doc}")
        auto = " ".join(parts)
    claims.append({"property": i, "status": status, "theorems": ths,
                   "note": note.get("note", auto if ths else "not yet modelled")})
(root / "MANIFEST.json").write_text(json.dumps({"claims": claims}, indent=1, ensure_ascii=False) + "\n")
for s in ("proved", "partial", "not_applicable"):
    print(s, sum(c["status"] == s for c in claims))
