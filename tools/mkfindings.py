#!/usr/bin/env python3
"""Fills section 5 of DESIGN.md with the theorems that refute a property, taken from the sources."""
import re, glob, os
root = os.path.join(os.path.dirname(os.path.abspath(__file__)), "..")
rows = []
for f in sorted(glob.glob(root + "/lean/Verif/**/*.lean", recursive=True)):
    t = open(f).read()
    for m in re.finditer(r"/--((?:(?!-/).)*)-/\s*theorem (C\d\d_\S*(?:counterexample|_wrong|_avx)\S*)", t, re.S):
        ns = re.findall(r"^namespace (\S+)", t[:m.start()], re.M)
        ns = ns[-1] if ns[-1].startswith("Verif") else ns[0] + "." + ns[-1]
        doc = re.sub(r"\s+", " ", m.group(1)).strip().replace("|", "\\|").lstrip(". ")
        rows.append((m.group(2)[:3], ns + "." + m.group(2), doc))
rows.sort()
out = "| id | theorem | what goes wrong |\n|----|---------|-----------------|\n"
out += "".join(f"| {a} | `{b}` | {c} |\n" for a, b, c in rows)
p = root + "/DESIGN.md"
t = open(p).read()
a, b = "<!-- findings -->\n", "<!-- end findings -->\n"
i, j = t.index(a) + len(a), t.index(b)
open(p, "w").write(t[:i] + out + t[j:])
print(len(rows))
