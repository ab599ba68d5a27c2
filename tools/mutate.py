#!/usr/bin/env python3
"""Tests the theorems against wrong programs.

Takes a Python file defining `M`, a list of dicts with keys file, old, new, definition, edit, claim,
targets.  Each edit is applied to a scratch copy of the Lake project, the target modules are built,
and the theorems that no longer hold are collected: those with errors, and the property theorems
(of the manifest) whose proofs use them.  Appends one line per edit to seeded/LOG.jsonl.

usage: mutate.py MUTATIONS.py [LOG]     (needs /tmp/mut/deps.txt, see deps.lean.txt)
"""
import json, os, re, runpy, shutil, subprocess, sys, collections

SRC = "/verif/lean"
BASE = "/tmp/mut/base"
WORK = "/tmp/mut/work"
DECL = re.compile(r"^(?:@\[[^\]]*\]\s*)*(?:private |protected |noncomputable |local )*"
                  r"(theorem|lemma|def|instance|example|abbrev|structure|inductive)\b\s*(\S*)")

def load_deps():
    mod, uses = collections.defaultdict(set), {}
    for l in open("/tmp/mut/deps.txt"):
        m, n, us = l.rstrip("\n").split("\t")
        mod[m].add(n)
        uses.setdefault(n, set()).update(us.split())
    rev = collections.defaultdict(set)
    for n, us in uses.items():
        for u in us: rev[u].add(n)
    return mod, rev

def closure(rev, start):
    seen, st = set(start), list(start)
    while st:
        for r in rev.get(st.pop(), ()):
            if r not in seen:
                seen.add(r); st.append(r)
    return seen

def decl_at(path, line):
    ls = open(path).read().split("\n")
    for i in range(min(line, len(ls)) - 1, -1, -1):
        m = DECL.match(ls[i])
        if m: return m.group(1), m.group(2)
    return None, None

def drop_examples(path, lines):
    """Removes the examples in which errors were reported, from their first line to the next blank line."""
    ls = open(path).read().split("\n")
    for l in sorted(lines, reverse=True):
        i = min(l, len(ls)) - 1
        while i > 0 and not DECL.match(ls[i]): i -= 1
        j = i
        while j < len(ls) and ls[j].strip(): j += 1
        while i > 0 and ls[i - 1].strip(): i -= 1      # its comment
        for k in range(i, j): ls[k] = ""
    open(path, "w").write("\n".join(ls))

def main():
    muts = runpy.run_path(sys.argv[1])["M"]
    log = sys.argv[2] if len(sys.argv) > 2 else "/verif/seeded/LOG.jsonl"
    man = json.load(open("/verif/MANIFEST.json"))
    props = {t for c in man["claims"] for t in c["theorems"]}
    mod, rev = load_deps()
    done = set()
    if os.path.exists(log):
        done = {(d["definition"], d["edit"]) for d in map(json.loads, open(log))}
    for m in muts:
        if (m["definition"], m["edit"]) in done: continue
        if os.path.exists(WORK): shutil.rmtree(WORK)
        subprocess.run(["cp", "-a", BASE, WORK], check=True)
        p = os.path.join(WORK, m["file"])
        s = open(p).read()
        if s.count(m["old"]) != m.get("count", 1):
            print("BAD", m["definition"], m["edit"], s.count(m["old"])); continue
        open(p, "w").write(s.replace(m["old"], m["new"]))
        names, examples, out = set(), 0, ""
        # A failing example hides the theorems after it in other modules: take it out and go on.
        for _ in range(4):
            try:
                r = subprocess.run(["nice", "lake", "build"] + m["targets"], cwd=WORK,
                                   capture_output=True, text=True, timeout=m.get("timeout", 1500))
                out = r.stdout + r.stderr
            except subprocess.TimeoutExpired as e:
                out = (e.stdout or b"").decode() + "\nerror: TIMEOUT"
                subprocess.run("pkill -f /tmp/mut/work", shell=True)
            again = collections.defaultdict(set)
            for f, l in re.findall(r"^error: (\S+?\.lean):(\d+):\d+", out, re.M):
                kind, n = decl_at(os.path.join(WORK, f), int(l))
                md = f[:-5].replace("/", ".")
                if kind == "example": again[f].add(int(l))
                elif n:
                    full = [x for x in mod[md] if x == n or x.endswith("." + n)]
                    names.update(full or [md + ":" + n])
            examples += sum(map(len, again.values()))
            if names or not again: break
            for f, ls in again.items(): drop_examples(os.path.join(WORK, f), ls)
        lost = sorted(props & closure(rev, names))
        rec = {"definition": m["definition"], "edit": m["edit"], "claim": m["claim"],
               "theorems_failed": sorted(names), "examples_failed": examples,
               "property_theorems_lost": lost, "theorems_tightened": []}
        if "TIMEOUT" in out: rec["note"] = "some proofs ran into the time limit"
        if not names and not examples:
            rec["note"] = "NOTHING FAILED"
        with open(log, "a") as h: h.write(json.dumps(rec) + "\n")
        print(m["definition"], "|", m["edit"], "|", len(names), lost[:4], rec.get("note", ""), flush=True)

main()
