#!/usr/bin/env python3
"""Applies the wrong programs of a batch file one at a time to a scratch copy of the Lean project, rebuilds, and appends
one line per attempt to seeded/LOG.jsonl.   usage: seed.py seeded/batchN.json [index ...]
A batch is a list of {file, definition, old, new, claim[, note]}; `old` must occur exactly once in the file."""
import json, os, re, shutil, subprocess, sys
ROOT = os.path.dirname(os.path.dirname(os.path.abspath(__file__)))
SCR = "/tmp/scratch/lean"
def imports():
    g = {}
    for d, _, fs in os.walk(SCR + "/Verif"):
        for f in fs:
            if f.endswith(".lean"):
                p = os.path.join(d, f)
                m = os.path.relpath(p, SCR)[:-5].replace("/", ".")
                g[m] = re.findall(r"^import (Verif\S+)", open(p).read(), re.M)
    return g
def dependents(g, bad):
    out, ch = set(bad), True
    while ch:
        ch = False
        for m, im in g.items():
            if m not in out and any(i in out for i in im):
                out.add(m); ch = True
    return out
def enclosing(path, line):
    ls = open(os.path.join(SCR, path)).read().split("\n")
    for i in range(min(line, len(ls)) - 1, -1, -1):
        m = re.match(r"\s*(?:@\[.*?\]\s*)?(?:private |protected |noncomputable )*(theorem|lemma|def|example|instance|abbrev)\s*([^\s:({\[]*)", ls[i])
        if m:
            return m.group(2) or "%s@%s:%d" % (m.group(1), path, i + 1)
    return path
def props(g, mods):
    r = []
    for m in sorted(mods):
        if m.startswith("Verif.Props."):
            s = open(os.path.join(SCR, m.replace(".", "/") + ".lean")).read()
            r += re.findall(r"^theorem (C\d+_[^\s:({\[]*)", s, re.M)
    return r
def main():
    batch = json.load(open(sys.argv[1]))
    sel = [int(x) for x in sys.argv[2:]] or range(len(batch))
    # the committed sources with the build output of the working copy
    subprocess.run("rm -rf %s && mkdir -p %s && cp -a %s/lean %s && rm -rf %s/Verif && git -C %s archive HEAD lean | tar -x -C %s" %
                   (SCR, os.path.dirname(SCR), ROOT, SCR, SCR, ROOT, os.path.dirname(SCR)), shell=True, check=True)
    for k in sel:
        m = batch[k]
        p = os.path.join(SCR, m["file"])
        s = open(p).read()
        if s.count(m["old"]) != 1:
            print(k, "SKIP: pattern occurs", s.count(m["old"]), "times:", m["old"][:60]); continue
        open(p, "w").write(s.replace(m["old"], m["new"]))
        # only the modules that (transitively) import the edited file can change, examples included
        mod = m["file"][:-5].replace("/", ".")
        g = imports()
        targets = sorted(dependents(g, [mod]) - {"Verif"})
        # a proof that no longer goes through may also run out of time or memory
        r = subprocess.run(["timeout", "1500", "lake", "build"] + targets, cwd=SCR, capture_output=True, text=True)
        out = r.stdout + r.stderr
        errs = re.findall(r"^error: (Verif/\S+?\.lean):(\d+):\d+: (.*)", out, re.M)
        failed = []
        for f, l, _ in errs:
            n = enclosing(f, int(l))
            if n not in failed: failed.append(n)
        if r.returncode and not failed:
            failed = ["%s (no error reported: out of time or memory)" % t for t in re.findall(r"^- (Verif\S+)", out, re.M) or ["build"]]
        badmods = {f[:-5].replace("/", ".") for f, _, _ in errs}
        blocked = dependents(g, badmods) - badmods
        open(p, "w").write(s)
        self_broken = mod in badmods
        rec = dict(definition=m["definition"], file=m["file"], edit="%s  ==>  %s" % (m["old"].strip(), m["new"].strip()),
                   claim=m["claim"], failed=failed, blocked=[x for x in props(g, blocked) if x not in failed], tightened=m.get("tightened", []))
        if m.get("note"): rec["note"] = m["note"]
        status = "INVALID" if self_broken else ("killed" if failed else "SURVIVED")
        rec["result"] = "caught" if failed else "survived"
        print(k, status, m["definition"], "->", failed[:6], "blocked", len(rec["blocked"]), flush=True)
        if self_broken: print(out[:1500])
        else:
            with open(ROOT + "/seeded/LOG.jsonl", "a") as fh: fh.write(json.dumps(rec, ensure_ascii=False) + "\n")
main()
