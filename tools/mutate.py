#!/usr/bin/env python3
"""Seeded-bug testing. Usage: mutate.py SPEC.json
SPEC is a list of {file, definition, old, new, edit, claim, expect}. For each entry the Lean project is copied to
a scratch directory, the edit is made, the project is rebuilt, and one line is appended to seeded/LOG.jsonl with
the theorems that no longer compile (directly, or because they import one that does not). With --fast the build is
stopped after the first module that fails."""
import json, os, re, signal, subprocess, sys, shutil
sys.path.insert(0, os.path.dirname(os.path.abspath(__file__)))
from depgraph import dependents

ROOT = os.path.join(os.path.dirname(os.path.abspath(__file__)), "..")
SCRATCH = "/tmp/mut"

def decl_at(path, line):
    name = "?"
    for i, l in enumerate(open(path), 1):
        if i > line: break
        m = re.match(r"\s*(?:@\[[^\]]*\]\s*)?(?:private |noncomputable |protected )*(theorem|lemma|def|example|instance|structure)\s*(\S*)", l)
        if m: name = m.group(2) if m.group(1) != "example" else "example@%d" % i
    return name

class Result: pass

def build():
    r = Result()
    p = subprocess.Popen(["lake", "build", "Verif"], cwd=SCRATCH, stdout=subprocess.PIPE, stderr=subprocess.STDOUT, text=True,
                         start_new_session=True)
    r.stdout, r.stderr = "", ""
    for line in p.stdout:
        r.stdout += line
        if "--fast" in sys.argv and line.startswith("error: Lean exited"):
            os.killpg(p.pid, signal.SIGKILL)
            break
    r.returncode = p.wait()
    return r

def main():
    specs = json.load(open(sys.argv[1]))
    for sp in specs:
        s = open(os.path.join(ROOT, "lean", sp["file"])).read()
        if s.count(sp["old"]) < 1:
            print("NOT FOUND", sp["file"], sp["old"]); continue
        if "--check" in sys.argv:
            continue
        shutil.rmtree(SCRATCH, ignore_errors=True)
        subprocess.run(["cp", "-a", ROOT + "/lean", SCRATCH], check=True)
        p = os.path.join(SCRATCH, sp["file"])
        s = s.replace(sp["old"], sp["new"], 1)
        open(p, "w").write(s)
        r = build()
        out = r.stdout + r.stderr
        failed = []
        for m in re.finditer(r"error: (Verif/[^:]*\.lean):(\d+):", out):
            d = decl_at(os.path.join(SCRATCH, m.group(1)), int(m.group(2)))
            if d not in failed: failed.append(d)
        bad = re.findall(r"^- (Verif[\w.]*)", out, re.M)
        rec = {"definition": sp["definition"], "edit": sp["edit"], "claim": sp["claim"],
               "failed": failed, "properties_lost": dependents(SCRATCH, failed), "modules_not_built": bad, "built": r.returncode == 0,
               "tightened": sp.get("tightened", [])}
        print(json.dumps(rec, ensure_ascii=False), flush=True)
        if any(m.group(1) == sp["file"] for m in re.finditer(r"error: (Verif/[^:]*\.lean):(\d+):", out)):
            print("   *** THE EDIT DOES NOT COMPILE ***", out[-600:], flush=True)
            continue
        if r.returncode == 0:
            print("   *** SURVIVED ***")
        if "--dry" not in sys.argv:
            with open(ROOT + "/seeded/LOG.jsonl", "a") as f:
                f.write(json.dumps(rec, ensure_ascii=False) + "\n")

main()
