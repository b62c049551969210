"""Which property theorems (names starting with C and two digits) use, directly or through lemmas, one of the
given declarations. Works on the text of the sources: a theorem uses the names that occur in it, and it can use
only what stands above it or in an imported module. For a name with a dot, the last part after a dot and the part
before must both occur."""
import glob, os, re

DECL = re.compile(r"^\s*(?:@\[[^\]]*\]\s*)?(?:private |noncomputable |protected )*(theorem|lemma|def|example|instance|structure|inductive|abbrev)\s*(\S*)")

def read(root):
    decls, imports = [], {}
    for p in sorted(glob.glob(os.path.join(root, "Verif", "**", "*.lean"), recursive=True)):
        mod = os.path.relpath(p, root)[:-5].replace("/", ".")
        imports[mod] = set()
        cur = None
        for i, l in enumerate(open(p), 1):
            m = re.match(r"import (Verif\S*)", l)
            if m: imports[mod].add(m.group(1))
            m = DECL.match(l)
            if m:
                cur = {"kind": m.group(1), "name": m.group(2) if m.group(1) != "example" else "example@%d" % i,
                       "mod": mod, "line": i, "text": ""}
                decls.append(cur)
            if cur: cur["text"] += l
    clo = {}
    def closure(m):
        if m not in clo:
            clo[m] = set()
            for k in imports.get(m, ()): clo[m] |= {k} | closure(k)
        return clo[m]
    for m in list(imports): closure(m)
    for d in decls: d["toks"] = set(re.findall(r"[\w'₀-₉.]+", d["text"]))
    return decls, clo

def uses(d, f, clo):
    if f["mod"] != d["mod"] and f["mod"] not in clo[d["mod"]]: return False
    if f["mod"] == d["mod"] and f["line"] >= d["line"]: return False
    n = f["name"]
    if n in d["toks"]: return True
    if "." in n:
        pre, last = n.rsplit(".", 1)
        pre = pre.split(".")[-1]
        return any(t.endswith("." + last) for t in d["toks"]) and re.search(r"\b%s\b" % re.escape(pre), d["text"]) is not None
    return any(t.endswith("." + n) for t in d["toks"])

def dependents(root, failed):
    decls, clo = read(root)
    thms = [d for d in decls if d["kind"] in ("theorem", "lemma")]
    bad = [d for d in thms if d["name"] in failed]
    names, todo = {id(d) for d in bad}, list(bad)
    while todo:
        f = todo.pop()
        for d in thms:
            if id(d) not in names and uses(d, f, clo):
                names.add(id(d)); todo.append(d)
    return sorted({d["name"] for d in thms if id(d) in names and re.match(r"C\d\d_", d["name"])})
