#!/usr/bin/env python3
"""Compares the citations in lean/Verif/Model with /repo.

For every definition: its comment cites a file and lines that exist, and the lines of one citation contain the name of the definition.
For every function in the cited source files: some definition cites lines that overlap it.
Prints what does not fit; the remaining lines have been looked at by hand (see the remarks in the model)."""
import re, glob, os, sys
REPO, MODEL = "/repo", "/verif/lean/Verif/Model"
files = {}
for root, _, fs in os.walk(REPO):
    if ".git" in root: continue
    for f in fs:
        p = os.path.join(root, f)
        rel = os.path.relpath(p, REPO)
        try: files[rel] = open(p).read().split("\n")
        except UnicodeDecodeError: pass
def resolve(name, home):
    c = [r for r in files if r == name or r.endswith("/" + name)]
    if name in c: c = [name]
    if len(c) > 1:
        d = [r for r in c if r.startswith(home)]
        if d: c = d
    return c
def pattern(x):
    return (r"^\s*(?:pub(?:\([^)]*\))? )?(?:unsafe )?(?:extern \"C\" )?fn (\w+)" if x.endswith(".rs") else r"^\s*def (\w+)" if x.endswith(".py")
        else r"^(?:static |INLINE |inline )*\w[\w\* ]*?\b(\w+)\([^;]*$" if x.endswith((".c", ".h")) else None)
def enclosing(x, line):
    for l in reversed(files[x][:line]):
        m = pattern(x) and re.match(pattern(x), l)
        if m: return re.sub("^baokeshed64_", "", m[1])
cited, seen = {}, set()
nodoc, nocite, noname, badrange = [], [], [], []
total = 0
for p in sorted(glob.glob(MODEL + "/**/*.lean", recursive=True), key=lambda p: ("/Trace" in p or "/Isa" in p, p)):
    rel = os.path.relpath(p, MODEL)
    home = "c/" if rel.startswith("C/") else "c64/" if rel.startswith("C64/") else "src/"
    s = open(p).read()
    head = re.search(r"/-!(.*?)-/", s, re.S)
    for m in re.finditer(r"(?:/--(?P<doc>(?:(?!-/).)*?)-/\s*)?(?:@\[[^\]]*\]\s*)?^(?:private |noncomputable |protected )*(?P<kw>def|abbrev|structure|inductive) (?P<name>[^\s:({\[]+)", s, re.S | re.M):
        total += 1
        name, doc = m["name"], m["doc"]
        where = f"{rel}:{s.count(chr(10), 0, m.start('name')) + 1} {name}"
        if doc is None: nodoc.append(where); continue
        cs = []
        last = None
        for c in re.finditer(r"(?:(?P<f>[\w/\.]+\.(?:rs|py|c|h|toml|md)):)?(?<![\w.\-])(?P<a>\d+)(?:-(?P<b>\d+))?", doc):
            if c["f"]: last = c["f"]
            elif not (last and re.search(r"(,|and|;)\s*$", doc[:c.start()])): continue
            cs.append((last, int(c["a"]), int(c["b"] or c["a"])))
        if not cs: nocite.append(where + "   " + " ".join(doc.split())[:90]); continue
        ok = (name.split(".")[-1], tuple(cs)) in seen
        for f, a, b in cs:
            r = resolve(f, home)
            if not r: badrange.append(f"{where}: no file {f}"); continue
            for x in r:
                if b > len(files[x]) or a > b: badrange.append(f"{where}: {f}:{a}-{b}"); continue
                cited.setdefault(x, []).append((a, b))
                text = "\n".join(files[x][a-1:b])
                base = name.split(".")[-1]
                if re.search(r"\b(baokeshed64_)?" + re.escape(base.lower()) + r"\b", text.lower()): ok = True
                # a part of a function: the comment or the name of the definition names the function in which the cited lines lie
                fn = enclosing(x, a)
                if fn and (fn in doc or base.startswith(fn)): ok = True
        if ok: seen.add((name.split(".")[-1], tuple(cs)))
        else:
            noname.append(where + "   " + " ".join(doc.split())[:110])
print(f"{total} definitions")
for t, l in ("without comment", nodoc), ("without citation", nocite), ("cited lines do not exist", badrange), ("name not in the cited lines", noname):
    print(f"\n== {t}: {len(l)}"); print("\n".join(l))
print("\n== functions without citation")
for x in sorted(files):
    if not re.match(r"(src|c|c64|reference_impl|python|baokeshed_bin/src)/|build.rs", x) or x.endswith("test.rs"): continue
    tests = next((i for i, l in enumerate(files[x], 1) if l.strip() == "#[cfg(test)]" and not files[x][i].endswith(";")), 10 ** 9)
    pat = pattern(x)
    if not pat: continue
    for i, l in enumerate(files[x], 1):
        m = re.match(pat, l)
        if m and i < tests and not l.startswith((" " * 4 + "return", "#")) and not any(a <= i + 1 and i <= b for a, b in cited.get(x, [])):
            print(f"{x}:{i} {m[1]}")
