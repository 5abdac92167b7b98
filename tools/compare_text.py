#!/usr/bin/env python3
"""Compare definitions of the model with the source lines they cite, token by token.

For every definition in the given files under lean/Verif/Model whose comment cites a file and lines of /repo, print how the
sequence of identifiers and numbers of the definition differs from that of the cited lines.  Meant for the vector code, which the
model repeats nearly literally: a wrong intrinsic, immediate or operand shows up as a replacement.  A reading aid, not a proof.

usage: tools/compare_text.py C/Avx2.lean C64/Neon.lean Sse41.lean ...
"""
import difflib, os, re, sys

REPO = "/repo"
MODEL = os.path.join(os.path.dirname(os.path.abspath(__file__)), "..", "lean", "Verif", "Model")
SKIP = set("let const m128i m256i m512i static inline INLINE void uint32_t uint64_t uint8_t size_t mut unsafe fn def R return do ok "
           "M128 M256 M512 Vector U64 Word Byte int32_t int64_t get".split())

sources = {}
for d, _, fs in os.walk(REPO):
    for f in fs:
        if f.endswith((".rs", ".c", ".h", ".py")):
            sources.setdefault(f, []).append(os.path.join(d, f))

def tokens(t):
    r = []
    for x in re.findall(r"0x[0-9A-Fa-f]+|[A-Za-z]\w*|\d+", t):
        if x in SKIP:
            continue
        x = str(int(x, 16)) if x.startswith("0x") else x
        x = re.sub(r"castps_si128|castsi128_ps", "", x)
        if x != "mm_":
            r.append(x)
    return r

def compare(path):
    text = open(os.path.join(MODEL, path)).read()
    for m in re.finditer(r"/--(.*?)-/\s*\n((?:@\[.*\]\n)?(?:def|abbrev) .*?)(?=\n\n|\nend )", text, flags=re.S):
        doc, body = m.groups()
        name = re.match(r"(?:@\[.*\]\n)?\w+ (\S+)", body).group(1)
        c = re.search(r"(\w+\.(?:rs|c|h|py)):(\d+)(?:-(\d+))?", doc)
        if not c:
            print("no citation", path, name)
            continue
        files = sources[c.group(1)]
        files = [f for f in files if ("/c64/" in f) == ("C64" in path)] or files
        a, b = int(c.group(2)), int(c.group(3) or c.group(2))
        src = "\n".join(open(files[0]).read().split("\n")[a - 1:b])
        src = re.sub(r"//.*", "", re.sub(r"/\*.*?\*/", "", src, flags=re.S))
        src = re.sub(r"\b_+", "", src)
        src = re.sub(r"\b(v|m|out|vecs|h_vecs|inputs|msg_vecs)\[(\d+)\]", r"\1\2", src)
        i = src.find("{")
        x = tokens(src[i:] if i >= 0 and name in src[:i] else src)
        body = re.sub(r"--.*", "", body)
        y = tokens(body[body.find(":="):])
        if x == y:
            print("same", path, name)
            continue
        sm = difflib.SequenceMatcher(None, x, y, autojunk=False)
        print(f"differs {path} {name} [{c.group(0)}] similarity {sm.ratio():.2f}")
        if sm.ratio() > 0.6:
            for t, i1, i2, j1, j2 in sm.get_opcodes():
                if t != "equal":
                    print("   ", t, "|", " ".join(x[i1:i2])[:60], "|", " ".join(y[j1:j2])[:60])

for p in sys.argv[1:]:
    compare(p)
