# Single source for properties.jsonl, MANIFEST.json and the table in DESIGN.md.
# Run: python3 tools/props.py   (from /verif)
import json, os, re
P = []
def p(id, title, statement, quantifier, why, anchors, plan, status="planned", theorems=(), note=""):
    P.append(dict(id=id, title=title, statement=statement, quantifier=quantifier, why_tests_cant=why,
                  anchors=anchors, plan=plan, status=status, theorems=list(theorems), note=note))
here = os.path.dirname(os.path.abspath(__file__))
for f in sorted(os.listdir(os.path.join(here, "props.d"))):
    if f.endswith(".py"):
        exec(compile(open(os.path.join(here, "props.d", f)).read(), f, "exec"))
root = os.path.dirname(here)
# tools/status.txt: "C01 | proved | thm1 thm2 | note"
ST = {}
for line in open(os.path.join(here, "status.txt")):
    line = line.strip()
    if not line or line.startswith("#"): continue
    a = [x.strip() for x in line.split("|", 3)]
    ST[a[0]] = (a[1], a[2].split(), a[3] if len(a) > 3 else "")
for e in P:
    if e["id"] in ST: e["status"], e["theorems"], e["note"] = ST[e["id"]]
assert not set(ST) - {e["id"] for e in P}
# every theorem must exist in some Lean file: resolve the namespace
decl = {}
for d, _, fs in os.walk(os.path.join(root, "lean", "Verif")):
    for f in fs:
        if not f.endswith(".lean"): continue
        ns = []
        for l in open(os.path.join(d, f)):
            m = re.match(r"namespace (\S+)", l)
            if m: ns.append(m.group(1))
            m = re.match(r"end (\S+)", l)
            if m and ns and ns[-1] == m.group(1): ns.pop()
            m = re.match(r"theorem (\S+)", l)
            if m: decl.setdefault(m.group(1), []).append(".".join(ns + [m.group(1)]))
for e in P:
    full = []
    for t in e["theorems"]:
        assert t in decl and len(decl[t]) == 1, (e["id"], t, decl.get(t))
        full.append(decl[t][0])
    e["theorems"] = full
P.sort(key=lambda e: int(e["id"][1:]))
assert len({e["id"] for e in P}) == len(P)
with open(os.path.join(root, "properties.jsonl"), "w") as o:
    for e in P:
        o.write(json.dumps({k: e[k] for k in ("id", "title", "statement", "quantifier", "why_tests_cant", "anchors")}) + "\n")
claims = []
for e in P:
    if e["status"] == "planned": continue
    claims.append(dict(property=e["id"], status=e["status"], theorems=e["theorems"], note=e["note"]))
json.dump({"claims": claims}, open(os.path.join(root, "MANIFEST.json"), "w"), indent=1)
head = open(os.path.join(here, "design_head.md")).read()
with open(os.path.join(root, "DESIGN.md"), "w") as o:
    o.write(head)
    o.write("\n## Property by property\n\n")
    for e in P:
        o.write(f"### {e['id']} {e['title']}\n\n{e['statement']}\n\n*Model and proof.* {e['plan']}\n\n*Status.* {e['status']}")
        if e["theorems"]: o.write(": " + ", ".join(f"`{t}`" for t in e["theorems"]))
        o.write(".")
        if e["note"]: o.write(" " + e["note"])
        o.write("\n\n")
print(len(P), "properties;", len(claims), "claims")
