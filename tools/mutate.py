#!/usr/bin/env python3
"""Mutation testing of the model.

Usage: mutate.py MUTANTS.jsonl [LOG.jsonl] [only-id ...]

Every line of MUTANTS.jsonl is {"id", "file", "def", "old", "new", "claim"}: in a scratch copy (/tmp/mut/work) the text
`old` of lean/Verif/<file> is replaced by `new` (it must occur once, or once after the name in `def`).  The copy is built;
a declaration that no longer checks is silenced (`#guard_msgs (drop error) in`, Lean then records it with `sorryAx`) so
that the modules importing it are still checked; in the end the property theorems that depend on `sorryAx` or another axiom
beyond the usual three, or are gone, are the ones that failed.  Ids already in the log are skipped.

With FAST=1 only the modules with the theorems of the properties named in the claim (and what they import) are built
first; when one of these theorems fails the mutant is done ("checked" in the log says so).  ROOT is the scratch directory.
Several runs with the same LOG and different ROOTs share the work: each takes a mutant by making LOG.d/<id>.
"""
import json, os, re, subprocess, sys, shutil, time

ROOT = os.environ.get("ROOT", "/tmp/mut")
SRC, BASE, WORK = "/verif/lean", os.environ.get("BASE", ROOT + "/pristine"), ROOT + "/work"
DECL = re.compile(r"^(@\[[^\]]*\]\s*)*(private |protected |noncomputable |nonrec )*(theorem|lemma|def|example|instance|abbrev|structure|inductive)\b")

def sh(cmd, cwd=None):
    return subprocess.run(cmd, shell=True, cwd=cwd, capture_output=True, text=True)

def build(targets=""):
    r = sh("taskset -c %s lake build %s 2>&1" % (os.environ.get("CPUS", "0-3"), targets), WORK)
    errs = {}
    for m in re.finditer(r"^error: (Verif/\S+\.lean):(\d+):\d+: (.*)$", r.stdout, re.M):
        errs.setdefault(m.group(1), set()).add(int(m.group(2)))
    return r.returncode, errs, r.stdout

def owner(lines, ln):
    """index of the first line of the declaration around line ln (1-based), and its name"""
    i = min(ln, len(lines)) - 1
    while i >= 0 and not DECL.match(lines[i]):
        i -= 1
    if i < 0:
        return None
    d = DECL.match(lines[i])
    rest = lines[i][d.end():].split()
    name = d.group(3) + " " + (rest[0] if rest else "?")
    j = i
    while j > 0:
        p = lines[j-1]
        if re.match(r"^(@\[|set_option .* in\s*$|open .* in\s*$|omit .* in\s*$|include .* in\s*$)", p):
            j -= 1
        elif p.rstrip().endswith("-/"):
            k = j - 1
            while k > 0 and "/--" not in lines[k] and "/-!" not in lines[k]:
                k -= 1
            if lines[k].lstrip().startswith("/--"):
                j = k
            else:
                break
        else:
            break
    return j, name

def theorems(ids=None):
    man = json.load(open(os.path.join(BASE, "MANIFEST.json")))
    out = []
    for c in man["claims"]:
        if ids is None or c["property"] in ids:
            out += c["theorems"]
    return sorted(set(out))

def modules(names):
    """the modules that declare these theorems"""
    short, out = {n.split(".")[-1] for n in names}, set()
    for d, _, fs in os.walk(os.path.join(WORK, "Verif")):
        for f in fs:
            if f.endswith(".lean"):
                p = os.path.join(d, f)
                if set(re.findall(r"^theorem ([\w.]+)", open(p).read(), re.M)) & short:
                    out.add(os.path.relpath(p, WORK)[:-5].replace("/", "."))
    return sorted(out)

CHECK = """%s
import Lean
open Lean Elab Command
run_cmd do
  let env ← getEnv
  for s in [%s] do
    let n := s.toName
    if env.contains n then
      let ax ← liftCoreM (collectAxioms n)
      if ax.any (fun a => a != ``propext && a != ``Classical.choice && a != ``Quot.sound) then IO.println s!"BAD {n}"
    else IO.println s!"GONE {n}"
"""

def mutate(m):
    sh("rm -rf %s; cp -a %s %s" % (WORK, BASE, WORK))
    path = os.path.join(WORK, "Verif", m["file"])
    s = open(path).read()
    if s.count(m["old"]) == 1:
        pos = s.index(m["old"])
    else:
        dm = re.search(r"(def|structure|abbrev|inductive) (\w+\.)*%s\b" % re.escape(m["def"]), s)
        pos = s.find(m["old"], dm.start()) if dm else -1
        if pos < 0:
            return {"error": "old text not found"}
    s = s[:pos] + m["new"] + s[pos+len(m["old"]):]
    open(path, "w").write(s)
    helpers = []
    ids = set(re.findall(r"C\d\d+", m["claim"]))
    if os.environ.get("FAST") and ids:
        names = theorems(ids)
        mods = modules(names)
        r = check(m, names, mods, helpers)
        if "error" in r or r["failed"]:
            r["checked"] = "theorems of " + " ".join(sorted(ids))
            return r
    return check(m, theorems(), ["Verif"], helpers)

def check(m, names, mods, helpers):
    for it in range(25):
        rc, errs, out = build(" ".join(mods))
        if not errs:
            if rc != 0:
                return {"error": out[-1500:]}
            break
        progress = False
        for f, lns in errs.items():
            lines = open(os.path.join(WORK, f)).read().split("\n")
            owners = {}
            for ln in lns:
                o = owner(lines, ln)
                if o:
                    owners[o[0]] = o[1]
            for j in sorted(owners, reverse=True):
                if j > 0 and lines[j-1].startswith("#guard_msgs (drop error)"):
                    continue
                helpers.append("%s: %s" % (f[6:-5].replace("/", "."), owners[j]))
                lines.insert(j, "#guard_msgs (drop error) in")
                progress = True
            open(os.path.join(WORK, f), "w").write("\n".join(lines))
        if not progress:
            return {"error": "stuck", "helpers": helpers, "out": out[-1500:]}
    chk = CHECK % ("\n".join("import " + x for x in mods), ", ".join('"%s"' % n for n in names))
    open(ROOT + "/Check.lean", "w").write(chk)
    r = sh("lake env lean %s/Check.lean" % ROOT, WORK)
    failed = re.findall(r"^(?:BAD|GONE) (\S+)$", r.stdout, re.M)
    if "error:" in r.stdout:
        return {"error": r.stdout[:1500]}
    return {"failed": failed, "direct": helpers}

def verdict(m, rec):
    """a mutant whose claim names properties must make a theorem of one of them fail"""
    ids = set(re.findall(r"C\d\d+", m["claim"]))
    hit = {re.sub(r"^.*?(C\d\d+).*$", r"\1", f) for f in rec["failed"]}
    if not rec["failed"]:
        return "SURVIVED"
    return "" if not ids or ids & hit else "CLAIM SURVIVED (failed: %s)" % " ".join(sorted(hit))

def main():
    muts = [json.loads(l) for l in open(sys.argv[1]) if l.strip()]
    log = sys.argv[2] if len(sys.argv) > 2 else ROOT + "/log.jsonl"
    only = sys.argv[3:]
    done = set()
    if os.path.exists(log):
        done = {json.loads(l).get("id") for l in open(log) if l.strip()}
    sh("mkdir -p %s %s.d" % (ROOT, log))
    if os.environ.get("FRESH") or not os.path.exists(BASE):
        sh("rm -rf %s; cp -a %s %s; cp /verif/MANIFEST.json %s" % (BASE, SRC, BASE, BASE))
        r = sh("lake build", BASE)
        assert r.returncode == 0, r.stdout[-2000:]
    for m in muts:
        if (only and m["id"] not in only) or (not only and m["id"] in done):
            continue
        try:
            os.mkdir("%s.d/%s" % (log, m["id"]))
        except FileExistsError:
            if not only:
                continue
        t = time.time()
        r = mutate(m)
        rec = {"id": m["id"], "definition": m["file"] + ": " + m["def"], "edit": m["old"] + "  ==>  " + m["new"],
               "claim": m["claim"]}
        rec.update({"failed": r.get("failed", []), "first_failures": r.get("direct", [])[:12], "tightened": []})
        if "checked" in r:
            rec["checked"] = r["checked"]
        if "error" in r:
            rec["error"] = r["error"]
        with open(log, "a") as f:
            f.write(json.dumps(rec, ensure_ascii=False) + "\n")
        print("%s %4.0fs %s failed=%d direct=%d %s" % (m["id"], time.time()-t, m["def"], len(rec["failed"]),
              len(r.get("direct", [])), "ERROR " + str(r["error"])[:300] if "error" in r else
              verdict(m, rec)), flush=True)

main()
