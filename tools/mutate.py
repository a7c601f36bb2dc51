#!/usr/bin/env python3
"""Mutation runner: applies each edit of a mutation list to a scratch copy of the Lean project,
builds it, and appends one line per attempt to seeded/LOG.jsonl.

usage: mutate.py LIST.py   (LIST.py defines M = [(file, definition, old, new, claim, bug), ...])
"""
import json, os, queue, re, subprocess, sys, threading
ROOT = os.path.dirname(os.path.dirname(os.path.abspath(__file__)))
SCRATCH = "/tmp/mut/lean"
WORKERS = 3
DEPS = r'''-- Prints, for every theorem named on standard input, the constants of namespace Helper its proof uses.
import Verif
import Lean
open Lean
partial def collect (env : Environment) (n : Name) (seen : NameSet) : NameSet :=
  if seen.contains n then seen
  else if !(`Helper).isPrefixOf n then seen
  else
    let seen := seen.insert n
    match env.find? n with
    | none => seen
    | some ci =>
      let used := ci.type.getUsedConstants ++ (match ci.value? (allowOpaque := true) with | some v => v.getUsedConstants | none => #[])
      used.foldl (fun s m => collect env m s) seen
#eval show MetaM Unit from do
  let env ← getEnv
  let inp ← IO.FS.readFile "/tmp/mut/names.txt"
  let mut out := ""
  for l in inp.splitOn "\n" do
    if l.trimAscii.isEmpty then continue
    let n := l.trimAscii.toString.toName
    let s := collect env n {}
    out := out ++ l ++ " :" ++ s.foldl (fun acc m => acc ++ " " ++ m.toString ++ "@" ++
      (match env.getModuleIdxFor? m with | some i => (env.header.moduleNames[i.toNat]!).toString | none => "?")) "" ++ "\n"
  IO.FS.writeFile "/tmp/mut/deps.txt" out
'''
def decl_at(path, line):
    name = "?"
    for i, l in enumerate(open(path)):
        if i + 1 > line: break
        m = re.match(r"\s*(?:@\[.*\]\s*)?(?:private\s+|protected\s+)?(theorem|def|instance|example|structure|abbrev)\s*([^\s:({\[]*)", l)
        if m: name = m.group(2) or "example"
    return name
def build(d):
    p = subprocess.run(["lake", "build"], cwd=d, capture_output=True, text=True)
    return p.returncode, p.stdout + p.stderr
def copy(d):
    subprocess.run(f"rm -rf {d} && cp -a {ROOT}/lean {d}", shell=True, check=True)
def rests_on(fails, names, deps):
    """The theorems that use a declaration that fails; declarations are given as module:name."""
    wanted = set(("Verif." + x.split(":")[0], x.split(":")[1]) for x in fails)
    return [t for t in names if wanted & deps[t]]
def suffixes(entry):
    n, mod = entry.rsplit("@", 1)
    parts = n.split(".")
    return [(mod, ".".join(parts[i:])) for i in range(len(parts))]
def attempt(d, job, names, deps, tight, dry, lock):
    (f, dfn, old, new, claim, bug) = job
    path = f"{d}/Verif/{f}"
    src = open(path).read()
    if src.count(old) != 1:
        print("BAD EDIT", f, dfn, src.count(old), "|", bug, flush=True); return
    open(path, "w").write(src.replace(old, new))
    rc, out = build(d)
    fails = []
    for m in re.finditer(r"error: (Verif/\S+?\.lean):(\d+):", out):
        mod = m.group(1)[6:-5].replace("/", ".")
        n = mod + ":" + decl_at(f"{d}/{m.group(1)}", int(m.group(2)))
        if n not in fails: fails.append(n)
    open(path, "w").write(src)
    if rc and not fails:
        print("BUILD PROBLEM", f, dfn, out[-300:], flush=True); return
    if any(x.split(":")[0] == f[:-5].replace("/", ".") for x in fails) and "Model" in f:
        print("INVALID (does not compile)", f, dfn, "|", bug, flush=True); return
    props = rests_on(fails, names, deps)
    rec = {"definition": f"{f}:{dfn}", "edit": bug, "claim": claim,
           "failed": fails, "properties_failed": props, "tightened": tight.get((f, dfn, bug), [])}
    with lock:
        if fails and not props: print("   (no manifest theorem rests on", fails, ")", flush=True)
        print(("KILLED  " if fails else "SURVIVED"), f, dfn, "|", bug, "|", fails[:6], len(props), 'properties', flush=True)
        if not dry:
            with open(ROOT + "/seeded/LOG.jsonl", "a") as o: o.write(json.dumps(rec) + "\n")
def main():
    g = {}
    exec(open(sys.argv[1]).read(), g)
    dry = "--dry" in sys.argv
    os.makedirs("/tmp/mut", exist_ok=True)
    copy(SCRATCH)
    rc, out = build(SCRATCH)
    if rc: print("baseline fails", out[-2000:]); return
    names = [t for cl in json.load(open(ROOT + "/MANIFEST.json"))["claims"] for t in cl["theorems"]]
    open("/tmp/mut/names.txt", "w").write("\n".join(names) + "\n")
    open("/tmp/mut/deps.lean", "w").write(DEPS)
    subprocess.run(["lake", "env", "lean", "/tmp/mut/deps.lean"], cwd=SCRATCH, check=True)
    deps = {}
    for l in open("/tmp/mut/deps.txt"):
        a, b = l.split(" :")
        deps[a] = set(y for x in b.split() if "@" in x for y in suffixes(x))
    jobs = queue.Queue()
    for j in g["M"]: jobs.put(j)
    lock = threading.Lock()
    dirs = [SCRATCH + str(k) for k in range(WORKERS)]
    for d in dirs: subprocess.run(f"rm -rf {d} && cp -a {SCRATCH} {d}", shell=True, check=True)
    def work(d):
        while True:
            try: j = jobs.get_nowait()
            except queue.Empty: return
            attempt(d, j, names, deps, g.get("T", {}), dry, lock)
    ts = [threading.Thread(target=work, args=(d,)) for d in dirs]
    for t in ts: t.start()
    for t in ts: t.join()
main()
