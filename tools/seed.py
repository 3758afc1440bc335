#!/usr/bin/env python3
"""Seeded-bug experiments.

    tools/seed.py [-a] [-j N] [names...]

Reads seeded/mutants.py, a list of wrong programs. Each entry edits one definition of the model (and
its counterpart, if the model of the tools and that of their output both contain it). For
each entry this script copies the Lean project to a scratch directory, applies the edit, elaborates
the modules with the theorems of the claims it breaks (with -a, every module that depends on the edited
one), and reports which property theorems in them no longer have a proof. A module with errors is still written, with the failing proofs replaced by `sorry`, so that a
failing lemma does not hide what happens further up. A property theorem "fails" if it is missing or
depends on `sorryAx`. The result of each entry is appended to seeded/LOG.jsonl.
"""
import concurrent.futures as cf
import json
import os
import re
import runpy
import shutil
import subprocess
import sys
import time

ROOT = os.path.dirname(os.path.dirname(os.path.abspath(__file__)))
LEAN = os.environ.get("SEED_BASE", os.path.join(ROOT, "lean"))
SCRATCH = os.environ.get("SEED_SCRATCH", "/tmp/seed")
LOG = os.path.join(ROOT, "seeded", "LOG.jsonl")

ELAB = r'''
import Lean
open Lean Elab

unsafe def main (args : List String) : IO UInt32 := do
  enableInitializersExecution
  let [file, mod, out] := args | return 2
  initSearchPath (← findSysroot)
  let input ← IO.FS.readFile file
  let ctx := Parser.mkInputContext input file
  let (header, pstate, msgs) ← Parser.parseHeader ctx
  let (env, msgs) ← processHeader header {} msgs ctx (mainModule := mod.toName)
  for m in msgs.toList do
    if m.severity == .error then IO.println s!"ERR 0: {← m.data.toString}"
  let s ← IO.processCommands ctx pstate (Command.mkState env msgs {})
  let mut n := 0
  for m in s.commandState.messages.toList do
    if m.severity == .error then
      n := n + 1
      IO.println s!"ERR {m.pos.line}: {((← m.data.toString).splitOn "\n").headD ""}"
  writeModule s.commandState.env out
  return if n == 0 then 0 else 1
'''

AXIOMS = r'''
import Lean
open Lean

/-- Whether `c` depends on `sorryAx` or on a missing constant; only constants of `Verif` are
searched. -/
partial def tainted (env : Environment) (c : Name) : StateM (NameMap Bool) Bool := do
  if c == ``sorryAx then return true
  if let some b := (← get).find? c then return b
  modify (·.insert c false)
  let some info := env.find? c | do modify (·.insert c true); return true
  let some idx := env.getModuleIdxFor? c | return false
  if (env.header.moduleNames[idx.toNat]!).getRoot != `Verif then return false
  let mut used := info.type.getUsedConstants
  if let some v := info.value? (allowOpaque := true) then used := used ++ v.getUsedConstants
  let mut bad := false
  for u in used do
    if ← tainted env u then bad := true
  modify (·.insert c bad)
  return bad

def main (args : List String) : IO UInt32 := do
  initSearchPath (← findSysroot)
  let mods := args.map fun m => ({ module := m.toName } : Import)
  let env ← importModules mods.toArray {}
  let names := (← (← IO.getStdin).readToEnd).splitOn "\n"
  let mut cache : NameMap Bool := {}
  for n in names do
    if n.isEmpty then continue
    let nm := n.toName
    if env.contains nm then
      let (b, c) := (tainted env nm).run cache
      cache := c
      IO.println s!"{n} {if b then "sorry" else "ok"}"
    else IO.println s!"{n} missing"
  return 0
'''


def modules():
    mods = {}
    for d, _, fs in os.walk(os.path.join(LEAN, "Verif")):
        for f in fs:
            if f.endswith(".lean"):
                p = os.path.join(d, f)
                name = os.path.relpath(p, LEAN)[:-5].replace("/", ".")
                imps = re.findall(r"^import (Verif\.\S+)", open(p).read(), re.M)
                mods[name] = (p, imps)
    return mods


def property_theorems(mods):
    names = []
    for name, (p, _) in sorted(mods.items()):
        if ".Props." in name:
            names += ["Kws." + n for n in re.findall(r"^theorem (C\d+_\S+)", open(p).read(), re.M)]
    return names


def lean_path():
    out = subprocess.run(["lake", "env", "printenv", "LEAN_PATH"], cwd=LEAN, capture_output=True,
                         text=True, check=True).stdout.strip()
    return out.split(":")


def wanted(entry, mods):
    """The modules with theorems of the broken claims, and what they import."""
    todo = [m for m, (p, _) in mods.items() if ".Props." in m and any(
        re.search(r"^theorem %s_" % c, open(p).read(), re.M) for c in entry["breaks"])]
    props = set(todo)
    need = set()
    while todo:
        m = todo.pop()
        if m not in need:
            need.add(m)
            todo += mods[m][1]
    return need, props


def run_one(entry, mods, names, jobs, paths, everything):
    work = os.path.join(SCRATCH, "work")
    shutil.rmtree(work, ignore_errors=True)
    src = os.path.join(work, "src")
    out = os.path.join(work, "out")
    shutil.copytree(os.path.join(LEAN, "Verif"), os.path.join(src, "Verif"))
    subprocess.run(["cp", "-rl", os.path.join(LEAN, ".lake/build/lib/lean"), out], check=True)
    edited = set()
    for edit in entry["edits"]:
        rel, old, new = edit if len(edit) == 3 else (entry["file"],) + tuple(edit)
        p = os.path.join(src, "Verif", rel)
        text = open(p).read()
        if text.count(old) != 1:
            raise SystemExit("%s: %d occurrences of %r" % (entry["name"], text.count(old), old))
        open(p, "w").write(text.replace(old, new))
        edited.add("Verif." + rel[:-5].replace("/", "."))
    env = dict(os.environ)
    env["LEAN_PATH"] = ":".join([out] + [q for q in paths if not q.startswith(LEAN)])
    affected = set(edited)
    changed = True
    while changed:
        changed = False
        for m, (_, imps) in mods.items():
            if m not in affected and any(i in affected for i in imps):
                affected.add(m)
                changed = True
    for m in affected:
        base = os.path.join(out, m.replace(".", "/"))
        for ext in (".olean", ".ilean", ".c", ".trace", ".olean.hash", ".ilean.hash"):
            if os.path.exists(base + ext):
                os.remove(base + ext)
    elab = os.path.join(SCRATCH, "elab.lean")
    open(elab, "w").write(ELAB)
    errors = {}
    dead = []

    def build(m):
        path = m.replace(".", "/")
        try:
            r = subprocess.run(["lean", "--run", elab, os.path.join(src, path + ".lean"), m,
                                os.path.join(out, path + ".olean")], env=env, cwd=work,
                               capture_output=True, text=True, timeout=900)
        except subprocess.TimeoutExpired:
            return m, ["timeout"], False
        errs = [l for l in r.stdout.split("\n") if l.startswith("ERR")]
        if r.returncode not in (0, 1):
            errs.append("crash " + r.stderr[-300:])
        return m, errs, os.path.exists(os.path.join(out, path + ".olean"))

    props = set(m for m in mods if ".Props." in m)
    done = set()
    pending = set(affected)
    if not everything:
        need, props = wanted(entry, mods)
        pending &= need
    with cf.ThreadPoolExecutor(jobs) as ex:
        futs = {}
        while pending or futs:
            for m in sorted(pending):
                deps = [i for i in mods[m][1] if i in affected]
                if any(i in dead for i in deps):
                    pending.discard(m)
                    dead.append(m)
                    done.add(m)
                elif all(i in done for i in deps):
                    pending.discard(m)
                    futs[ex.submit(build, m)] = m
            if not futs:
                continue
            for f in list(cf.wait(futs, return_when=cf.FIRST_COMPLETED)[0]):
                m, errs, ok = f.result()
                del futs[f]
                done.add(m)
                if errs:
                    errors[m] = errs
                if not ok:
                    dead.append(m)
    ax = os.path.join(SCRATCH, "ax.lean")
    open(ax, "w").write(AXIOMS)
    props = [m for m in sorted(props) if m not in dead]
    names = [n for m in props for n in property_theorems({m: mods[m]})]
    r = subprocess.run(["lean", "--run", ax] + props, env=env, cwd=work, input="\n".join(names),
                       capture_output=True, text=True)
    if r.returncode != 0:
        raise SystemExit("axioms: %d %s %s" % (r.returncode, r.stdout[-500:], r.stderr))
    st = dict(l.split() for l in r.stdout.strip().split("\n") if l)
    failed = [n for n in names if st[n] != "ok"]
    return failed, errors, dead, props


def main():
    args = sys.argv[1:]
    jobs = 4
    everything = args[:1] == ["-a"]
    if everything:
        args = args[1:]
    if args[:1] == ["-j"]:
        jobs = int(args[1])
        args = args[2:]
    entries = runpy.run_path(os.path.join(ROOT, "seeded", "mutants.py"))["MUTANTS"]
    seen = set()
    if os.path.exists(LOG):
        for l in open(LOG):
            seen.add(json.loads(l)["name"])
    mods = modules()
    names = property_theorems(mods)
    paths = lean_path()
    if args:
        entries = sorted(entries, key=lambda e: args.index(e["name"]) if e["name"] in args else -1)
    for e in entries:
        if (args and e["name"] not in args) or (not args and e["name"] in seen):
            continue
        t = time.time()
        failed, errors, dead, props = run_one(e, mods, names, jobs, paths, everything)
        claims = e["breaks"]
        survived = [c for c in claims if not any(n.startswith("Kws." + c + "_") for n in failed)]
        rec = {
            "name": e["name"],
            "definition": e["definition"],
            "file": "lean/Verif/" + e["file"],
            "edit": e["edit"],
            "claims_broken": claims,
            "why": e["why"],
            "theorems_failed": [n[4:] for n in failed],
            "claims_not_detected": survived,
            "modules_checked": props,
            "modules_with_errors": sorted(errors),
            "modules_not_built": sorted(dead),
            "theorems_tightened": e.get("tightened", []),
        }
        with open(LOG, "a") as f:
            f.write(json.dumps(rec, ensure_ascii=False) + "\n")
        print("%s: %d failed, missed %s, dead %s (%.0f s)" % (
            e["name"], len(failed), survived, dead, time.time() - t), flush=True)
        with open(os.path.join(SCRATCH, e["name"] + ".err"), "w") as f:
            for m in sorted(errors):
                f.write(m + "\n" + "\n".join("  " + x for x in errors[m]) + "\n")


main()
