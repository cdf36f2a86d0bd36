#!/usr/bin/env python3
"""Apply wrong edits to a scratch copy of the model, rebuild, and log which theorems stop proving.

usage: mutate.py EDITS.json [--first] [--target=MODULE]       (scratch copy of the last commit in /tmp/mut/lean)
EDITS.json: list of {"file", "definition", "old", "new", "edit", "claim"}; appends to seeded/LOG.jsonl.
A property theorem counts as failed when it, or a lemma it depends on, no longer proves.
--first: stop looking at an edit after the first build in which some property theorem failed.
--target=MODULE: build only this module and what it imports."""
import json, pathlib, re, subprocess, sys, shutil
top = pathlib.Path(__file__).resolve().parent.parent
target = ([a[9:] for a in sys.argv if a.startswith("--target=")] + ["Verif"])[0]
scratch = pathlib.Path("/tmp/mut/lean")
pristine = pathlib.Path("/tmp/mut/pristine")   # the sources of the last commit
DEPS = r'''
import Verif
open Lean
partial def depClosure (env : Environment) (n : Name) (seen : NameSet) : NameSet :=
  if seen.contains n then seen else
  match env.find? n with
  | none => seen
  | some ci =>
    if !(`Genex).isPrefixOf n then seen else
    let seen := seen.insert n
    let cs := ci.type.getUsedConstants ++
      (match ci.value? (allowOpaque := true) with | some v => v.getUsedConstants | none => #[])
    cs.foldl (fun s c => depClosure env c s) seen
#eval show CoreM Unit from do
  let env ← getEnv
  for (n, _) in env.constants.map₁.toList do
    if (`Genex.Props).isPrefixOf n then
      let s := n.getString!.toList
      if s.length > 5 && s[0]! == 'C' && (s[3]! == '_' || s[4]! == '_') then
        let d := depClosure env n {}
        let at_ (c : Name) : String := match env.getModuleIdxFor? c with
          | some i => s!"{env.header.moduleNames[i.toNat]!}@{c}"
          | none => s!"@{c}"
        IO.println s!"DEP {n}: {" ".intercalate (d.toList.map at_)}"
'''
def sh(*a, **k): return subprocess.run(a, capture_output=True, text=True, **k)
def sync():
    """The sources of the last commit, in scratch and in pristine; build output is kept."""
    scratch.mkdir(parents=True, exist_ok=True)
    if not (scratch / ".lake").exists() and (top / "lean/.lake").exists():
        sh("cp", "-a", str(top / "lean/.lake"), str(scratch / ".lake"))
    for d in (scratch, pristine):
        shutil.rmtree(d / "Verif", ignore_errors=True); d.mkdir(parents=True, exist_ok=True)
        subprocess.run(f"git archive HEAD:lean | tar -x -C {d}", shell=True, cwd=top, check=True)
        shutil.rmtree(d / "Verif/Tests", ignore_errors=True)   # tests of the model: not evidence for the theorems
        r = d / "Verif.lean"; r.write_text("".join(l for l in r.read_text().splitlines(True) if "Verif.Tests." not in l))
def deps():
    f = pathlib.Path("/tmp/mut/deps.lean"); f.write_text(DEPS.replace("import Verif", "import " + target))
    out = sh("lake", "env", "lean", str(f), cwd=scratch).stdout
    r = {}
    for l in out.splitlines():
        if l.startswith("DEP "):
            n, d = l[4:].split(":", 1); r[n] = set(d.split())
    return r
HEAD = re.compile(r"(?:@\[[^\]]*\]\s*)?(?:private |noncomputable |protected )*(theorem|lemma|def|instance|example|structure|abbrev)\b\s*([^\s:({\[]*)")
def decl_at(ls, line):
    for i in range(min(line, len(ls)) - 1, -1, -1):
        m = HEAD.match(ls[i])
        if m: return i, m[1], m[2]
    return None
def sorry_out(path, start):
    """Replace the proof of the declaration that starts at line `start` by sorry, keeping the line numbers."""
    ls = path.read_text().splitlines()
    end = start + 1
    while end < len(ls) and (ls[end] == "" or ls[end][0] in " \t·|"): end += 1
    txt = "\n".join(ls[start:end]); depth = 0; cut = None
    for k, c in enumerate(txt):
        if c in "([{⟨": depth += 1
        elif c in ")]}⟩": depth -= 1
        elif c == ":" and depth == 0 and txt[k:k+2] == ":=": cut = k; break
        elif c == "w" and depth == 0 and txt[k-1:k+6] == " where\n": cut = k; break   # a structure, field by field
    if cut is None or txt[cut:].startswith(":= sorry"): return False
    if txt.startswith("def "): txt = "noncomputable " + txt; cut += 14
    new = txt[:cut] + ":= sorry" + "\n" * txt[cut:].count("\n")
    path.write_text("\n".join(ls[:start] + new.split("\n") + ls[end:]) + "\n")
    return True
def failing(D, where):
    return sorted(p for p, d in D.items() if any(any(c == f"{f}@{n}" or c.startswith(f + "@") and c.endswith("." + n) for c in d) for f, n in where))
def main():
    first = "--first" in sys.argv
    edits = json.load(open(sys.argv[1])); sync()
    assert sh("lake", "build", target, cwd=scratch).returncode == 0, "the unedited copy does not build"
    D = deps()
    assert D, "no dependencies"
    log = open(top / "seeded/LOG.jsonl", "a")
    for e in edits:
        src = pristine / e["file"]; dst = scratch / e["file"]
        t = src.read_text()
        if t.count(e["old"]) != 1:
            print("SKIP (old text occurs", t.count(e["old"]), "times):", e["edit"]); continue
        dst.write_text(t.replace(e["old"], e["new"]))
        touched = {e["file"]}; names = set(); where = set(); exs = set(); open_ = set(); stuck = early = False
        for _ in range(15):
            run = sh("lake", "build", target, cwd=scratch); out = run.stdout
            hits = {(m[1], int(m[2])) for m in re.finditer(r"error: (Verif/\S+?\.lean):(\d+):", out)}
            if not hits and run.returncode == 0: break
            if not hits:   # an evaluation did not come to an end
                mods = re.findall(r"^- (Verif\S+)$", out, re.M); assert mods, out[-2000:]
                prog = False
                for f in (m.replace(".", "/") + ".lean" for m in mods):
                    ls = (scratch / f).read_text().splitlines()
                    for i in {decl_at(ls, k + 1)[0] for k, l in enumerate(ls) if "decide" in l}:
                        _, kind, name = decl_at(ls, i + 1)
                        if kind not in ("theorem", "lemma", "example"): continue
                        touched.add(f); prog = sorry_out(scratch / f, i) or prog
                        open_.add(f if kind == "example" else name)
                assert prog, out[-2000:]
                continue
            prog = False; seen = set()
            for f, l in sorted(hits):
                d = decl_at((scratch / f).read_text().splitlines(), l)
                if d is None or (f, d[0]) in seen: continue
                seen.add((f, d[0]))
                if d[1] == "example": exs.add(f)
                else: names.add(d[2]); where.add((f[:-5].replace("/", "."), d[2]))
                if d[1] in ("theorem", "lemma", "example") or d[1] == "def" and f.startswith("Verif/Lemmas/"):
                    touched.add(f); prog = sorry_out(scratch / f, d[0]) or prog
            if not prog: stuck = True; break
            if first and failing(D, where): early = True; break
        failed = failing(D, where)
        rec = {"definition": e["definition"], "edit": e["edit"], "claim": e["claim"],
               "failed": [f.replace("Genex.Props.", "") for f in failed],
               "failed_lemmas": sorted(names), "failed_examples_in": sorted(exs),
               "tightened": e.get("tightened", [])}
        if open_: rec["evaluation_not_finished_in"] = sorted(open_)
        if stuck: rec["note"] = "the edit does not type-check everywhere; later modules were not rebuilt"
        if early: rec["note"] = "stopped at the first failures; modules that import them were not rebuilt"
        if target != "Verif": rec["rebuilt"] = target + " and what it imports"
        print(json.dumps(rec), flush=True)
        log.write(json.dumps(rec) + "\n"); log.flush()
        for f in touched: shutil.copy(pristine / f, scratch / f)
    sh("lake", "build", target, cwd=scratch)
main()
