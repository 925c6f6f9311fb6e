#!/usr/bin/env python3
"""Run seeded-bug attempts in a scratch copy of lean/ and append one line per attempt to seeded/LOG.jsonl.

usage: seed.py batch.json     (a list of {file, def, old, new, claim, targets})
Each attempt replaces `old` (which must occur once) by `new` in `file`, builds `targets`, and collects the
declarations whose proofs fail.  An attempt that still builds is logged with "survived": true.

"evidence" says what the attempt shows: "property" (a property theorem itself fails), "example" (a concrete case beside one
fails), "helper" (only lemmas fail: their proofs broke, which does not show that the property theorem is false of the edited
model), "invalid" (the edited definition does not compile: nothing was tested) or "survived"."""
import json, os, re, subprocess, sys, shutil
ROOT = os.path.dirname(os.path.dirname(os.path.abspath(__file__)))
SCR = os.environ.get("SCRATCH", "/tmp/seed")
def decl_at(path, line):
    lines = open(path).read().split("\n")
    for i in range(min(line, len(lines)) - 1, -1, -1):
        m = re.match(r"(?:@\[[^\]]*\] *)?(?:private |protected |noncomputable )*(theorem|def|example|instance|abbrev|structure|inductive)\b *([^\s:({\[]*)", lines[i])
        if m: return m.group(2) or "example@%s:%d" % (os.path.basename(path), i + 1)
    return "?"
def evidence(edited, surv, failed):
    """failed: names of the failing declarations; edited: whether a definition in the edited file is one of them."""
    if surv: return "survived"
    if edited: return "invalid"
    if any(re.search(r"(^|\.)C\d+", n) for n in failed): return "property"
    if any(n.startswith("example") for n in failed): return "example"
    return "helper"
def main():
    os.makedirs(SCR, exist_ok=True)
    base = SCR + "/base"
    subprocess.run(["rm", "-rf", base]); subprocess.run(["cp", "-a", ROOT + "/lean", base], check=True)
    log = os.path.join(ROOT, "seeded", "LOG.jsonl")
    for m in json.load(open(sys.argv[1])):
        subprocess.run(["rm", "-rf", SCR + "/lean"]); subprocess.run(["cp", "-a", base, SCR + "/lean"], check=True)
        f = os.path.join(SCR, "lean", m["file"])
        s = open(f).read()
        if s.count(m["old"]) != 1:
            print("BAD EDIT", m["def"], s.count(m["old"]), m["old"]); continue
        open(f, "w").write(s.replace(m["old"], m["new"]))
        r = subprocess.run(["nice", "lake", "build"] + m["targets"], cwd=SCR + "/lean", capture_output=True, text=True, timeout=3000)
        out = r.stdout + r.stderr
        failed, edited = [], False
        for e in re.finditer(r"^error: (?:\S*/)?(Verif/\S+\.lean):(\d+):\d+: ", out, re.M):
            n = decl_at(os.path.join(SCR, "lean", e.group(1)), int(e.group(2)))
            if n not in failed: failed.append(n)
            text = open(os.path.join(SCR, "lean", e.group(1))).read()
            if e.group(1) == m["file"] and re.search(r"^[^\n]*\b(def|abbrev|instance|structure|inductive) +%s(?![\w.'])" % re.escape(n), text, re.M): edited = True
        surv = r.returncode == 0
        rec = {"definition": m["def"], "file": "lean/" + m["file"], "edit": "%s  ->  %s" % (m["old"], m["new"]),
               "breaks": m["claim"], "failed": failed, "tightened": [],
               "evidence": evidence(edited, surv, failed)}
        if surv: rec["survived"] = True
        print(rec["evidence"] + " " + m["def"], failed[:6], flush=True)
        if not failed and not surv: print(out[-800:])
        if os.environ.get("DRY") is None:
            open(log, "a").write(json.dumps(rec, ensure_ascii=False) + "\n")
main()
