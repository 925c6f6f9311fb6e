#!/usr/bin/env python3
"""Decide whether a logged attempt of which only helper lemmas failed violates the statement of a property.

usage: witness.py batch.json     (a list of {i, thm, w, mods} or {i, thm, w, mods, pre})
`w` is a closed decidable proposition, an instance of the statement of the theorem `thm`, or a list of such propositions; `pre` is
text that goes before it; `i` is the line of the attempt in
seeded/LOG.jsonl (from 0), `mods` the modules to import.  `w` must evaluate to true of the model, and to false (one of the
list) of the model with the edit of the attempt.  Then the attempt gets the fields "witness" and "violates", and its evidence is "witness"."""
import json, os, subprocess, sys
ROOT = os.path.dirname(os.path.dirname(os.path.abspath(__file__)))
SCR = os.environ.get("SCRATCH", "/tmp/witness")
LOG = os.path.join(ROOT, "seeded", "LOG.jsonl")
def evaluate(lean, mods, ws, pre):
    f = os.path.join(SCR, "W.lean")
    open(f, "w").write("".join("import %s\n" % m for m in mods) + "namespace C4\n" + pre + "".join("#eval decide (%s)\n" % w for w in ws))
    r = subprocess.run(["lake", "env", "lean", "-M", "6000", f], cwd=lean, capture_output=True, text=True, timeout=600)
    return r.stdout.strip().split("\n")
def main():
    os.makedirs(SCR, exist_ok=True)
    subprocess.run(["rm", "-rf", SCR + "/base"]); subprocess.run(["cp", "-a", ROOT + "/lean", SCR + "/base"], check=True)
    for b in json.load(open(sys.argv[1])):
        log = [json.loads(l) for l in open(LOG)]
        x = log[b["i"]]
        old, new = x["edit"].split("  ->  ", 1)
        if subprocess.run(["grep", "-rqE", r"^theorem (\S+\.)?%s\b" % b["thm"].split(".")[-1], ROOT + "/lean/Verif/Props"]).returncode != 0:
            print(b["i"], x["definition"], "NO SUCH THEOREM", b["thm"], flush=True); continue
        ws, pre = b["w"] if isinstance(b["w"], list) else [b["w"]], b.get("pre", "")
        was = evaluate(ROOT + "/lean", b["mods"], ws, pre)
        if was != ["true"] * len(ws):
            print(b["i"], x["definition"], "NOT TRUE OF THE MODEL", "\n".join(was)[:300], flush=True); continue
        subprocess.run(["rm", "-rf", SCR + "/lean"]); subprocess.run(["cp", "-a", SCR + "/base", SCR + "/lean"], check=True)
        f = os.path.join(SCR, x["file"])
        s = open(f).read()
        if s.count(old) != 1:
            print(b["i"], x["definition"], "BAD EDIT", s.count(old), flush=True); continue
        open(f, "w").write(s.replace(old, new))
        r = subprocess.run(["lake", "build"] + b["mods"], cwd=SCR + "/lean", capture_output=True, text=True, timeout=1800)
        if r.returncode != 0:
            print(b["i"], x["definition"], "DOES NOT BUILD", (r.stdout + r.stderr)[-400:], flush=True); continue
        now = evaluate(SCR + "/lean", b["mods"], ws, pre)
        ok = len(now) == len(ws) and all(n in ("true", "false") for n in now)
        print(b["i"], x["definition"], ("violated" if "false" in now else "STILL TRUE") if ok else "? " + "\n".join(now)[:300], flush=True)
        if ok and "false" in now:
            log = [json.loads(l) for l in open(LOG)]
            x = log[b["i"]]
            x["witness"], x["violates"], x["evidence"] = pre + ws[now.index("false")], b["thm"], "witness"
            open(LOG, "w").write("".join(json.dumps(y, ensure_ascii=False) + "\n" for y in log))
main()
