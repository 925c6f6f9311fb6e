#!/usr/bin/env python3
"""Edit the definitions of the model automatically, one operator or number at a time, and look for edits that every proof survives.

usage: mutate.py out.jsonl per_def worker workers [file ...]
Each edit is built in a scratch copy of lean/ up to the first error, so an edit that fails shows that some proof depends on the place, and one
that builds shows that no theorem does.  The latter are looked at by hand: either the edit does not change the behaviour, or a theorem is
too weak.  A line of the output has the file, definition, edit and the first declaration that failed ("invalid" if it is the
edited definition itself, "survived" if there is none)."""
import glob, json, os, random, re, shutil, signal, subprocess, sys, threading
BASE = "/tmp/mut/base"    # a copy of lean/ that was built
OPS = [(r" < ", [" ≤ "]), (r" ≤ ", [" < "]), (r" > ", [" ≥ "]), (r" ≥ ", [" > "]), (r" = ", [" ≠ "]), (r" ≠ ", [" = "]), (r" == ", [" != "]), (r" != ", [" == "]),
       (r" ∧ ", [" ∨ "]), (r" ∨ ", [" ∧ "]), (r" && ", [" || "]), (r" \|\| ", [" && "]), (r" \+ ", [" - "]), (r" - ", [" + "]), (r" \* ", [" + "]), (r" / ", [" * "]),
       (r" % ", [" / "]), (r"\btrue\b", ["false"]), (r"\bfalse\b", ["true"]), (r"(?<![\w.'])\d+(?![\w.'])", ["N+1", "N-1"]), (r"\bif (?=[^\n]*? then )", ["NEG"]),
       (r" ::: ", []), (r" \|\|\| ", [" &&& "]), (r" &&& ", [" ||| "]), (r" >>> ", [" <<< "]), (r" <<< ", [" >>> "]), (r" \^\^\^ ", [" ||| "]), (r"\.take\b", [".drop"]), (r"\.drop\b", [".take"]),
       (r"\.1\b", [".2"]), (r"\.2\b", [".1"])]
def defs(path):
    t = open(path).read()
    heads = [m.start() for m in re.finditer(r"^(?:@\[[^\]]*\]\s*)?(?:noncomputable |private |partial )*def ", t, re.M)]
    ends = [m.start() for m in re.finditer(r"^(?:/-|@\[|noncomputable |private |def |theorem |structure |inductive |instance |abbrev |example|end |namespace |open |variable|section|set_option|termination_by|decreasing_by|deriving)", t, re.M)] + [len(t)]
    for h in heads:
        e = min(x for x in ends if x > h)
        name = re.match(r".*?def ([^\s:({\[]+)", t[h:e], re.S).group(1)
        yield name, h, e, t
def mutants(t, h, e):
    body = t[h:e]
    # skip the signature
    m = re.search(r":=|\n +\|", body)
    if not m: return
    off = m.start()
    for pat, reps in OPS:
        for x in re.finditer(pat, body):
            if x.start() < off: continue
            line = body[body.rfind("\n", 0, x.start()) + 1: x.start()]
            if "--" in line: continue
            for r in reps:
                if r == "NEG":
                    c = re.match(r"if ([^\n]*?) then ", body[x.start():])
                    if re.match(r"\w+ *: ", c.group(1)): continue
                    yield (h + x.start(), h + x.start() + c.end(), "if ¬ (%s) then " % c.group(1))
                elif r in ("N+1", "N-1"):
                    n = int(x.group(0)); k = n + (1 if r == "N+1" else -1)
                    if k < 0: continue
                    yield (h + x.start(), h + x.end(), str(k))
                else: yield (h + x.start(), h + x.end(), r)
def decl_at(text, line):
    lines = text.split("\n")
    for i in range(min(line, len(lines)) - 1, -1, -1):
        m = re.match(r"(?:@\[[^\]]*\] *)?(?:private |protected |noncomputable )*(theorem|def|example|instance|abbrev|structure|inductive)\b *([^\s:({\[]*)", lines[i])
        if m: return m.group(2) or "example"
    return "?"
def sync(a, b):
    """Make b a copy of a, keeping times, so that nothing is built again."""
    want = {}
    for d, _, fs in os.walk(a):
        for f in fs:
            x = os.path.join(d, f); want[os.path.relpath(x, a)] = x
    if os.path.isdir(b):
        for d, _, fs in os.walk(b):
            for f in fs:
                y = os.path.join(d, f)
                if os.path.relpath(y, b) not in want: os.remove(y)
    for r, x in want.items():
        y = os.path.join(b, r)
        if os.path.exists(y):
            p, q = os.stat(x), os.stat(y)
            if p.st_size == q.st_size and p.st_mtime_ns == q.st_mtime_ns: continue
        os.makedirs(os.path.dirname(y), exist_ok=True)
        shutil.copy2(x, y)
def main():
    out, per, w, n = sys.argv[1], int(sys.argv[2]), int(sys.argv[3]), int(sys.argv[4])
    files = sys.argv[5:] or [f for f in sorted(glob.glob(BASE + "/Verif/**/*.lean", recursive=True)) if "/Props/" not in f and "/Spec/" not in f and "Lemmas" not in f]
    base, scr = BASE, "/tmp/mut/w%d" % w
    sync(base, scr)
    done = set()
    if os.path.exists(out):
        for l in open(out):
            d = json.loads(l); done.add((d["file"], d["definition"], d["edit"]))
    todo = []
    for f in files:
        rel = os.path.relpath(f, BASE) if f.startswith(BASE) else f
        for name, h, e, t in defs(base + "/" + rel):
            ms = list(mutants(t, h, e))
            random.Random(name).shuffle(ms)
            for a, b, r in ms[:per]: todo.append((rel, name, t, a, b, r))
    random.Random(1).shuffle(todo)
    for i, (rel, name, t, a, b, r) in enumerate(todo):
        if i % n != w: continue
        ls, le = t.rfind("\n", 0, a) + 1, t.find("\n", b)
        edit = "%s  ->  %s" % (t[ls:le].strip(), (t[ls:a] + r + t[b:le]).strip())
        if (rel, name, edit) in done: continue
        new = t[:a] + r + t[b:]
        open(scr + "/" + rel, "w").write(new)
        p = subprocess.Popen(["nice", "lake", "build"], cwd=scr, stdout=subprocess.PIPE, stderr=subprocess.STDOUT, text=True, preexec_fn=os.setsid)
        first = None; timer = False
        def kill():
            nonlocal timer
            timer = True
            try: os.killpg(p.pid, signal.SIGKILL)
            except ProcessLookupError: pass
        th = threading.Timer(1200, kill); th.start()
        for line in p.stdout:
            m = re.match(r"error: (?:\S*/)?(Verif/\S+\.lean):(\d+):\d+: ", line)
            if m:
                first = (m.group(1), int(m.group(2)))
                try: os.killpg(p.pid, signal.SIGKILL)
                except ProcessLookupError: pass
                break
        p.stdout.close(); rc = p.wait(); th.cancel()
        if first:
            d = decl_at(open(scr + "/" + first[0]).read(), first[1])
            res = "invalid" if first[0] == rel and d == name else first[0] + " " + d
        elif timer: res = "timeout"
        elif rc == 0: res = "survived"
        else: res = "failed"
        open(out, "a").write(json.dumps({"file": rel, "definition": name, "edit": edit, "result": res}, ensure_ascii=False) + "\n")
        sync(base, scr)
main()
