#!/usr/bin/env python3
"""Applies wrong-program edits to a scratch copy of the model and records which theorems stop proving.
usage: mutate.py edits.json   (list of {file, old, new, definition, edit, breaks})
Appends one JSON line per edit to seeded/LOG.jsonl, also for the edits that no theorem notices ("survived")."""
import json, os, re, signal, subprocess, sys, shutil, threading
ROOT = os.path.abspath(os.path.join(os.path.dirname(__file__), ".."))
DIR = os.environ.get("MUT_DIR", "/tmp/mut")
SCRATCH = DIR + "/lean"
BASE = DIR + "/base"
def decl_at(path, line):
    lines = open(path).read().split("\n")
    for i in range(min(line, len(lines)) - 1, -1, -1):
        m = re.match(r"\s*(?:private |protected |noncomputable )*(theorem|lemma|def|instance|example|structure|inductive|abbrev)\s*(\S*)", lines[i])
        if m:
            if m.group(1) == "example":
                for j in range(i - 1, -1, -1):
                    m2 = re.match(r"theorem\s+(\S+)", lines[j])
                    if m2: return "example after " + m2.group(1)
            return m.group(2) if m.group(1) in ("theorem", "lemma") else m.group(1) + " " + m.group(2)
    return "?"
def build(full):
    """Runs lake build; unless full, ends it a few seconds after the first error, the theorems that failed until then being enough."""
    if full:
        r = subprocess.run(["lake", "build"], cwd=SCRATCH, capture_output=True, text=True)
        return r.stdout + r.stderr, r.returncode
    proc = subprocess.Popen(["lake", "build"], cwd=SCRATCH, stdout=subprocess.PIPE, stderr=subprocess.STDOUT, text=True, start_new_session=True)
    out, timer = [], None
    def stop():
        try: os.killpg(proc.pid, signal.SIGKILL)
        except ProcessLookupError: pass
    for line in proc.stdout:
        out.append(line)
        if timer is None and line.startswith("error: Verif/"):
            timer = threading.Timer(6, stop); timer.start()
    code = proc.wait()
    if timer is not None: timer.cancel()
    return "".join(out), code
def main():
    full = os.environ.get("MUT_FULL") == "1"
    shutil.rmtree(SCRATCH, ignore_errors=True); shutil.rmtree(BASE, ignore_errors=True); os.makedirs(os.path.dirname(SCRATCH), exist_ok=True)
    # the last commit, with the compiled files of the working tree
    subprocess.run("git -C %s archive HEAD lean | tar -x -C %s && mv %s/lean %s && cp -a %s/lean/.lake %s/" % (ROOT, DIR, DIR, BASE, ROOT, BASE), shell=True, check=True)
    subprocess.run(["cp", "-a", BASE, SCRATCH], check=True)
    drop = os.environ.get("MUT_DROP", "").split()  # modules that do not depend on the edited definitions and are slow to build
    top = os.path.join(SCRATCH, "Verif.lean")
    lines = open(top).read().split("\n")
    done = {}  # edits tried for each group of alternatives (automutate.py)
    for e in json.load(open(sys.argv[1])):
        if e.get("group") and done.get(e["group"], 0) >= e["per"]: continue
        open(top, "w").write("\n".join(l for l in lines if l.replace("import Verif.", "") not in drop))
        path = os.path.join(SCRATCH, "Verif", e["file"])
        src = open(path).read()
        if src.count(e["old"]) != 1:
            print("SKIP", e["definition"], "matches:", src.count(e["old"])); continue
        open(path, "w").write(src.replace(e["old"], e["new"]))
        if e.get("group"):
            r = subprocess.run(["lake", "build", "Verif." + e["file"][:-5].replace("/", ".")], cwd=SCRATCH, capture_output=True, text=True)
            if r.returncode != 0:
                open(path, "w").write(src); continue
            done[e["group"]] = done.get(e["group"], 0) + 1
        failed = []
        output, code = build(full)
        for m in re.finditer(r"^error: (Verif/\S+\.lean):(\d+):\d+:", output, re.M):
            d = decl_at(os.path.join(SCRATCH, m.group(1)), int(m.group(2)))
            if d not in failed: failed.append(d)
        notbuilt = sorted(set(re.findall(r"^- (Verif\.\S+)", output, re.M)))
        if code != 0 and not failed: failed.append("build failed: " + ", ".join(notbuilt))
        shutil.rmtree(SCRATCH); subprocess.run(["cp", "-a", BASE, SCRATCH], check=True)
        out = {"definition": e["definition"], "edit": e["edit"], "breaks": e["breaks"], "failed": failed, "tightened": e.get("tightened", [])}
        if e.get("note"): out["note"] = e["note"]
        print(json.dumps(out), "" if failed else "   <<<<< SURVIVED", flush=True)
        if not failed: out["survived"] = True
        with open(ROOT + "/seeded/LOG.jsonl", "a") as f: f.write(json.dumps(out, ensure_ascii=False) + "\n")
main()
