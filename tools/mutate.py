"""Seeded-bug runs: apply each edit of a spec file to a scratch copy of the Lean project and rebuild.

usage: mutate.py SPEC.jsonl OUT.jsonl     (spec lines: {"file","old","new","claim","note"?,"targets"?})
Every run starts from the committed sources and their build products in /tmp/mutbase.
"""
import json, os, re, shutil, subprocess, sys

BASE, WORK = "/tmp/mutbase", "/tmp/mutwork"

def refresh_base():
    if os.path.exists(BASE):
        shutil.rmtree(BASE)
    os.makedirs(BASE)
    subprocess.check_call(["cp", "-a", "/verif/lean", BASE + "/lean"])

def decl_at(path, line):
    """Name of the declaration enclosing a line."""
    name = None
    for i, l in enumerate(open(path), 1):
        if i > line:
            break
        m = re.match(r"\s*(?:@\[[^\]]*\]\s*)?(?:private |protected |noncomputable )*(theorem|lemma|def|example|instance|structure|inductive)\s*([^\s:({\[]*)", l)
        if m:
            name = (m.group(2) or "example") if m.group(1) != "example" else f"example@{i}"
    return name

def run(spec):
    if os.path.exists(WORK):
        shutil.rmtree(WORK)
    subprocess.check_call(["cp", "-a", BASE, WORK])
    path = os.path.join(WORK, "lean", spec["file"])
    s = open(path).read()
    if s.count(spec["old"]) != 1:
        return {**spec, "error": f"old text occurs {s.count(spec['old'])} times"}
    open(path, "w").write(s.replace(spec["old"], spec["new"]))
    p = subprocess.run(["lake", "build"] + spec.get("targets", []), cwd=WORK + "/lean", capture_output=True, text=True)
    out = p.stdout + p.stderr
    failed = []
    for f, ln in re.findall(r"error: (\S+\.lean):(\d+):", out):
        d = decl_at(os.path.join(WORK, "lean", f), int(ln))
        e = os.path.basename(f)[:-5] + ":" + str(d)
        if e not in failed:
            failed.append(e)
    bad_mods = sorted(set(re.findall(r"^- (\S+)", out, re.M)))
    return {**spec, "exit": p.returncode, "failed": failed, "modules": bad_mods}

if __name__ == "__main__":
    specs = [json.loads(l) for l in open(sys.argv[1]) if l.strip()]
    if "--keep-base" not in sys.argv:
        refresh_base()
    with open(sys.argv[2], "a") as f:
        for s in specs:
            r = run(s)
            f.write(json.dumps(r) + "\n")
            f.flush()
