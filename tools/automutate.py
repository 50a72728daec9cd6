#!/usr/bin/env python3
"""Proposes one wrong program for each definition of the model that no entry of seeded/LOG.jsonl names, and writes them as edits for mutate.py.
usage: automutate.py out.json [seed] [per definition] [only definitions of these files ...]
The edits are the usual ones: another comparison, another constant, and for or, a condition turned round, a statement left out, the rest of a list dropped.
Edits that do not compile are left out by mutate.py, which builds the edited module first."""
import glob, json, os, random, re, sys
ROOT = os.path.abspath(os.path.join(os.path.dirname(__file__), ".."))
def named():
    out = set()
    for l in open(ROOT + "/seeded/LOG.jsonl"):
        for w in re.findall(r"[\w.'!?]+", json.loads(l)["definition"]): out |= {w, w.split(".")[-1]}
    return out
RULES = [(r" ≤ ", " < ", "≤ becomes <"), (r" < ", " ≤ ", "< becomes ≤"), (r" ≥ ", " > ", "≥ becomes >"), (r" > ", " ≥ ", "> becomes ≥"),
         (r" && ", " || ", "and becomes or"), (r" \|\| ", " && ", "or becomes and"), (r" ∧ ", " ∨ ", "and becomes or"), (r" ∨ ", " ∧ ", "or becomes and"),
         (r" == ", " != ", "equal becomes different"), (r" ≠ ", " = ", "different becomes equal"), (r" != ", " == ", "different becomes equal"),
         (r"\btrue\b", "false", "true becomes false"), (r"\bfalse\b", "true", "false becomes true"), (r" \+ 1\b", "", "the increment is left out"), (r" - 1\b", "", "the decrement is left out"),
         (r"\bif (?=\S)(?!let |h )([^\n]*?) then", r"if ¬ (\1) then", "a condition is turned round"), (r"\bsome\b", "some", None), (r"\.any\b", ".all", "any becomes all"), (r"\.all\b(?! )", ".any", "all becomes any"),
         (r"\.reverse\b", "", "the order is not turned round"), (r"\.dropLast\b", "", "the last one is kept"), (r"\.take\b", ".drop", "take becomes drop"), (r"\.drop\b", ".take", "drop becomes take"),
         (r"(?<![\w.\"'])(\d+)(?![\w\"'])", lambda m: str(int(m.group(1)) + 1), "a number is one more"), (r"\.isSome\b", ".isNone", "present becomes absent"), (r"\.isNone\b", ".isSome", "absent becomes present"),
         (r"\bfst\b", "snd", "first becomes second"), (r"\.1\b", ".2", "first becomes second"), (r"\.2\b", ".1", "second becomes first"), (r" \+ ", " - ", "plus becomes minus"), (r" - ", " + ", "minus becomes plus"),
         (r" :: ", " :: [] ++ ", None), (r" \+\+ ([\w.()]+)$", "", "what is appended is left out"), (r"=> none\b", "=> .error (.err \"\")", "nothing becomes an error"),
         (r"=> \.ok \.null\b", "=> .error (.err \"\")", "null becomes an error"), (r"\bmin\b", "max", "the smaller becomes the larger"), (r"\bmax\b", "min", "the larger becomes the smaller")]
def candidates(body):
    """(edited body, description, line) for every place a rule applies to."""
    out = []
    code = re.sub(r"--[^\n]*", lambda m: " " * len(m.group(0)), body)
    strings = [m.span() for m in re.finditer(r'"(?:\\.|[^"\\])*"', code)]
    for pattern, new, what in RULES:
        if what is None: continue
        for m in re.finditer(pattern, code, re.M):
            if any(a <= m.start() < b for a, b in strings): continue
            r = m.expand(new) if isinstance(new, str) else new(m)
            line = body[body.rfind("\n", 0, m.start()) + 1: (body + "\n").find("\n", m.end())].strip()
            out.append((body[:m.start()] + r + body[m.end():], what, line))
    lines = body.split("\n")
    for i, l in enumerate(lines):  # statements of do blocks
        if re.match(r"\s+(require |exec |M\.|m[A-Z]\w* |\w+\.save|let _ ← )", l) and i + 1 < len(lines):
            out.append(("\n".join(lines[:i] + lines[i + 1:]), "a statement is left out", l.strip()))
    for m in re.finditer(r'"((?:\\.|[^"\\])+)"', code):  # texts that are not messages
        before = code[max(0, m.start() - 12):m.start()]
        line = body[body.rfind("\n", 0, m.start()) + 1: (body + "\n").find("\n", m.end())]
        if re.search(r"\.(err|panic) $", before) or "require" in line or ".err" in line: continue
        out.append((body[:m.end() - 1] + "x" + body[m.end() - 1:], "a text is another one", line.strip()))
    return out
def definitions(path):
    text = open(path).read()
    for m in re.finditer(r"^(?:private |noncomputable |@\[[^\]]*\] )*def\s+(\S+)", text, re.M):
        end = re.compile(r"\n\s*\n|\n/-|\nend\b|\nmutual\b").search(text, m.end())
        stop = end.start() if end else len(text)
        chunk = text[m.start():stop]
        s = re.search(r":=|\n\s+\|", chunk)
        if s: yield m.group(1), text, m.start() + s.start(), stop
def main():
    rnd = random.Random(int(sys.argv[2]) if len(sys.argv) > 2 else 1)
    per = int(sys.argv[3]) if len(sys.argv) > 3 else 1
    only = sys.argv[4:]
    seen, edits = named(), []
    for path in sorted(glob.glob(ROOT + "/lean/Verif/Model/*.lean")):
        if only and os.path.basename(path) not in only: continue
        for name, text, a, b in definitions(path):
            if not os.environ.get("ALL") and (name in seen or name.split(".")[-1] in seen): continue
            cs = candidates(text[a:b])
            rnd.shuffle(cs)
            # the edit replaces the whole definition, so that it is found once
            start = text.rfind("\ndef", 0, a) if "\ndef" in text[:a] else 0
            edits.append({"file": "Model/" + os.path.basename(path), "definition": name, "alternatives":
                          [{"old": text[a:b], "new": c[0], "edit": f"{c[1]}: {c[2]}"} for c in cs[:per * 4]], "per": per, "head": text[start:a]})
    out = []
    for e in edits:
        for alt in e["alternatives"]:
            out.append({"file": e["file"], "definition": e["definition"], "old": e["head"] + alt["old"], "new": e["head"] + alt["new"], "edit": alt["edit"], "breaks": "what the theorems that failed say", "group": e["definition"], "per": e["per"]})
    json.dump(out, open(sys.argv[1], "w"), indent=1, ensure_ascii=False)
    print(len(edits), "definitions,", len(out), "alternatives")
main()
