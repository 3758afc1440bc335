#!/usr/bin/env python3
"""Systematic wrong programs: every small textual change of a model file that still elaborates.

    tools/automut.py SCRATCH FILE... [-n N] [-s SEED]

SCRATCH is a built copy of the Lean project outside /verif. For each change the script rebuilds the
copy and stops at the first error. A change that no proof notices is printed as SURVIVED: it is either
harmless (the same function, or a part of the model that no claim is about) or shows a weak theorem.
"""
import os
import random
import re
import subprocess
import sys
import time

RULES = [
    (r" < ", " ≤ "), (r" ≤ ", " < "), (r" > ", " ≥ "), (r" ≥ ", " > "),
    (r" \+ 1\b", ""), (r" - 1\b", ""), (r" \+ ", " - "), (r" - ", " + "), (r" \* ", " + "), (r" / ", " * "),
    (r" && ", " || "), (r" \|\| ", " && "), (r" ∧ ", " ∨ "), (r" ∨ ", " ∧ "),
    (r"\btrue\b", "false"), (r"\bfalse\b", "true"),
    (r" = ", " ≠ "), (r" ≠ ", " = "), (r" == ", " != "), (r" != ", " == "),
    (r"\bCmp\.lt\b", "Cmp.le"), (r"\bCmp\.le\b", "Cmp.lt"), (r"\bCmp\.eq\b", "Cmp.ne"), (r"\bCmp\.ne\b", "Cmp.eq"),
    (r"\bmin\b", "max"), (r"\bmax\b", "min"), (r"\.fp\b", ".fn"), (r"\.fn\b", ".fp"),
    (r"\.query\b", ".location"), (r"\.ref\b", ".hyp"), (r"\.hyp\b", ".ref"), (r"\.isSome\b", ".isNone"),
    (r"\.isNone\b", ".isSome"), (r"\.isEmpty\b", ".isEmpty.not"), (r"\.reverse\b", ""), (r"\.1\b", ".2"), (r"\.2\b", ".1"),
    (r"\bR\.f64 ", "id "), (r"\bR\.f32 ", "id "), (r"\bR\.f64 ", "R.f32 "),
    (r"\b0\b", "1"), (r"\b1\b", "0"), (r"\b1\b", "2"), (r"\b2\b", "3"), (r"\b6\b", "7"),
    (r"\bsome\b", "none"), (r"\.fst\b", ".snd"), (r"\.snd\b", ".fst"), (r"\.head\?", ".getLast?"),
    (r"\.takeWhile\b", ".dropWhile"), (r"\.dropWhile\b", ".takeWhile"), (r"\.ub\b", ".assertFail"),
    (r"(\w[\w.']*) \+\+ (\w[\w.']*)", r"\2 ++ \1"), (r" \+\+ (\w[\w.']*)", r""), (r"(\w[\w.']*) :: (\w[\w.']*)", r"\2"),
    (r"\bif (?!h\w* :)", "if ¬ "), (r"!(?=\w)", ""), (r'"([^"\\]+)"', r'"\1x"'), (r"\.w\b", ".h"), (r"\.h\b", ".w"), (r"\.x\b", ".y"),
]


def candidates(path):
    text = open(path).read()
    out = []
    # blank out comments, keeping positions
    blank = re.sub(r"/-.*?-/|--[^\n]*", lambda m: re.sub(r"[^\n]", "\0", m.group(0)), text, flags=re.S)
    for pat, rep in RULES:
        for m in re.finditer(pat, blank):
            line_start = text.rfind("\n", 0, m.start()) + 1
            line = text[line_start:text.find("\n", m.start())]
            if re.match(r"\s*(import|open|namespace|end|variable|section|set_option|termination_by|decreasing_by|universe|deriving)\b", line):
                continue
            new = text[:m.start()] + m.expand(rep) + text[m.end():]
            if new != text:
                out.append((text.count("\n", 0, m.start()) + 1, line.strip(), m.group(0), m.expand(rep), new))
    return text, out


def build(d, target, limit):
    """Build, and stop at the first error. Returns True, False or None (out of time)."""
    p = subprocess.Popen(["lake", "build"] + target, cwd=d, stdout=subprocess.PIPE, stderr=subprocess.STDOUT, text=True,
                         preexec_fn=os.setsid)
    start, ok = time.time(), None
    first = ""
    for line in p.stdout:
        if line.startswith("error:") or "✖" in line:
            ok, first = False, line.strip()
            break
        if time.time() - start > limit:
            break
    if ok is False or time.time() - start > limit:
        try:
            os.killpg(p.pid, 9)
        except ProcessLookupError:
            pass
    p.wait()
    if ok is None and p.returncode == 0:
        ok = True
    return ok, first


def main():
    a = sys.argv[1:]
    n, seed = 10 ** 9, 1
    if "-n" in a:
        i = a.index("-n"); n = int(a[i + 1]); del a[i:i + 2]
    if "-s" in a:
        i = a.index("-s"); seed = int(a[i + 1]); del a[i:i + 2]
    d, files = a[0], a[1:]
    work = []
    for f in files:
        work += [(f,) + c for c in candidates(os.path.join(d, "Verif", f))[1]]
    random.Random(seed).shuffle(work)
    done = 0
    for f, no, line, old, rep, new in work:
        if done >= n:
            break
        path = os.path.join(d, "Verif", f)
        text = open(path).read()
        mod = "Verif." + f[:-5].replace("/", ".")
        start = time.time()
        try:
            open(path, "w").write(new)
            ok, _ = build(d, [mod], 300)
            if ok is not True:
                continue
            done += 1
            ok, first = build(d, [], 3000)
            word = {True: "SURVIVED", False: "killed", None: "timeout"}[ok]
            print(f"{word} {f}:{no} {old!r} -> {rep!r} | {line} | {first} ({time.time() - start:.0f} s)", flush=True)
        finally:
            open(path, "w").write(text)
    print("end", done, "of", len(work), flush=True)


main()
