#!/usr/bin/env python3
"""Runs the model's parser and encoder on the inputs of the repository's own parser tests.

This is a check of the model against the tests of the code (which cannot be run here), not a proof.
Usage: conformance.py  (after `lake build` in /verif/lean)
"""
import re, subprocess, json, textwrap

REPO = '/repo/crates'

def rust_strings(src):
    """All string literals of a Rust source, in order, as (position, text)."""
    out, i = [], 0
    while i < len(src):
        if src.startswith('//', i):
            i = src.find('\n', i)
            if i < 0: break
            continue
        m = re.match(r'r(#*)"', src[i:])
        if m and (i == 0 or not (src[i-1].isalnum() or src[i-1] == '_')):
            end = '"' + m.group(1)
            j = src.index(end, i + m.end())
            out.append((i, src[i + m.end():j])); i = j + len(end); continue
        if src[i] == '"':
            j, buf = i + 1, ''
            while src[j] != '"':
                if src[j] == '\\':
                    c = src[j+1]
                    if c == '\n':
                        j += 2
                        while src[j] in ' \n\t': j += 1
                        continue
                    buf += {'n': '\n', 't': '\t', 'r': '\r', '\\': '\\', '"': '"', '0': '\0'}.get(c, c)
                    j += 2
                else:
                    buf += src[j]; j += 1
            out.append((i, buf)); i = j + 1; continue
        if src[i] == "'" :
            m = re.match(r"'(\\.|[^\\'])'", src[i:])
            if m: i += m.end(); continue
        i += 1
    return out

def indoc(s):
    lines = s.split('\n')
    if lines and lines[0].strip() == '': lines = lines[1:]
    ind = min([len(l) - len(l.lstrip(' ')) for l in lines if l.strip()] or [0])
    out = [l[ind:] if l.strip() else (l[ind:] if len(l) >= ind else '') for l in lines]
    return '\n'.join(out)

def strings_in(src, fn):
    a = src.index('fn ' + fn + '(')
    b = src.find('\n}\n', a)
    body = src[a:b]
    res = []
    for pos, s in rust_strings(body):
        pre = body[max(0, pos-8):pos]
        res.append(indoc(s) if 'indoc!' in pre else s)
    return res

tests = open(f'{REPO}/hcl-edit/src/parser/tests.rs').read()
cases = []
for s in strings_in(tests, 'roundtrip_expr'): cases.append(('expr', s, s))
for s in strings_in(tests, 'roundtrip_body'): cases.append(('body', s, s))
for s in strings_in(tests, 'roundtrip_template'): cases.append(('template', s, s))
hp = strings_in(tests, 'heredoc_prefix_delimiter')
for s in hp[:3]: cases.append(('body', s, s))
for s in ["{ , }", "[ , ]", "{ foo = 1 bar = 1 }", "foo(...)", "foo(,)"]: cases.append(('expr', s, None))
for f in ['small', 'medium', 'large', 'deeply_nested']:
    s = open(f'{REPO}/testdata/data/{f}.tf').read(); cases.append(('body', s, s))
errs = []
src = open(f'{REPO}/hcl-edit/tests/parse.rs').read()
a = src.index('#[test]')
strs = rust_strings(src[a:])
i = 0
while i + 1 < len(strs):
    hcl, msg = strs[i][1], strs[i+1][1]
    pre = src[a:][max(0, strs[i][0]-10):strs[i][0]]
    if 'indoc!' in pre: hcl = indoc(hcl)
    m = re.search(r'line (\d+), column (\d+)', msg)
    if m: errs.append((hcl, int(m.group(1)), int(m.group(2)))); i += 2
    else: i += 1

def lit(s):
    return json.dumps(s, ensure_ascii=False).replace('\\/', '/')

def lines(l): return '\n'.join(l)

out = ['import Verif.Model.EditParse', 'open Verif Gram',
  'def E : PEnv := ⟨Uni.ascii, .release⟩',
  'def F : FmtEnv := ⟨Uni.ascii, fun _ => []⟩',
  'def out {α} (f : α → Str) : Outcome α → String',
  ' | .ok b => "ok " ++ String.ofList (f b)', ' | .err n => s!"err {n}"', ' | .panic => "panic"', ' | .oof => "oof"',
  'def rt (k : String) (s : String) : String :=',
  ' if k == "expr" then out (EExpr.show F) (parseExpr E s.toList)',
  ' else if k == "template" then out (showTemplate F) (parseTemplate E s.toList)',
  ' else out (EBody.show F) (parseBody E s.toList)',
  'def check (k s : String) (want : Option String) : IO Unit := do',
  ' let r := rt k s',
  ' match want with',
  ' | some w => if r != "ok " ++ w then IO.println s!"MISMATCH {k}\\n{s.quote}\\n got {r.quote}"',
  ' | none => if !r.startsWith "err" then IO.println s!"MISMATCH {k} {s.quote} got {r.quote}"',
  'def loc (s : String) (n : Nat) : Nat × Nat :=',
  ' let pre := s.toList.take n',
  ' (pre.count (Char.ofNat 10) + 1, (pre.reverse.takeWhile (· != Char.ofNat 10)).length + 1)',
  'def checkErr (s : String) (l c : Nat) : IO Unit := do',
  ' match parseBody E s.toList with',
  ' | .err n => if loc s n != (l, c) then IO.println s!"ERRLOC {s.quote} got {loc s n} want {(l, c)}"',
  ' | _ => IO.println s!"NOERR {s.quote}"']
def q(s):
    o = '"'
    for c in s:
        if c == '\n': o += '\\n'
        elif c == '\t': o += '\\t'
        elif c == '\r': o += '\\r'
        elif c == '"': o += '\\"'
        elif c == '\\': o += '\\\\'
        else: o += c
    return o + '"'
out.append('def main : IO Unit := do')
for k, s, w in cases:
    out.append(f'  check {q(k)} {q(s)} ' + ('none' if w is None else f'(some {q(w)})'))
for s, l, c in errs:
    out.append(f'  checkErr {q(s)} {l} {c}')
out.append(f'  IO.println "{len(cases)} round trips, {len(errs)} errors checked"')
open('/tmp/conformance.lean', 'w').write('\n'.join(out) + '\n')
subprocess.run(['lake', 'env', 'lean', '--run', '/tmp/conformance.lean'], cwd='/verif/lean')
