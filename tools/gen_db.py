"""Writes lean/Verif/Model/DefaultDb.lean: the text of the data base shipped with the package, line by line, and its value."""
import json
SRC = '/repo/oelint_parser/data/const-default.json'
text = open(SRC, newline='').read()
assert text.endswith('\n') and '\r' not in text
def lit(s):
    assert all(32 <= ord(c) < 127 for c in s)
    return 'c!"' + s.replace('\\', '\\\\').replace('"', '\\"') + '"'
def val(v, ind):
    if isinstance(v, str):
        return f'.str {lit(v)}'
    if isinstance(v, list):
        return '.list [' + ', '.join(lit(x) for x in v) + ']'
    return '.dict (' + kv(list(v.items()), ind) + ')'
def kv(items, ind):
    out = ''
    for k, v in items:
        out += f'.cons {lit(k)} ({val(v, ind + 2)}) <|\n' + ' ' * ind
    return out + '.nil'
lines = text[:-1].split('\n')
with open('/verif/lean/Verif/Model/DefaultDb.lean', 'w') as f:
    f.write('''import Verif.Model.Json
/-!
# The data base shipped with the package

`/repo/oelint_parser/data/const-default.json:1-%d`, generated by `tools/gen_db.py`.
-/
namespace Oelint

/-- the lines of `/repo/oelint_parser/data/const-default.json:1-%d` -/
def shippedLines : List Str :=
  [%s]

/-- the text of the file; every line ends in a newline -/
def shippedText : Str := shippedLines.flatMap (· ++ ['\\n'])

/-- the value of the text (checked in `Verif.Lemmas.DefaultDb`) -/
def shippedDb : J :=
  %s

end Oelint
''' % (len(lines), len(lines), ',\n   '.join(lit(l) for l in lines), val(json.loads(text), 4)))
