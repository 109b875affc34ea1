# Reads the pattern strings of /repo as text and writes Verif/Model/Patterns.lean (the ASTs come from the Lean parser).
import ast,subprocess,sys,os
R='/repo/oelint_parser/'
out=[]
for f in ['parser.py','cls_item.py','cls_stash.py','inlinerep.py']:
    t=ast.parse(open(R+f).read())
    for n in t.body:
        if isinstance(n,ast.Assign) and isinstance(n.value,ast.Call) and getattr(n.value.func,'attr','')=='compile':
            nm=n.targets[0].id; pat=n.value.args[0].value
            out.append((f,n.lineno,n.end_lineno,nm,pat))
def lname(f,nm):
    base=nm.strip('_').replace('__regex','').replace('_regexp','').replace('regex_','').replace('_regex','')
    parts=base.split('_')
    s=''.join(p[:1].upper()+p[1:] for p in parts)
    if f=='cls_stash.py' and base=='safeline_split': s='StashSafelineSplit'
    return 're'+s
def raw(p): 
    return ' r##"'+p+'"##'
pr='''
import Verif.Model.Regex
open Oelint
def pc (c : Char) : String := (repr c).pretty
def ps (s : Str) : String := "c!" ++ (String.ofList s).quote
def pi : CItem → String
  | .one c => s!".one {pc c}" | .range a b => s!".range {pc a} {pc b}" | .space => ".space" | .word => ".word"
def pre : Re → String
  | .eps => ".eps" | .lit s => s!"(.lit {ps s})" | .any => ".any"
  | .cls n is => s!"(.cls {n} [{String.intercalate ", " (is.map pi)}])"
  | .seq a b => s!"(.seq {pre a} {pre b})" | .alt a b => s!"(.alt {pre a} {pre b})"
  | .star g r => s!"(.star {g} {pre r})" | .grp n r => s!"(.grp {n} {pre r})" | .bos => ".bos" | .eos => ".eos"
  | .look n r => s!"(.look {n} {pre r})" | .atomic r => s!"(.atomic {pre r})"
def pp (o : Option Pattern) : String := match o with
 | none => "FAIL"
 | some p => s!"⟨{pre p.re}, [{String.intercalate ", " (p.names.map fun (a, b) => s!"({ps a}, {b})")}]⟩"
'''
for f,a,b,nm,p in out: pr+='#eval IO.println (pp (compile c!%s))\n'%raw(p)
open('/tmp/gen.lean','w').write(pr)
r=subprocess.run(['lake','env','lean','/tmp/gen.lean'],cwd='/verif/lean',capture_output=True,text=True)
lines=r.stdout.strip().split('\n')
assert len(lines)==len(out),(r.stdout[-2000:],r.stderr)
L='''import Verif.Model.Regex
/-!
# The patterns of the code base

Generated by `/verif/tools/gen_patterns.py` from the verbatim pattern strings in `/repo`.  Each definition is the syntax
tree; each `_src` theorem checks in the kernel that the verbatim source text compiles to it (and to its named groups).
-/
namespace Oelint

'''
names=[]
for (f,a,b,nm,p),t in zip(out,lines):
    ln=lname(f,nm); names.append(ln)
    assert t!='FAIL',(nm,p)
    L+='/-- `/repo/oelint_parser/%s:%d` `%s` -/\ndef %s : Pattern :=\n  %s\n\n'%(f,a if a==b else a,nm,ln,t)
    L+='theorem %s_src : compile c!%s = some %s := by decide +kernel\n\n'%(ln,raw(p),ln)
L+='/-- every pattern of the code base -/\ndef allPatterns : List Pattern :=\n  ['+', '.join(names)+']\n\n'
L+='''/-- No loop of any pattern has a body that can match the empty text, so the treatment of empty iterations in the model
never matters. -/
theorem allPatterns_loopsOk : allPatterns.all (fun p => p.re.loopsOk) = true := by decide +kernel

end Oelint
'''
open('/verif/lean/Verif/Model/Patterns.lean','w').write(L)
print(names)
