import Verif.Model.Patterns
/-!
# `inlinerep`: known inline python helpers

`/repo/oelint_parser/inlinerep.py`, function by function.  `m.group(x)` of a group that always takes part in a match is
written `.getD []`.
-/
namespace Oelint
variable [Uni]

/-- `.strip("\"'")`, used by every function of `/repo/oelint_parser/inlinerep.py`. -/
def stripQuotes (s : Str) : Str := stripP (oneOf c!"\"'") s

/-- The common body of the helpers with a true and a false argument
(`/repo/oelint_parser/inlinerep.py:60-67`, repeated at 80-87, 100-107, 120-127, 184-191, 204-211, 224-231). -/
def twoBranch (needle : Str) (p : Pattern) (inp : Str) (neg : Bool) : Option Str :=
  if hasSub needle inp then
    match reMatch p.re inp with
    | some m =>
      if neg then some (stripQuotes ((p.group m c!"falseval").getD []))
      else some (stripQuotes ((p.group m c!"trueval").getD []))
    | none => none
  else none

/-- The common body of the helpers with a true argument only (`/repo/oelint_parser/inlinerep.py:40-47`, 244-251). -/
def oneBranch (needle : Str) (p : Pattern) (inp : Str) (neg : Bool) : Option Str :=
  if hasSub needle inp then
    match reMatch p.re inp with
    | some m => if neg then some [] else some (stripQuotes ((p.group m c!"trueval").getD []))
    | none => none
  else none

/-- `'1' if not m.groupdict().get(x, '') else m.group(x)`. -/
def orDefault (d : Str) (g : Option Str) : Str :=
  match g with
  | none => d
  | some [] => d
  | some s => s

/-- The common body of the distro feature helpers (`/repo/oelint_parser/inlinerep.py:140-149`, 162-171). -/
def featBranch (needle : Str) (p : Pattern) (inp : Str) (neg : Bool) : Option Str :=
  if hasSub needle inp then
    match reMatch p.re inp with
    | some m =>
      let trueval := orDefault c!"1" (p.group m c!"trueval")
      let falseval := orDefault [] (p.group m c!"falseval")
      if neg then some (stripQuotes falseval) else some (stripQuotes trueval)
    | none => none
  else none

/-- `/repo/oelint_parser/inlinerep.py:30-47` -/
def bbUtilsFilter := oneBranch c!"bb.utils.filter" reBbUtilsFilter
/-- `/repo/oelint_parser/inlinerep.py:50-67` -/
def bbUtilsContains := twoBranch c!"bb.utils.contains" reBbUtilsContains
/-- `/repo/oelint_parser/inlinerep.py:70-87` -/
def bbUtilsContainsAny := twoBranch c!"bb.utils.contains_any" reBbUtilsContainsAny
/-- `/repo/oelint_parser/inlinerep.py:90-107` -/
def oeUtilsConditional := twoBranch c!"oe.utils.conditional" reOeUtilsConditional
/-- `/repo/oelint_parser/inlinerep.py:110-127` -/
def oeUtilsIfelse := twoBranch c!"oe.utils.ifelse" reOeUtilsIfelse
/-- `/repo/oelint_parser/inlinerep.py:130-149` -/
def oeUtilsAnyDistroFeatures := featBranch c!"oe.utils.any_distro_features" reOeUtilsAnyDistroFeatures
/-- `/repo/oelint_parser/inlinerep.py:152-171` -/
def oeUtilsAllDistroFeatures := featBranch c!"oe.utils.all_distro_features" reOeUtilsAllDistroFeatures
/-- `/repo/oelint_parser/inlinerep.py:174-191` -/
def oeUtilsVartrue := twoBranch c!"oe.utils.vartrue" reOeUtilsVartrue
/-- `/repo/oelint_parser/inlinerep.py:194-211` -/
def oeUtilsLessOrEqual := twoBranch c!"oe.utils.less_or_equal" reOeUtilsLessOrEqual
/-- `/repo/oelint_parser/inlinerep.py:214-231` -/
def oeUtilsVersionLessOrEqual := twoBranch c!"oe.utils.version_less_or_equal" reOeUtilsVersionLessOrEqual
/-- `/repo/oelint_parser/inlinerep.py:234-251` -/
def oeUtilsBothContain := oneBranch c!"oe.utils.both_contain" reOeUtilsBothContain

/-- `d_getvar`, `/repo/oelint_parser/inlinerep.py:254-268` -/
def dGetvar (inp : Str) : Option Str :=
  if hasSub c!"d.getVar" inp then
    match reMatch reDGetvar.re inp with
    | some m => some (c!"${" ++ stripQuotes ((reDGetvar.group m c!"val").getD []) ++ c!"}")
    | none => none
  else none

/-- `_in.lstrip("${@").rstrip("}")`, `/repo/oelint_parser/inlinerep.py:281` -/
def cleanInline (inp : Str) : Str := rstripP (oneOf c!"}") (lstripP (oneOf c!"${@") inp)

/-- `inlinerep`, `/repo/oelint_parser/inlinerep.py:271-298` -/
def inlinerep (inp : Str) (neg : Bool) : Option Str :=
  let c := cleanInline inp
  [ bbUtilsContains c neg,
    bbUtilsContainsAny c neg,
    bbUtilsFilter c neg,
    oeUtilsAllDistroFeatures c neg,
    oeUtilsAnyDistroFeatures c neg,
    oeUtilsBothContain c neg,
    oeUtilsConditional c neg,
    oeUtilsIfelse c neg,
    oeUtilsLessOrEqual c neg,
    oeUtilsVartrue c neg,
    oeUtilsVersionLessOrEqual c neg,
    dGetvar c ].findSome? id

end Oelint
