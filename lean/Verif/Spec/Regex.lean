import Verif.Model.Parser
import Mathlib.Logic.Relation
/-! What regular expressions mean, without any matching strategy (C103). -/
namespace Oelint.Spec
variable [Uni]

/-- a place in a text: the number of characters before it, and what follows -/
abbrev Place := Nat × Str

/-- `Spells r a b`: the text between the places `a` and `b` is one that `r` describes (and what `r` says about the surroundings is true).
Nothing is said about the order in which a matcher looks for it. An atomic group is read like the group. -/
def Spells : Re → Place → Place → Prop
  | .eps => fun a b => a = b
  | .lit w => fun a b => a.2 = w ++ b.2 ∧ b.1 = a.1 + w.length
  | .any => fun a b => ∃ x, x ≠ '\n' ∧ a.2 = x :: b.2 ∧ b.1 = a.1 + 1
  | .cls neg items => fun a b => ∃ x, ((∃ i ∈ items, i.test x = true) ↔ neg = false) ∧ a.2 = x :: b.2 ∧ b.1 = a.1 + 1
  | .seq r q => fun a b => ∃ c, Spells r a c ∧ Spells q c b
  | .alt r q => fun a b => Spells r a b ∨ Spells q a b
  | .star _ r => Relation.ReflTransGen (Spells r)
  | .grp _ r => Spells r
  | .bos => fun a b => a = b ∧ a.1 = 0
  | .eos => fun a b => a = b ∧ (a.2 = [] ∨ a.2 = c!"\n")
  | .look neg r => fun a b => a = b ∧ ((∃ c, Spells r a c) ↔ neg = false)
  | .atomic r => Spells r

/-- the expression describes the beginning of the text -/
def Describes (r : Re) (t : Str) : Prop := ∃ b, Spells r (0, t) b

/-- no possessive repetition -/
def Backtracks : Re → Prop
  | .seq a b | .alt a b => Backtracks a ∧ Backtracks b
  | .star _ r | .grp _ r | .look _ r => Backtracks r
  | .atomic _ => False
  | _ => True

/-- the kinds of statements and how they are written, in the order in which they are tried (`/repo/oelint_parser/parser.py:31-63,254-272`) -/
def rules : List (Str × Str) :=
  [ (c!"Comment", c! r##"^(\s|\t)*#+\s*(?P<body>.*)"##),
    (c!"Function", c! r##"^((?P<py>python)\s*|(?P<fr>fakeroot\s*))*(?P<func>[\w\.\-\+\{\}:\$]+)?\s*\(\s*\)\s*\{(?P<funcbody>.*)\s*\}"##),
    (c!"Inherit", c! r##"^(\s|\t)*(?P<statement>inherit(_defer)*)(\s+|\t+)(?P<inhname>.+)"##),
    (c!"Inherit", c! r##"^INHERIT(?P<varop>(\s|\t)*(\+|\?|\:|\.)*=(\+|\.)*(\s|\t)*)('|\")(?P<inhname>.*)('|\")"##),
    (c!"Export", c! r##"^\s*?export(\s+|\t+)(?P<name>.+)\s*=\s*\"(?P<value>.*)\""##),
    (c!"Export", c! r##"^\s*?export(\s+|\t+)(?P<name>.+)\s*$"##),
    (c!"PythonBlock", c! r##"^(\s*|\t*)def(\s+|\t+)(?P<funcname>[a-z0-9_\-]+)(\s*|\t*)\(.*\)\:"##),
    (c!"Include", c! r##"^(\s*|\t*)(?P<statement>include|require)(\s+|\t+)(?P<incname>[A-za-z0-9\-\./\$\{\}]+)"##),
    (c!"IncludeAll", c! r##"include_all\s+(?P<file>.+)"##),
    (c!"TaskAdd", c! r##"^(\s*|\t*)addtask\s+(?P<func>[\w\-]+)\s*((before\s*(?P<before>(([^#\n]*(?=after))|([^#\n]*))))|(after\s*(?P<after>(([^#\n]*(?=before))|([^#\n]*)))))*(?P<comment>#.*|.*?)"##),
    (c!"TaskDel", c! r##"^(\s*|\t*)deltask\s+(?P<func>[\w\-]+)\s*(?P<comment>#.*)*"##),
    (c!"Unset", c! r##"^(\s+|\t+)*unset(\s+|\t+)+(?P<varname>.+?)(\[*(?P<flag>.+)\])*"##),
    (c!"FlagAssignment", c! r##"^(\s*|\t*)(?P<name>([A-Z0-9a-z_.-]|\$|\{|\}|:)+?)\[(?P<ident>(\w|-|\.|/|@|_)+)\](?P<varop>(\s|\t)*(\+|\?|\:|\.)*=(\+|\.)*(\s|\t)*)(?P<varval>.*)"##),
    (c!"FunctionExports", c! r##"^EXPORT_FUNCTIONS\s+(?P<func>.*)"##),
    (c!"AddPylib", c! r##"^(\s+|\t*)addpylib(\s+|\t+)(?P<path>\$\{LAYERDIR\}/.+)(\s+|\t+)(?P<namespace>.*)"##),
    (c!"AddFragements", c! r##"addfragments\s+(?P<path>.+)\s+(?P<variable>.+)\s+(?P<flagged>.+)"##),
    (c!"Variable", c! r##"^(?P<varname>([A-Z0-9a-z_.-]|\$|\{|\}|:)+?)(?P<varop>(\s|\t)*(\+|\?|\:|\.)*=(\+|\.)*(\s|\t)*)(?P<varval>.*)"##) ]

/-- the text (one line) starts as the pattern says -/
def WrittenAs (pattern t : Str) : Prop := ∃ p, compile pattern = some p ∧ Describes p.re t

/-- The two cases in which a statement is passed on to the following kinds: `addtask` for what looks like a script of a package, and an
`include` of a file that, by the constants `db`, is to be ignored (the name of the file is written in the text, and expanded). -/
def PassedOn (W : World) (db : J) (kind t : Str) : Prop :=
  (kind = c!"TaskAdd" ∧ ∃ x ∈ [c!"pkg_preinst", c!"pkg_postinst", c!"pkg_prerm", c!"pkg_postrm"], x <:+: t) ∨
  (kind = c!"Include" ∧ ∃ (written name : Str) (s : Stash) (file : Str) (ignored : J), written <:+: t ∧
    expandTerm W s file written = .ok name ∧ includeIgnore db = .ok ignored ∧ ignored.has name = true)

end Oelint.Spec
