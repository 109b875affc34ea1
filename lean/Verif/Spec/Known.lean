import Verif.Spec.Succeeds
/-! Specifications for the documented constants (C77) and for the names a layer makes known (C78). -/
namespace Oelint.Spec

/-- the constants listed in the table of `/repo/README.md:183-196` -/
inductive Known
  | functionsKnown | functionsOrder | classIgnore | includeIgnore | imagesClasses | imagesVariables
  | distrosKnown | machinesKnown | mirrorsKnown | setsBase | variablesKnown
deriving DecidableEq

/-- the section of a constant, as the table documents it -/
def Known.sec : Known → Str
  | .functionsKnown | .functionsOrder => c!"functions"
  | .classIgnore | .includeIgnore => c!"ignore"
  | .imagesClasses | .imagesVariables => c!"images"
  | .distrosKnown | .machinesKnown | .mirrorsKnown => c!"replacements"
  | .setsBase => c!"sets"
  | .variablesKnown => c!"variables"

/-- the key of a constant in its section, as the table documents it -/
def Known.key : Known → Str
  | .functionsKnown => c!"known"
  | .functionsOrder => c!"order"
  | .classIgnore => c!"classes"
  | .includeIgnore => c!"include"
  | .imagesClasses => c!"known-classes"
  | .imagesVariables => c!"known-variables"
  | .distrosKnown => c!"distros"
  | .machinesKnown => c!"machines"
  | .mirrorsKnown => c!"mirrors"
  | .setsBase => c!"base"
  | .variablesKnown => c!"known"

/-- the data base is a dictionary, and so are its sections -/
def Readable (db : J) : Prop := IsDict db ∧ ∀ k x, valueAt [k] db = some x → IsDict x

/-- the dictionary `{sec: {key: v}}` -/
def entry (sec key : Str) (v : J) : KV := .cons sec (.dict (.cons key v .nil)) .nil

/-- the known distros (`distros`) or machines (`machines`) of a data base -/
def namesAt (key : Str) (db : J) : List Str :=
  match valueAt [c!"replacements", key] db with
  | some (.list l) => l
  | _ => []

/-- the path of a file below a directory -/
def below (root rest : Str) : Str := if root.getLast? = some '/' then root ++ rest else root ++ c!"/" ++ rest

/-- the `.conf` files for distros or machines of the layer with the given root directory -/
def layerConfs (W : World) (root dir : Str) : List Str := W.glob (below root (c!"conf/" ++ dir ++ c!"/*.conf"))

/-- `conf` is the path of a `.conf` file with the given stem; hidden files have none -/
def ConfNamed (conf name : Str) : Prop :=
  ∃ dir, conf = dir ++ c!"/" ++ name ++ c!".conf" ∧ '/' ∉ name ∧ name ≠ [] ∧ name.head? ≠ some '.'

/-- the two data bases differ in the known distros and machines only, and neither of the two lists was lost -/
def SameButNames (db db' : J) : Prop :=
  (∀ ks, ks ≠ [] → ks ≠ [c!"replacements"] → ks ≠ [c!"replacements", c!"distros"] → ks ≠ [c!"replacements", c!"machines"] →
    valueAt ks db' = valueAt ks db) ∧
  ∀ key ∈ [c!"distros", c!"machines"], valueAt [c!"replacements", key] db ≠ none → valueAt [c!"replacements", key] db' ≠ none

end Oelint.Spec
