import Verif.Spec.Uri
import Verif.Spec.Queries
/-! Specifications for package names (C60, C61, C66). -/
namespace Oelint.Spec

/-- the separators of package lists: white space and the escape character that stands for a continued line -/
def Blank (c : Char) : Prop := reSpace c = true ∨ c = '\x1b'

/-- what stands between single separators, empty texts included -/
inductive SplitAt (sep : Char → Prop) : Str → List Str → Prop
  | last {w : Str} : (∀ c ∈ w, ¬ sep c) → SplitAt sep w [w]
  | cons {w s : Str} {c : Char} {ps : List Str} : (∀ x ∈ w, ¬ sep x) → sep c → SplitAt sep s ps →
      SplitAt sep (w ++ c :: s) (w :: ps)

/-- the endings of the packages every recipe has -/
def stdEndings : List Str :=
  [c!"", c!"-ptest", c!"-src", c!"-dbg", c!"-staticdev", c!"-dev", c!"-doc", c!"-locale"]

/-- an item linked to the file assigns the variable -/
def Assigned (s : Stash) (file name : Str) (v : VarData) : Prop :=
  ∃ x ∈ s.items, LinkedTo s file false x ∧ x.payload = .variable v ∧ v.varName = name

end Oelint.Spec
