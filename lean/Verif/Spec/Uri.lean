import Verif.Spec.Inline
import Verif.Spec.Names
/-! Specifications for SRC_URI entries (C58, C66, C67). -/
namespace Oelint.Spec

/-- `out` is `s` after replacing every occurrence of the first key by its value, then of the second key, and so on -/
inductive Mirrored : List (Str × Str) → Str → Str → Prop
  | nil {s : Str} : Mirrored [] s s
  | cons {k v s s' out : Str} {ms : List (Str × Str)} : Replaced k v s s' → Mirrored ms s' out → Mirrored ((k, v) :: ms) s out

/-- `field` is `k=v`, or goes on with `=` behind `k=v` -/
def OptionField (field k v : Str) : Prop :=
  '=' ∉ k ∧ '=' ∉ v ∧ (field = k ++ '=' :: v ∨ ∃ more, field = k ++ '=' :: (v ++ '=' :: more))

/-- `v` is the value of `k` in the last field that sets `k` -/
def LastOption (fields : List Str) (k v : Str) : Prop :=
  ∃ pre f post, fields = pre ++ f :: post ∧ OptionField f k v ∧ ∀ g ∈ post, ∀ w, ¬ OptionField g k w

/-- host and path of an url, with one slash in between -/
def hostAndPath (host path : Str) : Str :=
  if path = [] then host else host ++ '/' :: path.dropWhile (fun c => c == '/')

/-- `url;k1=v1;...;kn=vn` -/
def withOptions (url : Str) (opts : List (Str × Str)) : Str :=
  joinS c!";" (url :: opts.map (fun o => o.1 ++ '=' :: o.2))

/-- `v` is the last value for `k` in `opts` -/
def LastValue (opts : List (Str × Str)) (k v : Str) : Prop :=
  ∃ pre post, opts = pre ++ (k, v) :: post ∧ ∀ o ∈ post, o.1 ≠ k

end Oelint.Spec
