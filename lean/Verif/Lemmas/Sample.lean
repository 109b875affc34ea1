import Verif.Model.StashOps
/-! A small concrete environment, used only in `example`s and counterexamples. -/
namespace Oelint.Sample

/-- only ASCII word characters -/
abbrev asciiUni : Uni := ⟨fun _ => false⟩

/-- a file system with the given text files; their directories exist; sets iterate in insertion order -/
def world (files : List (Str × Str)) : World where
  cwd := c!"/w"
  cwd_abs := rfl
  file := fun p => match dget p files with
    | some t => .text t
    | none => .notFound
  pathExists := fun p => dhas p files || (!p.isEmpty && files.any (fun f => (p ++ c!"/").isPrefixOf f.1))
  isFile := fun p => dhas p files
  isDir := fun p => p == c!"/" || (!p.isEmpty && files.any (fun f => (p ++ c!"/").isPrefixOf f.1))
  glob := fun _ => []
  itemOrder := id
  itemOrder_perm := fun _ => List.Perm.refl _
  strOrder := id
  strOrder_perm := fun _ => List.Perm.refl _
  urlparse := fun s => some ([], [], s)
  printable := fun _ => true
  sha1 := id

/-- a fresh stash with an empty constant data base -/
def stash : Stash := Stash.init false false J.empty 0

/-- run `p` on the result of a computation that must not fail -/
def okAnd {α} (r : Except PyErr α × Stash) (p : α → Bool) : Bool :=
  match r with
  | (.ok a, _) => p a
  | _ => false

theorem okAnd_iff {α} {r : Except PyErr α × Stash} {p : α → Bool} :
    okAnd r p = true ↔ ∃ a s', r = (.ok a, s') ∧ p a = true := by
  obtain ⟨e, s'⟩ := r
  cases e <;> simp [okAnd]

end Oelint.Sample
