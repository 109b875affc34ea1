import Verif.Model.StashOps
import Lean.Data.Json
/-!
Runs the executable model on the test inputs in `/repo/tests` (as text) and prints JSON, for comparison with the
expectations written in the repository's tests. Not part of the proof development.
Usage: `lake env lean --run ../tools/RunModel.lean <cwd> <dump|expand|pkgs> files...`
-/
open Oelint Lean

instance : Uni := ⟨fun _ => true⟩
instance : Inhabited J := ⟨J.empty⟩

def kvOf (f : Json → J) : List (String × Json) → KV
  | [] => .nil
  | (k, v) :: t => .cons k.toList (f v) (kvOf f t)

partial def toJ : Json → J
  | .obj o => .dict (kvOf toJ o.toList)
  | .arr a => .list (a.toList.map (fun | .str s => s.toList | j => j.compress.toList))
  | .str s => .str s.toList
  | j => .str j.compress.toList

def j (s : Str) : Json := .str (String.ofList s)

def attrJ : Attr → Json
  | .str s => j s
  | .int i => .num i
  | .bool b => .bool b
  | .strs l => .arr (l.map j).toArray
  | .strset l => .arr (l.map j).toArray
  | .pairs l => .arr (l.map (fun p => Json.arr #[j p.1, j p.2])).toArray

def itemJ (i : Item) : Json :=
  .mkObj (("CLASS", j i.payload.classifier) :: ("items", .arr (i.getItems.map j).toArray) ::
    (i.getAttributes.map (fun (k, v) => (String.ofList k, attrJ v))))

partial def walk (d : System.FilePath) : IO (List (String × Bool)) := do
  let mut r := [(d.toString, true)]
  for e in ← d.readDir do
    if ← e.path.isDir then r := r ++ (← walk e.path) else r := r ++ [(e.path.toString, false)]
  return r

def main (args : List String) : IO Unit := do
  match args with
  | cwd :: mode :: files =>
    let dirs := (← IO.getEnv "ROOTS").getD "/repo/tests"
    let mut all : List (String × Bool) := []
    for d in dirs.splitOn ":" do all := all ++ (← walk d)
    let mut txt0 : List (Str × Str) := []
    for (p, dir) in all do
      if !dir then txt0 := (p.toList, (← IO.FS.readFile p).toList) :: txt0
    let dirsL : List Str := (all.filter (·.2)).map (·.1.toList) ++ [c!"/", c!"/repo", c!"/tmp"]
    let txt := txt0
    let db ← IO.ofExcept (Json.parse (← IO.FS.readFile "/repo/oelint_parser/data/const-default.json"))
    let W : World := {
      cwd := '/' :: cwd.toList.dropWhile (· == '/')
      cwd_abs := rfl
      file := fun p => match dget p txt with | some t => .text t | none => .notFound
      pathExists := fun p => let p := normpath p; (dget p txt).isSome || dirsL.contains p
      isFile := fun p => (dget (normpath p) txt).isSome
      isDir := fun p => dirsL.contains (normpath p)
      glob := fun _ => []
      itemOrder := id
      itemOrder_perm := fun _ => .refl _
      strOrder := id
      strOrder_perm := fun _ => .refl _
      urlparse := fun _ => none
      repr := fun _ => []
      sha1 := id }
    let neg := (← IO.getEnv "NEG").isSome
    let mut s := Stash.init false neg (toJ db) 0
    for f in files do
      if f.startsWith "=" then continue
      match addFile W 50 f.toList 0 none s with
      | (.ok _, s') => s := s'
      | (.error e, s') => s := s'; IO.eprintln s!"{f}: {repr e}"
    match finalize W s with
    | (.ok _, s') => s := s'
    | (.error e, _) => IO.eprintln s!"finalize {repr e}"
    let f0 := (abspath cwd.toList ((files.filter (fun f => !f.startsWith "=")).getLast!.toList))
    match mode with
    | "dump" => IO.println (Json.arr ((getItemsFor W s {}).map itemJ).toArray).compress
    | "expand" =>
      match expandVar W s (some f0) .none .none false with
      | .ok d => IO.println (Json.mkObj (d.map (fun (k, v) => (String.ofList k, Json.arr (v.map j).toArray)))).compress
      | .error e => IO.println s!"{repr e}"
    | "links" =>
      IO.println (Json.mkObj (s.map.map (fun (k, v) => (String.ofList k, Json.arr (v.map j).toArray)))).compress
    | "term" =>
      for f in files do
        if f.startsWith "=" then
          match expandTerm W s f0 (f.drop 1).toString.toList with
          | .ok d => IO.println (j d).compress
          | .error e => IO.println s!"{repr e}"
    | "pkgs" =>
      match getValidPackageNames W s f0 false with
      | .ok l => IO.println (Json.arr (l.map j).toArray).compress
      | .error e => IO.println s!"{repr e}"
      match isImage W s f0 with
      | .ok b => IO.println s!"image {b} group {isPackageGroup W s f0}"
      | .error e => IO.println s!"{repr e}"
    | _ => pure ()
  | _ => pure ()
