import Verif.Lemmas.LayerNames
import Verif.Props.State
/-!
# The documented constants (C77) and the names a layer makes known (C78)

`readKnown k db` is the property of `Constants` the README names for the entry `k` of its table; `Known.sec`/`Known.key` are the
path the table gives.
-/
set_option linter.unusedSectionVars false
namespace Oelint
open Spec

/-- **C77** every property reads the value at its documented path, and the empty dictionary if there is none -/
theorem C77_read (k : Known) (db : J) (h : Readable db) :
    (∀ v, valueAt [k.sec, k.key] db = some v → readKnown k db = .ok v) ∧
    (valueAt [k.sec, k.key] db = none → readKnown k db = .ok (.dict .nil)) := by
  rw [readKnown_eq k h]
  exact ⟨fun v hv => by rw [hv]; rfl, fun hv => by rw [hv]; rfl⟩

/-- **C77** `AddConstants({sec: {key: l}})`: the constant reads its old list followed by `l` (or `l` if there was none), every other
constant reads what it read before, and the data base stays readable -/
theorem C77_add (k : Known) (db : J) (l : List Str) (h : Readable db)
    (hl : ∀ x, valueAt [k.sec, k.key] db = some x → ∃ xs, x = .list xs) :
    ∃ db', addConstants db (entry k.sec k.key (.list l)) = (db', none) ∧ Readable db' ∧
      (∀ xs, readKnown k db = .ok (.list xs) → readKnown k db' = .ok (.list (xs ++ l))) ∧
      (readKnown k db = .ok (.dict .nil) → readKnown k db' = .ok (.list l)) ∧
      ∀ k', k' ≠ k → readKnown k' db' = readKnown k' db := by
  obtain ⟨h1, -, -, h3, h4, h5⟩ := entry_add (l := l) h.1 (fun x hx => h.2 k.sec x hx) hl
  have h2 := entry_add_readable (l := l) h hl
  refine ⟨_, Prod.ext rfl h1, h2, fun xs hx => ?_, fun hx => ?_, fun k' hk => ?_⟩
  · rw [readKnown_eq k h] at hx
    cases hv : valueAt [k.sec, k.key] db with
    | none => rw [hv] at hx; cases hx
    | some v =>
      rw [hv] at hx; cases hx
      rw [readKnown_eq k h2, h3 xs hv]; rfl
  · rw [readKnown_eq k h] at hx
    cases hv : valueAt [k.sec, k.key] db with
    | none => rw [readKnown_eq k h2, h4 hv]; rfl
    | some v =>
      obtain ⟨xs, rfl⟩ := hl v hv
      rw [hv] at hx; cases hx
  · rw [readKnown_eq k' h2, readKnown_eq k' h, h5 _ (by simp) (by simp) (fun e => hk (known_inj (List.cons.inj e).1
      (List.cons.inj (List.cons.inj e).2).1))]

/-- **C77** `RemoveConstants({sec: {key: l}})`: the constant reads its old list without the entries of `l`, every other constant
reads what it read before -/
theorem C77_remove (k : Known) (db : J) (l xs : List Str) (h : Readable db) (hx : readKnown k db = .ok (.list xs)) :
    ∃ db' r, removeConstants db (entry k.sec k.key (.list l)) = (db', none) ∧ Readable db' ∧
      readKnown k db' = .ok (.list r) ∧ r.Sublist xs ∧ (∀ x, r.count x = if x ∈ l then 0 else xs.count x) ∧
      ∀ k', k' ≠ k → readKnown k' db' = readKnown k' db := by
  have hv : valueAt [k.sec, k.key] db = some (.list xs) := by
    rw [readKnown_eq k h] at hx
    cases hv : valueAt [k.sec, k.key] db with
    | none => rw [hv] at hx; cases hx
    | some v => rw [hv] at hx; cases hx; rfl
  obtain ⟨h1, h2, ⟨r, h3, h4, h6⟩, h5⟩ := entry_remove (l := l) h hv
  refine ⟨_, r, Prod.ext rfl h1, h2, by rw [readKnown_eq k h2, h3]; rfl, h4, h6, fun k' hk => ?_⟩
  rw [readKnown_eq k' h2, readKnown_eq k' h, h5 _ (by simp) (by simp) (fun e => hk (known_inj (List.cons.inj e).1
      (List.cons.inj (List.cons.inj e).2).1))]

/-- **C77** `OverrideConstants({sec: {key: l}})`: the constant reads `l`, every other constant reads what it read before -/
theorem C77_override (k : Known) (db : J) (l : List Str) (h : Readable db) :
    ∃ db', overrideConstants db (entry k.sec k.key (.list l)) = (db', none) ∧ Readable db' ∧
      readKnown k db' = .ok (.list l) ∧ ∀ k', k' ≠ k → readKnown k' db' = readKnown k' db := by
  obtain ⟨h1, h2, h3, h5⟩ := entry_override (a := k.sec) (b := k.key) (l := l) h
  refine ⟨_, Prod.ext rfl h1, h2, by rw [readKnown_eq k h2, h3]; rfl, fun k' hk => ?_⟩
  rw [readKnown_eq k' h2, readKnown_eq k' h, h5 _ _ (fun e => hk (known_inj e.1 e.2))]

/-- a data base with known functions and machines -/
def Sample.constants : J := .dict (.cons c!"functions" (.dict (.cons c!"known" (.list [c!"do_a", c!"do_b"]) .nil))
  (.cons c!"replacements" (.dict (.cons c!"machines" (.list [c!"qemux86"]) .nil)) .nil))

theorem Sample.constants_readable : Readable Sample.constants := by
  refine ⟨⟨_, rfl⟩, fun k x hx => ?_⟩
  simp only [Sample.constants, valueAt, KV.get] at hx
  by_cases h1 : (c!"functions" == k) = true
  · rw [if_pos h1] at hx; cases hx; exact ⟨_, rfl⟩
  · rw [if_neg h1] at hx
    by_cases h2 : (c!"replacements" == k) = true
    · rw [if_pos h2] at hx; cases hx; exact ⟨_, rfl⟩
    · rw [if_neg h2] at hx; cases hx

/-- C77: the hypotheses are met, and the known functions grow -/
example : ∃ db', addConstants Sample.constants (entry c!"functions" c!"known" (.list [c!"do_c"])) = (db', none) ∧
    readKnown .functionsKnown db' = .ok (.list [c!"do_a", c!"do_b", c!"do_c"]) ∧
    readKnown .machinesKnown db' = .ok (.list [c!"qemux86"]) := by
  obtain ⟨db', h1, -, h3, -, h5⟩ := C77_add .functionsKnown Sample.constants [c!"do_c"] Sample.constants_readable
    (fun x hx => by cases hx; exact ⟨_, rfl⟩)
  exact ⟨db', h1, h3 _ rfl, by rw [h5 _ (by decide)]; rfl⟩

/-- C77: the hypotheses of the other two are met -/
example : (∃ db' r, removeConstants Sample.constants (entry c!"functions" c!"known" (.list [c!"do_a"])) = (db', none) ∧
      readKnown .functionsKnown db' = .ok (.list r) ∧ r.count c!"do_a" = 0 ∧ r.count c!"do_b" = 1) ∧
    ∃ db', overrideConstants Sample.constants (entry c!"ignore" c!"classes" (.list [c!"x"])) = (db', none) ∧
      readKnown .classIgnore db' = .ok (.list [c!"x"]) := by
  constructor
  · obtain ⟨db', r, h1, -, h3, -, h5, -⟩ := C77_remove .functionsKnown Sample.constants [c!"do_a"] _ Sample.constants_readable rfl
    exact ⟨db', r, h1, h3, by rw [h5]; decide, by rw [h5]; decide⟩
  · obtain ⟨db', h1, -, h3, -⟩ := C77_override .classIgnore Sample.constants [c!"x"] Sample.constants_readable
    exact ⟨db', h1, h3⟩

section
variable [Uni]

/-- **C78** `AddDistroMachineFromLayer(path)` for a path in a layer: the stems of the files `conf/distro/*.conf` of the layer are added
to the known distros, those of `conf/machine/*.conf` to the known machines, in order; all other constants and everything else
stay as they are. -/
theorem C78_layer (W : World) (path root : Str) (hroot : getLayerRoot W path = .ok root) (hr : root ≠ []) (s : Stash)
    (h : UsableConstants s.consts) (distros machines : List Str)
    (hd : List.Forall₂ ConfNamed (layerConfs W root c!"distro") distros)
    (hm : List.Forall₂ ConfNamed (layerConfs W root c!"machine") machines) :
    ∃ db, addDistroMachine W path s = (.ok (), { s with consts := db }) ∧ UsableConstants db ∧
      namesAt c!"distros" db = namesAt c!"distros" s.consts ++ distros ∧
      namesAt c!"machines" db = namesAt c!"machines" s.consts ++ machines ∧ SameButNames s.consts db := by
  have hmap : ∀ l ns, List.Forall₂ ConfNamed l ns → l.map (fun c => (splitext (basename c)).1) = ns := by
    intro l ns hl
    induction hl with
    | nil => rfl
    | cons h1 _ ih => rw [List.map_cons, ih, confNamed_stem h1]
  obtain ⟨db, h1, h2, h3, h4, h5⟩ := addDistroMachine_names hroot hr s h
  exact ⟨db, h1, h2, by rw [h3, hmap _ _ hd], by rw [h4, hmap _ _ hm], h5⟩

/-- **C78** a path outside of layers changes nothing -/
theorem C78_no_layer (W : World) (path : Str) (hroot : getLayerRoot W path = .ok []) (s : Stash) :
    addDistroMachine W path s = (.ok (), s) := addDistroMachine_outside hroot s

/-- **C78** After `AddFile` of a file in a layer - one that was not skipped - the names of the layer are known: they are the last ones
of the known distros and machines. -/
theorem C78_add_file (W : World) (fuel : Nat) (path : Str) (off : Int) (forced : Option Str) (s s' : Stash) (res : List Item)
    (hnew : alreadySeen s (abspath W.cwd path) = false) (hok : addFile W (fuel + 1) path off forced s = (.ok res, s'))
    (h : UsableConstants s.consts) (root : Str) (hroot : getLayerRoot W (abspath W.cwd path) = .ok root) (hr : root ≠ [])
    (distros machines : List Str)
    (hd : List.Forall₂ ConfNamed (layerConfs W root c!"distro") distros)
    (hm : List.Forall₂ ConfNamed (layerConfs W root c!"machine") machines) :
    distros <:+ namesAt c!"distros" s'.consts ∧ machines <:+ namesAt c!"machines" s'.consts := by
  obtain ⟨s3, s4, h1, h2, h3⟩ := addFile_layer hnew hok
  obtain ⟨db, h4, -, h5, h6, -⟩ := C78_layer W _ root hroot hr s3 (h1 h).1 distros machines hd hm
  rw [h2] at h4
  injection h4 with _ h4
  rw [h3, h4]
  exact ⟨⟨_, h5.symm⟩, ⟨_, h6.symm⟩⟩

/-- **C78** Whatever `AddFile` is called on, and whether it succeeds or not: the names known before stay known, in order; the names
added are stems of `.conf` files of layers; all other constants stay as they are; and the constants have the documented types. -/
theorem C78_add_file_keeps (W : World) (fuel : Nat) (path : Str) (off : Int) (forced : Option Str) (s s' : Stash)
    (r : Except PyErr (List Item)) (hrun : addFile W fuel path off forced s = (r, s')) (h : UsableConstants s.consts) :
    UsableConstants s'.consts ∧ SameButNames s.consts s'.consts ∧
    ∀ key dir, (key, dir) ∈ [(c!"distros", c!"distro"), (c!"machines", c!"machine")] →
      namesAt key s.consts <+: namesAt key s'.consts ∧
      ∀ n ∈ namesAt key s'.consts, n ∈ namesAt key s.consts ∨ ∃ f root conf, getLayerRoot W f = .ok root ∧ root ≠ [] ∧
        conf ∈ layerConfs W root dir ∧ ∀ m, ConfNamed conf m → n = m := by
  have := addFile_grow W fuel path off forced s
  rw [hrun] at this
  obtain ⟨h1, h2, h3⟩ := this h
  refine ⟨h1, h2, fun key dir hk => ⟨(h3 key dir hk).1, fun n hn => ?_⟩⟩
  rcases (h3 key dir hk).2 n hn with hn | ⟨f, root, conf, g1, g2, g3, g4⟩
  · exact Or.inl hn
  · exact Or.inr ⟨f, root, conf, g1, g2, g3, fun m hm => g4.trans (confNamed_stem hm)⟩

/-- **C78** the names are what `DistrosKnown` and `MachinesKnown` return, and an override that is a distro of the layer is
recognised by `GetDistroEntry` -/
theorem C78_recognised (db : J) (h : Readable db) (n : Str) (hn : n ∈ namesAt c!"distros" db) :
    ∃ l, readKnown .distrosKnown db = .ok (.list l) ∧ l = namesAt c!"distros" db ∧
      ∀ subs : List Str, n ∈ subs → ∃ e ∈ subs, e ∈ l ∧ getDistroEntry (fun x => J.has x (.list l)) subs = e := by
  unfold namesAt at hn
  cases hv : valueAt [c!"replacements", c!"distros"] db with
  | none => rw [hv] at hn; cases hn
  | some x =>
    rw [hv] at hn
    cases x with
    | dict d => cases hn
    | str t => cases hn
    | list l =>
      refine ⟨l, (C77_read .distrosKnown db h).1 _ hv, by unfold namesAt; rw [hv], fun subs hs => ?_⟩
      simp only at hn
      unfold getDistroEntry
      cases hf : subs.filter (fun x => J.has x (.list l)) with
      | nil =>
        have : n ∈ subs.filter (fun x => J.has x (.list l)) := List.mem_filter.2 ⟨hs, by simpa [J.has] using hn⟩
        rw [hf] at this; cases this
      | cons e es =>
        have : e ∈ subs.filter (fun x => J.has x (.list l)) := by rw [hf]; exact .head _
        obtain ⟨h1, h2⟩ := List.mem_filter.1 this
        exact ⟨e, h1, by simpa [J.has] using h2, rfl⟩

end

attribute [local instance] Sample.asciiUni

/-- a layer with a distro, a machine and a recipe -/
def Sample.confLayer : World :=
  { Sample.world [(c!"/l/conf/layer.conf", []), (c!"/l/r/b_1.bb", c!"A = \"1\"\n")] with
    glob := fun p => if p = c!"/l/conf/distro/*.conf" then [c!"/l/conf/distro/my.conf"]
      else if p = c!"/l/conf/machine/*.conf" then [c!"/l/conf/machine/m1.conf", c!"/l/conf/machine/m-2.0.conf"] else [] }

theorem Sample.usableConstants : UsableConstants Sample.constants := by
  refine ⟨⟨_, rfl⟩, fun k _ x hx => Sample.constants_readable.2 k x hx, fun x hx => (by cases hx), fun k hk x hx => ?_⟩
  simp only [List.mem_cons, List.not_mem_nil, or_false] at hk
  rcases hk with rfl | rfl
  · cases hx
  · cases hx; exact ⟨_, rfl⟩

theorem Sample.confNames : List.Forall₂ ConfNamed (layerConfs Sample.confLayer c!"/l" c!"distro") [c!"my"] ∧
    List.Forall₂ ConfNamed (layerConfs Sample.confLayer c!"/l" c!"machine") [c!"m1", c!"m-2.0"] :=
  ⟨.cons ⟨c!"/l/conf/distro", by decide⟩ .nil, .cons ⟨c!"/l/conf/machine", by decide⟩ (.cons ⟨c!"/l/conf/machine", by decide⟩ .nil)⟩

/-- C78: the hypotheses are met -/
example : ∃ db, addDistroMachine Sample.confLayer c!"/l/r/b_1.bb" { Sample.stash with consts := Sample.constants } =
      (.ok (), { Sample.stash with consts := db }) ∧
    namesAt c!"distros" db = [c!"my"] ∧ namesAt c!"machines" db = [c!"qemux86", c!"m1", c!"m-2.0"] := by
  obtain ⟨db, h1, -, h2, h3, -⟩ := C78_layer Sample.confLayer c!"/l/r/b_1.bb" c!"/l" (by decide +kernel) (by decide)
    { Sample.stash with consts := Sample.constants } Sample.usableConstants _ _ Sample.confNames.1 Sample.confNames.2
  exact ⟨db, h1, h2, h3⟩

example : getLayerRoot Sample.confLayer c!"/x/b_1.bb" = .ok [] := by decide +kernel

/-- C78: adding the recipe makes the machines known, and the override of the distro is recognised -/
example : ∃ res s', addFile Sample.confLayer 2 c!"/l/r/b_1.bb" 0 none { Sample.stash with consts := Sample.constants } = (.ok res, s') ∧
    c!"m1" ∈ namesAt c!"machines" s'.consts ∧ c!"qemux86" ∈ namesAt c!"machines" s'.consts ∧
    c!"my" ∈ namesAt c!"distros" s'.consts := by
  have hok : Sample.okAnd
    (addFile Sample.confLayer 2 c!"/l/r/b_1.bb" 0 none { Sample.stash with consts := Sample.constants }) (fun _ => true) = true := by decide +kernel
  obtain ⟨res, s', h, -⟩ := Sample.okAnd_iff.1 hok
  obtain ⟨h1, h2⟩ := C78_add_file Sample.confLayer 1 c!"/l/r/b_1.bb" 0 none _ s' res (by decide +kernel) h Sample.usableConstants
    c!"/l" (by decide +kernel) (by decide) _ _ Sample.confNames.1 Sample.confNames.2
  obtain ⟨-, -, h3⟩ := C78_add_file_keeps Sample.confLayer 2 c!"/l/r/b_1.bb" 0 none _ s' _ h Sample.usableConstants
  exact ⟨res, s', h, h2.mem (by decide), (h3 c!"machines" c!"machine" (by decide)).1.mem (by decide), h1.mem (by decide)⟩

example : ∃ l, readKnown .distrosKnown (.dict (entry c!"replacements" c!"distros" (.list [c!"poky", c!"my"]))) = .ok (.list l) ∧
    ∃ e ∈ [c!"append", c!"my"], e ∈ l ∧ getDistroEntry (fun x => J.has x (.list l)) [c!"append", c!"my"] = e := by
  obtain ⟨l, h1, -, h3⟩ := C78_recognised (.dict (entry c!"replacements" c!"distros" (.list [c!"poky", c!"my"])))
    ⟨⟨_, rfl⟩, fun k x hx => by
      rw [entry_value] at hx
      simp only at hx
      split at hx
      · cases hx; exact ⟨_, rfl⟩
      · cases hx⟩ c!"my" (by decide)
  exact ⟨l, h1, h3 _ (by decide)⟩

end Oelint
