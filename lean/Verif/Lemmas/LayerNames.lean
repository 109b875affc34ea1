import Verif.Lemmas.Known
import Verif.Lemmas.Succeeds
import Verif.Lemmas.RecipeNames
/-! Lemmas for the names a layer makes known (C78). -/
set_option linter.unusedSectionVars false
set_option linter.unusedSimpArgs false
namespace Oelint
variable [Uni]
open Spec

theorem confNamed_stem {conf n : Str} (h : ConfNamed conf n) : (splitext (basename conf)).1 = n := by
  obtain ⟨dir, rfl, h1, h2, h3⟩ := h
  rw [List.append_assoc, basename_file (by simp [h1])]
  have : n ++ c!".conf" = n ++ '.' :: c!"conf" := rfl
  rw [this, splitext_base h1 (by decide) (by decide)]
  cases n with
  | nil => exact absurd rfl h2
  | cons c n => exact ⟨c, by simp, fun e => h3 (by simp [e])⟩

theorem sameButNames_refl (db : J) : SameButNames db db := ⟨fun _ _ _ _ _ => rfl, fun _ _ h => h⟩
theorem sameButNames_trans {a b c : J} (h1 : SameButNames a b) (h2 : SameButNames b c) : SameButNames a c :=
  ⟨fun ks k1 k2 k3 k4 => (h2.1 ks k1 k2 k3 k4).trans (h1.1 ks k1 k2 k3 k4), fun key hk h => h2.2 key hk (h1.2 key hk h)⟩

/-- one name is added -/
theorem addConstants_name {db : J} (h : UsableConstants db) {key fn : Str} (hk : key ∈ [c!"distros", c!"machines"]) :
    ∃ db', addConstants db (replConst key fn) = (db', none) ∧ UsableConstants db' ∧ namesAt key db' = namesAt key db ++ [fn] ∧
      (∀ key', key' ≠ key → namesAt key' db' = namesAt key' db) ∧ SameButNames db db' := by
  obtain ⟨db', h1, h2⟩ := addConstants_repl h (fn := fn) hk
  have he : replConst key fn = entry c!"replacements" key (.list [fn]) := rfl
  obtain ⟨-, -, -, h3, h4, h5⟩ := entry_add (a := c!"replacements") (b := key) (l := [fn]) h.dict
    (fun x hx => h.sections _ (by decide) x hx) (fun x hx => h.lists key hk x hx)
  rw [← he, h1] at h3 h4 h5
  refine ⟨db', h1, h2, ?_, fun key' hne => ?_, fun ks k1 k2 k3 k4 => ?_, fun key' hk' hsome => ?_⟩
  · unfold namesAt
    cases hv : valueAt [c!"replacements", key] db with
    | none => rw [h4 hv]; rfl
    | some x =>
      obtain ⟨l, rfl⟩ := h.lists key hk x hv
      rw [h3 l hv]
  · unfold namesAt
    rw [h5 _ (by simp) (by simp) (by simp [hne])]
  · refine h5 ks k1 k2 ?_
    simp only [List.mem_cons, List.not_mem_nil, or_false] at hk
    rcases hk with rfl | rfl
    · exact k3
    · exact k4
  · by_cases he : key' = key
    · subst he
      cases hv : valueAt [c!"replacements", key'] db with
      | none => exact absurd hv hsome
      | some x =>
        obtain ⟨l, rfl⟩ := h.lists key' hk x hv
        rw [h3 l hv]; simp
    · rw [h5 _ (by simp) (by simp) (by simp [he])]; exact hsome

theorem addConfs_names {key : Str} (hk : key ∈ [c!"distros", c!"machines"]) (l : List Str) (s : Stash)
    (h : UsableConstants s.consts) :
    ∃ db, addConfs key l s = (.ok (), { s with consts := db }) ∧ UsableConstants db ∧
      namesAt key db = namesAt key s.consts ++ l.map (fun c => (splitext (basename c)).1) ∧
      (∀ key', key' ≠ key → namesAt key' db = namesAt key' s.consts) ∧ SameButNames s.consts db := by
  induction l generalizing s with
  | nil => exact ⟨s.consts, rfl, h, by simp, fun _ _ => rfl, sameButNames_refl _⟩
  | cons c l ih =>
    obtain ⟨db1, a1, a2, a3, a4, a5⟩ := addConstants_name h (fn := (splitext (basename c)).1) hk
    obtain ⟨db2, b1, b2, b3, b4, b5⟩ := ih { s with consts := db1 } a2
    refine ⟨db2, ?_, b2, ?_, fun k hne => (b4 k hne).trans (a4 k hne), sameButNames_trans a5 b5⟩
    · rw [addConfs_cons, a1]; exact b1
    · rw [b3]; simp only; rw [a3]; simp

theorem glob_below (root dir : Str) (hr : root ≠ []) (hd : dir ≠ []) (hn : dir.head? ≠ some '/') (hl : dir.getLast? ≠ some '/') :
    pathJoin (pathJoin (pathJoin root c!"conf") dir) c!"*.conf" = below root (c!"conf/" ++ dir ++ c!"/*.conf") := by
  have ends : ∀ a : Str, endsWith c!"/" a = true ↔ a.getLast? = some '/' := by
    intro a
    rw [endsWith_iff]
    constructor
    · rintro ⟨t, rfl⟩; simp
    · intro h
      have hne : a ≠ [] := by rintro rfl; cases h
      refine ⟨a.dropLast, ?_⟩
      rw [List.getLast?_eq_some_getLast hne] at h
      have := List.dropLast_concat_getLast hne
      rw [Option.some.inj h] at this
      exact this
  have step : ∀ (a b : Str), a ≠ [] → b.head? ≠ some '/' → pathJoin a b = below a b := by
    intro a b ha hb
    unfold pathJoin below
    have : isAbs b = false := by
      cases b with
      | nil => rfl
      | cons c b =>
        have : c ≠ '/' := fun e => hb (by simp [e])
        simp [isAbs, startsWith, List.isPrefixOf]
        exact this.symm
    rw [this]
    simp only [Bool.false_eq_true, if_false]
    by_cases he : a.getLast? = some '/'
    · rw [if_pos he, if_pos (by rw [(ends a).2 he]; simp)]
    · rw [if_neg he, if_neg (by
        rw [Bool.or_eq_true, ends]
        rintro (h | h)
        · exact ha (List.isEmpty_iff.1 h)
        · exact he h)]
      simp
  have hb : ∀ a b : Str, b ≠ [] → (below a b).getLast? = b.getLast? ∧ below a b ≠ [] := by
    intro a b hb
    unfold below
    split
    · exact ⟨by rw [List.getLast?_append]; cases hx : b.getLast? with
        | none => exact absurd (List.getLast?_eq_none_iff.1 hx) hb
        | some y => rfl, by simp [hb]⟩
    · exact ⟨by rw [List.getLast?_append]; cases hx : b.getLast? with
        | none => exact absurd (List.getLast?_eq_none_iff.1 hx) hb
        | some y => rfl, by simp [hb]⟩
  rw [step _ _ hr (by decide), step _ _ (hb _ _ (by decide)).2 hn, step _ _ (hb _ _ hd).2 (by decide)]
  have h3 : ∀ a y b : Str, y ≠ [] → y.getLast? ≠ some '/' → below (below a y) b = below a (y ++ c!"/" ++ b) := by
    intro a y b hy hy2
    conv_lhs => rw [below]
    rw [if_neg (by rw [(hb a y hy).1]; exact hy2)]
    unfold below
    split <;> simp
  rw [h3 _ _ _ hd hl, h3 _ _ _ (by decide) (by decide)]
  simp

/-- `AddDistroMachineFromLayer` adds the stems of the files of the layer, and changes nothing else -/
theorem addDistroMachine_names {W : World} {path root : Str} (hroot : getLayerRoot W path = .ok root) (hr : root ≠ []) (s : Stash)
    (h : UsableConstants s.consts) :
    ∃ db, addDistroMachine W path s = (.ok (), { s with consts := db }) ∧ UsableConstants db ∧
      namesAt c!"distros" db = namesAt c!"distros" s.consts ++ (layerConfs W root c!"distro").map (fun c => (splitext (basename c)).1) ∧
      namesAt c!"machines" db = namesAt c!"machines" s.consts ++ (layerConfs W root c!"machine").map (fun c => (splitext (basename c)).1) ∧
      SameButNames s.consts db := by
  obtain ⟨db1, a1, a2, a3, a4, a5⟩ := addConfs_names (key := c!"distros") (by decide) (layerConfs W root c!"distro") s h
  obtain ⟨db2, b1, b2, b3, b4, b5⟩ := addConfs_names (key := c!"machines") (by decide) (layerConfs W root c!"machine")
    { s with consts := db1 } a2
  refine ⟨db2, ?_, b2, ?_, ?_, sameButNames_trans a5 b5⟩
  · unfold addDistroMachine
    rw [M.bind_def, hroot]
    simp only [M.lift]
    rw [if_neg (by simpa using hr), glob_below _ _ hr (by decide) (by decide) (by decide),
      glob_below _ _ hr (by decide) (by decide) (by decide), M.bind_def]
    rw [layerConfs] at a1 b1
    rw [a1]
    simp only
    exact b1
  · rw [b4 _ (by decide), ← a3]
  · rw [b3, a4 _ (by decide)]

theorem addDistroMachine_outside {W : World} {path : Str} (hroot : getLayerRoot W path = .ok []) (s : Stash) :
    addDistroMachine W path s = (.ok (), s) := by
  unfold addDistroMachine
  rw [M.bind_def, hroot]
  rfl

/-- how the known names can change -/
def NamesGrow (W : World) (db db' : J) : Prop :=
  UsableConstants db → UsableConstants db' ∧ SameButNames db db' ∧
    ∀ key dir, (key, dir) ∈ [(c!"distros", c!"distro"), (c!"machines", c!"machine")] →
      namesAt key db <+: namesAt key db' ∧
      ∀ n ∈ namesAt key db', n ∈ namesAt key db ∨ ∃ f root conf, getLayerRoot W f = .ok root ∧ root ≠ [] ∧
        conf ∈ layerConfs W root dir ∧ n = (splitext (basename conf)).1

theorem NamesGrow.refl (W : World) (db : J) : NamesGrow W db db :=
  fun h => ⟨h, sameButNames_refl _, fun _ _ _ => ⟨List.prefix_refl _, fun _ hn => Or.inl hn⟩⟩

theorem NamesGrow.trans {W : World} {a b c : J} (h1 : NamesGrow W a b) (h2 : NamesGrow W b c) : NamesGrow W a c := by
  intro h
  obtain ⟨p1, p2, p3⟩ := h1 h
  obtain ⟨q1, q2, q3⟩ := h2 p1
  refine ⟨q1, sameButNames_trans p2 q2, fun key dir hk => ⟨(p3 key dir hk).1.trans (q3 key dir hk).1, fun n hn => ?_⟩⟩
  rcases (q3 key dir hk).2 n hn with h | h
  · exact (p3 key dir hk).2 n h
  · exact Or.inr h

theorem addDistroMachine_grow (W : World) (path : Str) :
    M.Rel (fun s s' => NamesGrow W s.consts s'.consts) (addDistroMachine W path) := by
  intro s
  cases hroot : getLayerRoot W path with
  | error e =>
    unfold addDistroMachine
    rw [M.bind_def, hroot]
    exact NamesGrow.refl W _
  | ok root =>
    by_cases hr : root = []
    · subst hr; rw [addDistroMachine_outside hroot]; exact NamesGrow.refl W _
    · intro h
      obtain ⟨db, h1, h2, h3, h4, h5⟩ := addDistroMachine_names hroot hr s h
      rw [h1]
      refine ⟨h2, h5, fun key dir hk => ?_⟩
      simp only [List.mem_cons, List.not_mem_nil, or_false, Prod.mk.injEq] at hk
      rcases hk with ⟨rfl, rfl⟩ | ⟨rfl, rfl⟩
      · rw [h3]
        refine ⟨List.prefix_append _ _, fun n hn => ?_⟩
        rcases List.mem_append.1 hn with hn | hn
        · exact Or.inl hn
        · obtain ⟨c, hc, rfl⟩ := List.mem_map.1 hn
          exact Or.inr ⟨path, root, c, hroot, hr, hc, rfl⟩
      · rw [h4]
        refine ⟨List.prefix_append _ _, fun n hn => ?_⟩
        rcases List.mem_append.1 hn with hn | hn
        · exact Or.inl hn
        · obtain ⟨c, hc, rfl⟩ := List.mem_map.1 hn
          exact Or.inr ⟨path, root, c, hroot, hr, hc, rfl⟩

theorem addFile_grow (W : World) (fuel : Nat) (path : Str) (off : Int) (forced : Option Str) :
    M.Rel (fun s s' => NamesGrow W s.consts s'.consts) (addFile W fuel path off forced) := by
  have hr : ∀ a : Stash, NamesGrow W a.consts a.consts := fun a => NamesGrow.refl W _
  have ht : ∀ a b c : Stash, NamesGrow W a.consts b.consts → NamesGrow W b.consts c.consts → NamesGrow W a.consts c.consts :=
    fun a b c => NamesGrow.trans
  induction fuel generalizing path off forced with
  | zero => exact M.Rel.raise hr _
  | succ fuel ih =>
    intro s
    by_cases hs : alreadySeen s (abspath W.cwd path) = true
    · rw [addFile_seen off forced hs]; exact hr s
    · rcases addFile_step (R := fun s s' => NamesGrow W s.consts s'.consts) ht W off forced (by simpa using hs)
        (fun o ns neg => getItems_rel hr ht (fun s => hr s) W _ (fun p o f => ih p o f) o ns neg)
        (fun s => hr s)
        (crossLink_rel hr ht (fun s l _ => hr s) (fun s _ _ => hr s) _)
        (addDistroMachine_grow W _) with ⟨e, s', he, hR⟩ | ⟨res, s4, he, hR⟩
      · rw [he]; exact hR
      · rw [he]; exact hR

/-- the last step of a successful `AddFile` makes the names of the layer of the file known -/
theorem addFile_layer {W : World} {fuel : Nat} {path : Str} {off : Int} {forced : Option Str} {s s' : Stash} {res : List Item}
    (hnew : alreadySeen s (abspath W.cwd path) = false) (h : addFile W (fuel + 1) path off forced s = (.ok res, s')) :
    ∃ s3 s4, NamesGrow W s.consts s3.consts ∧ addDistroMachine W (abspath W.cwd path) s3 = (.ok (), s4) ∧ s'.consts = s4.consts := by
  have hr : ∀ a : Stash, NamesGrow W a.consts a.consts := fun a => NamesGrow.refl W _
  have ht : ∀ a b c : Stash, NamesGrow W a.consts b.consts → NamesGrow W b.consts c.consts → NamesGrow W a.consts c.consts :=
    fun a b c => NamesGrow.trans
  rw [addFile_eq W fuel path off forced s hnew] at h
  have h1 := getItems_rel (R := fun s s' => NamesGrow W s.consts s'.consts) hr ht (fun s => hr s) W (abspath W.cwd path)
    (fun p o f => addFile_grow W fuel p o f) off s.newStyle s.negative (markSeen s (abspath W.cwd path))
  rcases hx : getItems W (addFile W fuel) (abspath W.cwd path) off s.newStyle s.negative (markSeen s (abspath W.cwd path)) with ⟨r, s1⟩
  rw [hx] at h1 h
  cases r with
  | error e => cases h
  | ok its =>
    simp only at h
    have h2 := crossLink_rel (R := fun s s' => NamesGrow W s.consts s'.consts) hr ht (fun s l _ => hr s) (fun s _ _ => hr s)
      (abspath W.cwd path) its { s1 with map := enterMap s1.map (abspath W.cwd path) forced }
    rcases hy : crossLink (abspath W.cwd path) its { s1 with map := enterMap s1.map (abspath W.cwd path) forced } with ⟨r, s3⟩
    rw [hy] at h2 h
    cases r with
    | error e => cases h
    | ok res' =>
      simp only at h
      rcases hz : addDistroMachine W (abspath W.cwd path) s3 with ⟨r, s4⟩
      rw [hz] at h
      cases r with
      | error e => cases h
      | ok u =>
        simp only at h
        have : s' = commitItems W res' s4 := by injection h with _ h; exact h.symm
        exact ⟨s3, s4, NamesGrow.trans h1 h2, hz, by rw [this]; rfl⟩

end Oelint
