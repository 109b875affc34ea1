import Verif.Spec.Shipped
import Verif.Lemmas.DefaultDb
import Verif.Lemmas.LayerNames
import Verif.Props.Expand
import Verif.Props.State
/-! Lemmas for the data base shipped with the package (C85, C86). -/
set_option linter.unusedSectionVars false
namespace Oelint
open Spec

theorem get_toList {d : KV} {k : Str} {v : J} (h : d.get k = some v) : (k, v) ∈ d.toList := by
  induction d using KV.rec (motive_1 := fun _ => True) with
  | nil => simp [KV.get] at h
  | cons k' v' r _ ih =>
    by_cases hk : k' = k
    · subst hk; simp [KV.get] at h; simp [KV.toList, h]
    · simp [KV.get, hk] at h; simp [KV.toList, ih h]
  | dict | list | str => trivial

/-- the value is a dictionary -/
def isDictB : J → Bool
  | .dict _ => true
  | _ => false

/-- the value is a dictionary of texts -/
def textDictB : J → Bool
  | .dict d => d.toList.all (fun kv => match kv.2 with | .str _ => true | _ => false)
  | _ => false

theorem textDictB_spec {v : J} (h : textDictB v = true) : TextDict v := by
  cases v with
  | dict d =>
    refine ⟨d, rfl, fun n y hy => ?_⟩
    have := List.all_eq_true.1 h _ (get_toList hy)
    cases y with
    | str t => exact ⟨t, rfl⟩
    | _ => simp at this
  | _ => simp [textDictB] at h

/-- the value is a list -/
def isListB : J → Bool
  | .list _ => true
  | _ => false

theorem isListB_spec {v : J} (h : isListB v = true) : ∃ l, v = .list l := by
  cases v with
  | list l => exact ⟨l, rfl⟩
  | _ => simp [isListB] at h

/-- the base set of the shipped data base -/
def shippedBase : KV :=
  match valueAt [c!"sets", c!"base"] shippedDb with
  | some (.dict d) => d
  | _ => .nil

theorem shipped_base : valueAt [c!"sets", c!"base"] shippedDb = some (.dict shippedBase) := rfl

theorem shipped_readable : Readable shippedDb := by
  refine ⟨⟨_, rfl⟩, fun k x hx => ?_⟩
  have h : shippedDb = .dict (match shippedDb with | .dict d => d | _ => .nil) := rfl
  have hall : (match shippedDb with | .dict d => d.toList.all (fun kv => isDictB kv.2) | _ => false) = true := by decide +kernel
  rw [h] at hx hall
  generalize (match shippedDb with | .dict d => d | _ => .nil) = d at hx hall
  simp only [valueAt] at hx
  cases hg : d.get k with
  | none => rw [hg] at hx; cases hx
  | some y =>
    rw [hg] at hx; cases hx
    have := List.all_eq_true.1 hall _ (get_toList hg)
    cases x with
    | dict d => exact ⟨d, rfl⟩
    | _ => simp [isDictB] at this

theorem shipped_usable : UsableConstants shippedDb := by
  refine ⟨shipped_readable.1, fun k _ x hx => shipped_readable.2 k x hx, fun x hx => ?_, fun k hk x hx => ?_⟩
  · rw [shipped_base] at hx; cases hx
    exact textDictB_spec (by decide +kernel)
  · simp only [List.mem_cons, List.not_mem_nil, or_false] at hk
    rcases hk with rfl | rfl
    · have : (valueAt [c!"replacements", c!"distros"] shippedDb).all isListB = true := by decide +kernel
      rw [hx] at this; exact isListB_spec this
    · have : (valueAt [c!"replacements", c!"machines"] shippedDb).all isListB = true := by decide +kernel
      rw [hx] at this; exact isListB_spec this

section
variable [Uni]

theorem removeItems_consts (l : List Item) : ∀ s : Stash, (removeItems l s).2.consts = s.consts := by
  induction l with
  | nil => intro s; rfl
  | cons x xs ih =>
    intro s
    rw [removeItems_cons]
    split
    · exact ih _
    · rfl

theorem history_consts {W : World} {P : Call → Prop} {s s' : Stash} (h : History W P s s') (hu : UsableConstants s.consts) :
    UsableConstants s'.consts ∧ SameButNames s.consts s'.consts := by
  induction h with
  | nil => exact ⟨hu, sameButNames_refl _⟩
  | @snoc s1 h depth c hc ih =>
    obtain ⟨h1, h2⟩ := ih
    cases c with
    | addFile p o f =>
      obtain ⟨h3, h4, -⟩ := addFile_grow W depth p o f s1 h1
      exact ⟨h3, sameButNames_trans h2 h4⟩
    | append l => exact ⟨h1, h2⟩
    | remove l =>
      show UsableConstants (removeItems l s1).2.consts ∧ SameButNames _ (removeItems l s1).2.consts
      rw [removeItems_consts]; exact ⟨h1, h2⟩
    | finalize =>
      obtain ⟨items, map, h3, -⟩ := finalize_frame W s1
      show UsableConstants (finalize W s1).2.consts ∧ SameButNames _ (finalize W s1).2.consts
      rw [h3]; exact ⟨h1, h2⟩

theorem readable_of {db : J} (hu : UsableConstants db) (hs : SameButNames shippedDb db) : Readable db := by
  refine ⟨hu.dict, fun k x hx => ?_⟩
  by_cases hk : k = c!"replacements"
  · exact hu.sections k (by simp [hk]) x hx
  · rw [hs.1 [k] (by simp) (by simpa using hk) (by simp) (by simp)] at hx
    exact shipped_readable.2 k x hx

theorem startsShipped_consts {W : World} {s : Stash} (h : StartsShipped W s) :
    UsableConstants s.consts ∧ SameButNames shippedDb s.consts ∧ Readable s.consts := by
  obtain ⟨s0, P, h0, h⟩ := h
  obtain ⟨h1, h2⟩ := history_consts h (by rw [h0]; exact shipped_usable)
  rw [h0] at h2
  exact ⟨h1, h2, readable_of h1 h2⟩

theorem startsShipped_base {W : World} {s : Stash} (h : StartsShipped W s) : setsBase s.consts = .ok (.dict shippedBase) := by
  obtain ⟨-, h2, h3⟩ := startsShipped_consts h
  have := readKnown_eq .setsBase h3
  rw [show readKnown .setsBase = setsBase from rfl] at this
  rw [this, show [Known.setsBase.sec, Known.setsBase.key] = [c!"sets", c!"base"] from rfl,
    h2.1 _ (by decide) (by decide) (by decide) (by decide), shipped_base]
  rfl

/-! ### references in a text -/

/-- the names a text refers to, if every `${` starts a reference -/
def refsOf : Nat → Str → Option (List Str)
  | 0, _ => none
  | _ + 1, [] => some []
  | n + 1, '$' :: '{' :: r =>
    let name := r.takeWhile (· ≠ '}')
    match r.dropWhile (· ≠ '}') with
    | _ :: r' => if name.isEmpty || name.contains '$' || name.contains '\n' then none else (refsOf n r').map (name :: ·)
    | [] => none
  | _ + 1, ['$'] => none
  | n + 1, '$' :: c :: r => if c = '$' then none else refsOf n (c :: r)
  | n + 1, c :: r => if c = '$' then none else refsOf n r

theorem refsOf_spec (n : Nat) : ∀ (t : Str) (ns : List Str), refsOf n t = some ns → Written t ns := by
  induction n with
  | zero => intro t ns h; simp [refsOf] at h
  | succ n ih =>
    intro t ns h
    unfold refsOf at h
    split at h
    · rename_i e; cases e
    · cases h; exact .nil
    · rename_i n' r e
      obtain rfl : n = n' := Nat.succ.inj e
      simp only at h
      split at h
      · rename_i c r' e'
        split at h
        · cases h
        · rename_i hn
          cases hp : refsOf n r' with
          | none => rw [hp] at h; cases h
          | some ms =>
            rw [hp] at h; cases h
            simp only [Bool.or_eq_true, not_or, List.isEmpty_iff, List.contains_iff_mem] at hn
            have hc : c = '}' := by
              have := List.head?_dropWhile_not (fun x => decide (x ≠ '}')) r
              rw [e'] at this
              simpa using this
            have hb : '}' ∉ r.takeWhile (fun x => decide (x ≠ '}')) := fun hm => by
              have := List.all_eq_true.1 List.all_takeWhile _ hm
              simp at this
            have hr : '$' :: '{' :: r = refText (r.takeWhile (fun x => decide (x ≠ '}'))) ++ r' := by
              conv_lhs => rw [← List.takeWhile_append_dropWhile (p := fun x => decide (x ≠ '}')) (l := r), e', hc]
              simp [refText]
            rw [hr]
            exact .ref ⟨hn.1.1, hn.1.2, hb, hn.2⟩ (ih _ _ hp)
      · cases h
    · cases h
    · rename_i n' c r hc e
      obtain rfl : n = n' := Nat.succ.inj e
      split at h
      · cases h
      · rename_i h1
        exact .dollar h1 (fun e => hc (by rw [e])) (ih _ _ h)
    · rename_i n' c r _ _ _ e
      obtain rfl : n = n' := Nat.succ.inj e
      split at h
      · cases h
      · rename_i h1
        exact .char h1 (ih _ _ h)

/-- a rank for the names of the shipped base set -/
def shippedRank (n : Str) : Nat :=
  if n ∈ [c!"MLPREFIX", c!"PACKAGE_BEFORE_PN", c!"SOLIBS", c!"SOLIBSDEV"] then 1 else if n ∈ shippedBase.keys then 2 else 0

/-- the definition of a name calls nothing and refers to names of smaller rank -/
def definitionOk (n t : Str) : Bool :=
  !(hasSub c!"getVar(" t) && !(hasSub c!"oe.utils.read_file(" t) &&
    match refsOf (t.length + 1) t with
    | some ns => ns.all (fun m => shippedRank m < shippedRank n)
    | none => false

theorem shipped_definitions : shippedBase.toList.all (fun kv => match kv.2 with | .str t => definitionOk kv.1 t | _ => false) = true := by
  decide +kernel

theorem shipped_definition {n : Str} {v : J} (h : shippedBase.get n = some v) : ∃ t, v = .str t ∧ NoCalls t ∧
    ∃ ns, Written t ns ∧ ∀ m ∈ ns, shippedRank m < shippedRank n := by
  have := List.all_eq_true.1 shipped_definitions _ (get_toList h)
  cases v with
  | str t =>
    simp only [definitionOk, Bool.and_eq_true, Bool.not_eq_true'] at this
    obtain ⟨⟨h1, h2⟩, h3⟩ := this
    refine ⟨t, rfl, ⟨fun hi => ?_, fun hi => ?_⟩, ?_⟩
    · rw [hasSub_iff.2 hi] at h1; cases h1
    · rw [hasSub_iff.2 hi] at h2; cases h2
    · split at h3
      · rename_i ns hns
        exact ⟨ns, refsOf_spec _ _ _ hns, fun m hm => by simpa using List.all_eq_true.1 h3 m hm⟩
      · cases h3
  | _ => simp at this

end
end Oelint
