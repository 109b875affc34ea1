import Verif.Props.MeaningSources
import Verif.Props.Succeeds
import Verif.Lemmas.ExpandVarExact
/-! # C124: which queries never raise -/
set_option linter.unusedSectionVars false
namespace Oelint
section
variable [Uni]
open Spec

theorem expandTermF_errors {W : World} {s : Stash} (hs : UsableConstants s.consts) {n : Nat} {f : Str} {sp : List Str} {v : Str}
    {sn : Seen} {e : PyErr} (h : expandTermF W s n f sp v sn = .error e) : e = .recursionError ∨ ∃ p, W.file p = .fails := by
  induction n generalizing f sp v sn with
  | zero => cases h; exact Or.inl rfl
  | succ n ih =>
    rw [expandTermF] at h
    obtain ⟨d, hb, hd⟩ := usable_setsBase hs
    rw [hb] at h
    simp only at h
    split at h
    · cases h; rename_i h
      obtain ⟨_, _, h⟩ := expandMany_safe hd h
      exact ih h
    · split at h
      · cases h; rename_i h
        obtain ⟨_, _, h⟩ := expandMany_safe hd h
        exact ih h
      · rcases readFiles_safe h with h | ⟨_, _, h⟩
        · exact Or.inr h.2
        · exact ih h

theorem toList_get {d : KV} (hn : d.keys.Nodup) {k : Str} {v : J} (h : (k, v) ∈ d.toList) : d.get k = some v := by
  induction d using KV.rec (motive_1 := fun _ => True) with
  | nil => simp [KV.toList] at h
  | cons k' v' r _ ih =>
    have hn' : k' ∉ r.keys ∧ r.keys.Nodup := by simpa [KV.keys] using hn
    have h' : (k = k' ∧ v = v') ∨ (k, v) ∈ r.toList := by simpa [KV.toList] using h
    rcases h' with ⟨rfl, rfl⟩ | h
    · simp [KV.get]
    · have : k' ≠ k := by
        rintro rfl
        refine hn'.1 ?_
        rw [← kv_keys_toList]
        exact List.mem_map.2 ⟨(k', v), h, rfl⟩
      simp [KV.get, this, ih hn'.2 h]
  | dict | list | str => trivial

/-- **C124** (references). `ExpandTerm` raises for no text, no file and no contents of the stash, if the constants are usable and reading a file fails only if it is missing or forbidden. -/
theorem C124_terms (W : World) (hfail : ∀ p, W.file p ≠ .fails) (s : Stash) (hs : UsableConstants s.consts) (file : Str) (spare : List Str) (value : Str) :
    ∃ o, expandTermS W s file spare value = .ok o := by
  cases h : expandTermS W s file spare value with
  | ok o => exact ⟨o, rfl⟩
  | error e =>
    exfalso
    have h2 := (C49_depth W s file spare value _ (Nat.le_refl _)).2
    have h3 := h
    unfold expandTermS at h
    cases hx : expandTermF W s (expandBound s value) file spare value [] with
    | ok a => rw [hx] at h; cases h
    | error e' =>
      rw [hx] at h
      cases h
      rcases expandTermF_errors hs hx with h | ⟨p, h⟩
      · subst h; exact h2 h3
      · exact hfail p h

/-- **C124** (values). `ExpandVar` raises for no file, no filter and no contents of the stash. -/
theorem C124_values (W : World) (hfail : ∀ p, W.file p ≠ .fails) (s : Stash) (hs : UsableConstants s.consts) (hn : ∀ b, setsBase s.consts = .ok (.dict b) → b.keys.Nodup)
    (file : Option Str) (att val : Arg) (nolink : Bool) : ∃ r, expandVar W s file att val nolink = .ok r := by
  have hinit : ∀ f, ∃ d, expInit s f = .ok d := by
    intro f
    obtain ⟨b, hb, hd⟩ := usable_setsBase hs
    unfold expInit
    rw [hb]
    exact mergeBase_ok (fun k j hm => hd k j (toList_get (hn b hb) hm)) _
  have hex : ∀ f d, ∃ r, explode W s f d [] = .ok r := fun f d => explode_succeeds [] fun kv _ => by
    obtain ⟨a, ha⟩ := C124_terms W hfail s hs f [] kv.1
    obtain ⟨b, hb⟩ := C124_terms W hfail s hs f [] (kv.2.getD [])
    exact ⟨a, b, ha, hb⟩
  unfold expandVar
  dsimp only
  split
  · exact ⟨_, rfl⟩
  · rename_i f hf
    obtain ⟨d, hd⟩ := hinit f
    rw [hd]
    exact hex _ _

/-- **C124** (packages). `GetValidPackageNames` and `GetPackagesDynamic` raise for no contents of the stash. -/
theorem C124_packages (W : World) (hfail : ∀ p, W.file p ≠ .fails) (s : Stash) (hs : UsableConstants s.consts) (file : Str) (hf : file ≠ []) (strippn : Bool) :
    (∃ r, getValidPackageNames W s file strippn = .ok r) ∧ ∃ r, getPackagesDynamic W s file = .ok r :=
  ⟨(C60_package_names W s file hf strippn).1.2 fun _ _ _ _ => C124_terms W hfail s hs file _ _, (C61_raises W s file hf).2 fun _ _ => C124_terms W hfail s hs file [] _⟩

theorem anyMatch_error {name : Str} {l : List Str} {e : PyErr} (h : anyMatch name l = .error e) : ∃ p ∈ l, compile p = none := by
  induction l with
  | nil => cases h
  | cons p l ih =>
    rw [anyMatch] at h
    cases hp : compile p with
    | none => exact ⟨p, by simp, hp⟩
    | some r =>
      unfold matchDyn at h
      rw [hp] at h
      dsimp only at h
      cases hm : (reMatch r.re name).isSome with
      | true => rw [hm] at h; cases h
      | false =>
        rw [hm] at h
        obtain ⟨q, h1, h2⟩ := ih h
        exact ⟨q, List.mem_cons_of_mem _ h1, h2⟩

/-- **C124** (dynamic packages). If `IsDynamicPackage` raises, one of the texts of `GetPackagesDynamic` is not a regular expression. -/
theorem C124_dynamic (W : World) (hfail : ∀ p, W.file p ≠ .fails) (s : Stash) (hs : UsableConstants s.consts) (file : Str) (hf : file ≠ []) (name : Str) (e : PyErr)
    (h : isDynamicPackage W s file name = .error e) : ∃ ps p, getPackagesDynamic W s file = .ok ps ∧ p ∈ ps ∧ compile p = none := by
  obtain ⟨o, ho⟩ := C124_terms W hfail s hs file [] name
  obtain ⟨ps, hp⟩ := (C124_packages W hfail s hs file hf false).2
  have ho : expandTerm W s file name = .ok o := ho
  unfold isDynamicPackage at h
  rw [ho, hp] at h
  dsimp only at h
  obtain ⟨p, h1, h2⟩ := anyMatch_error h
  exact ⟨ps, p, hp, (W.strOrder_perm ps).mem_iff.1 h1, h2⟩

/-- **C124** (any session). The same holds after any calls of `AddFile`, `Append`, `Remove` and `Finalize`, whether they succeed or raise. -/
theorem C124_session (W D : World) (hfail : ∀ p, D.file p ≠ .fails) (ns neg : Bool) (consts : J) (hu : UsableConstants consts) (hn : ∀ b, setsBase consts = .ok (.dict b) → b.keys.Nodup)
    (uid : Nat) (P : Call → Prop) (s : Stash) (h : History W P (Stash.init ns neg consts uid) s) :
    (∀ file spare value, ∃ o, expandTermS D s file spare value = .ok o) ∧ (∀ file att val nolink, ∃ r, expandVar D s file att val nolink = .ok r) ∧
    ∀ file, file ≠ [] → ∀ strippn, (∃ r, getValidPackageNames D s file strippn = .ok r) ∧ ∃ r, getPackagesDynamic D s file = .ok r := by
  have c0 : ConstsOf consts (Stash.init ns neg consts uid) := ⟨hu, otherNames_refl _⟩
  have c1 : ConstsOf consts s := history_constsOf h hu
  have hb : setsBase s.consts = setsBase consts := (twin_names W).sets (s' := { (Stash.init ns neg consts uid) with consts := s.consts }) (constsOf_names c0 c1)
  exact ⟨C124_terms D hfail s c1.1, C124_values D hfail s c1.1 (by rw [hb]; exact hn), fun file hf strippn => C124_packages D hfail s c1.1 file hf strippn⟩

/-- **C124** (the constants matter). If the preset variables are no dictionary of texts, `ExpandVar` raises for every file and every contents of the stash. -/
theorem C124_unusable (W : World) (s : Stash) (h : ∀ b, setsBase s.consts = .ok (.dict b) → ∃ kv ∈ b.toList, ∀ t, kv.2 ≠ .str t) (file : Str) (att val : Arg) (nolink : Bool) :
    ∃ e, expandVar W s (some file) att val nolink = .error e := by
  have merge : ∀ (l : List (Str × J)) (d : ExpDict), (∃ kv ∈ l, ∀ t, kv.2 ≠ .str t) → ∃ e, mergeBase l d = .error e := by
    intro l
    induction l with
    | nil => simp
    | cons kv l ih =>
      rintro d ⟨kv', hm, hne⟩
      obtain ⟨k, v⟩ := kv
      cases v with
      | str t =>
        rw [mergeBase]
        rcases List.mem_cons.1 hm with rfl | hm
        · exact absurd rfl (hne t)
        · exact ih _ ⟨kv', hm, hne⟩
      | list _ => exact ⟨_, rfl⟩
      | dict _ => exact ⟨_, rfl⟩
  have hinit : ∃ e, expInit s file = .error e := by
    unfold expInit
    cases hb : setsBase s.consts with
    | error e => exact ⟨e, rfl⟩
    | ok j =>
      cases j with
      | dict b => exact merge _ _ (h b hb)
      | list _ => exact ⟨_, rfl⟩
      | str _ => exact ⟨_, rfl⟩
  obtain ⟨e, he⟩ := hinit
  unfold expandVar
  dsimp only
  rw [he]
  exact ⟨e, rfl⟩
end

section
attribute [local instance] Sample.asciiUni
open Spec

/-- a recipe that refers to itself, with calls -/
def Sample.loopDisk : World := Sample.world [(c!"/w/a_1.0.bb", c!"A = \"${B} ${@oe.utils.read_file('${A}')}\"\nB = \"${A}${${C}}\"\nPACKAGES = \"${A}\"\n")]

theorem Sample.world_reads (l : List (Str × Str)) (p : Str) : (Sample.world l).file p ≠ .fails := by
  unfold Sample.world
  dsimp only
  split <;> simp

/-- all hypotheses of C124 hold, whatever the calls are -/
example (P : Call → Prop) (s : Stash) (h : History Sample.loopDisk P (Stash.init false false Sample.constants 0) s) :
    (∃ o, expandTerm Sample.loopDisk s c!"/w/a_1.0.bb" c!"${A}" = .ok o) ∧ (∃ r, expandVar Sample.loopDisk s none .none .none false = .ok r) ∧
    ∃ r, getValidPackageNames Sample.loopDisk s c!"/w/a_1.0.bb" true = .ok r := by
  have hb : setsBase Sample.constants = .ok J.empty := Sample.emptyBase (u := Stash.init false false Sample.constants 0) (by decide +kernel)
  obtain ⟨h1, h2, h3⟩ := C124_session Sample.loopDisk Sample.loopDisk (Sample.world_reads _) false false Sample.constants Sample.usableConstants (by
    intro b h
    rw [hb] at h
    cases h
    decide) 0 P s h
  exact ⟨h1 _ _ _, h2 _ _ _ _, (h3 c!"/w/a_1.0.bb" (by decide) true).1⟩

/-- the values of this recipe -/
example : ((Sample.addAll Sample.loopDisk [c!"/w/a_1.0.bb"] (Stash.init false false Sample.constants 0)).bind fun u =>
    (expandVar Sample.loopDisk u (some c!"/w/a_1.0.bb") .none .none false).toOption.map (fun e => (dget c!"B" e).isSome)) = some true := by
  decide +kernel

/-- preset variables that are no texts -/
example : ∃ e, expandVar (Sample.world []) (Stash.init false false (.dict (.cons c!"sets" (.dict (.cons c!"base" (.dict (.cons c!"A" (.list []) .nil)) .nil)) .nil)) 0) (some c!"/a.bb") .none .none false
    = .error e := by
  refine C124_unusable _ _ (fun b h => ?_) _ _ _ _
  have : b = .cons c!"A" (.list []) .nil := by
    have h' : Except.ok (J.dict (.cons c!"A" (.list []) .nil)) = Except.ok (J.dict b) := h
    cases h'
    rfl
  subst this
  exact ⟨_, List.mem_singleton.2 rfl, by rintro t ⟨⟩⟩
end
end Oelint
