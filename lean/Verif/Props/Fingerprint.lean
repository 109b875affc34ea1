import Verif.Props.Reproducible
/-! # C96: different contents have different fingerprints -/
set_option linter.unusedSectionVars false
namespace Oelint
open Spec

section
variable [Uni]

/-- **C96** `str(item)` tells the class and all attributes: whatever follows, two items that are shown in the same way, even by different
processes, are of the same class and have the same attributes with the same values (sets as sets). -/
theorem C96_item (W W' : World) (x y : Item) (rest rest' : Str) (h : W.repr x ++ rest = W'.repr y ++ rest') :
    SameContent x y ∧ rest = rest' :=
  itemRepr_inj W.strOrder_perm W'.strOrder_perm h

/-- what `SameContent` leaves out if `Line` and `IncludedFrom` are ignored -/
theorem sameContent_core {x y : Item} (h : SameContent x y) : SameContent (core x) (core y) := by
  obtain ⟨hc, hf⟩ := h
  refine ⟨hc, ?_⟩
  have key : ∀ z : Item, (core z).getAttributes = z.getAttributes.map (fun a =>
      if a.1 == c!"Line" then (a.1, Attr.int 0) else if a.1 == c!"IncludedFrom" then (a.1, Attr.strset []) else a) := by
    intro z
    obtain ⟨uid, line, raw, origin, inFileLine, includedFrom, inlineBlocks, realRaw, delim, p⟩ := z
    cases p <;> rfl
  rw [key, key]
  generalize x.getAttributes = a at hf
  generalize y.getAttributes = b at hf
  induction hf with
  | nil => exact .nil
  | @cons a b as bs hab _ ih =>
    refine .cons ?_ ih
    obtain ⟨n, v⟩ := a
    obtain ⟨m, w⟩ := b
    obtain ⟨rfl, hv⟩ := hab
    simp only
    split
    · exact ⟨rfl, rfl⟩
    · split
      · exact ⟨rfl, List.Perm.refl _⟩
      · exact ⟨rfl, hv⟩

/-- the text of the flags can be told apart and separated from what follows -/
theorem flags_inj {a b a' b' : Bool} {r r' : Str}
    (h : pyBool a ++ c!":" ++ pyBool b ++ r = pyBool a' ++ c!":" ++ pyBool b' ++ r') : a = a' ∧ b = b' ∧ r = r' := by
  cases a <;> cases b <;> cases a' <;> cases b' <;> simp [pyBool] at h ⊢ <;> exact h

/-- **C96** Two stashes, of the same or of different processes, that were filled by any calls of `AddFile` and `Finalize`, failing ones
included. If the fingerprints are equal (and SHA-1 does not happen to give the same value for two different texts here), then the flags
the stashes were created with are equal, and the stashes hold the same items in the same order: each the same class and the same
attributes at the time it was added, so the same now apart from `Line` and `IncludedFrom`, that later calls update. -/
theorem C96_fingerprint (W W' : World) (ns neg ns' neg' : Bool) (consts consts' : J) (uid uid' : Nat) (s s' : Stash)
    (h : History W Call.loading (Stash.init ns neg consts uid) s) (h' : History W' Call.loading (Stash.init ns' neg' consts' uid') s')
    (hsha : W.sha1 s.hashed = W'.sha1 s'.hashed → s.hashed = s'.hashed) (heq : fingerPrint W s = fingerPrint W' s') :
    ns = ns' ∧ neg = neg' ∧ List.Forall₂ (fun x y => SameContent (core x) (core y)) s.items s'.items ∧
    ∃ added added', s.items.map core = added.map core ∧ s'.items.map core = added'.map core ∧ List.Forall₂ SameContent added added' := by
  obtain ⟨l, h1, h2⟩ := C48_hashed W ns neg consts uid s h
  obtain ⟨l', h1', h2'⟩ := C48_hashed W' ns' neg' consts' uid' s' h'
  have ht := hsha heq
  rw [h1, h1'] at ht
  obtain ⟨e1, e2, h4⟩ := flags_inj ht
  have hs := itemsRepr_inj W.strOrder_perm W'.strOrder_perm h4
  refine ⟨e1, e2, ?_, l, l', h2, h2', hs⟩
  have h3 : List.Forall₂ SameContent (l.map core) (l'.map core) := by
    clear h1 h1' h2 h2' ht h4 heq hsha
    induction hs with
    | nil => exact .nil
    | cons h _ ih => exact .cons (sameContent_core h) ih
  rw [← h2, ← h2', List.forall₂_map_left_iff, List.forall₂_map_right_iff] at h3
  exact h3

end

/-! ## concrete cases -/

section
attribute [local instance] Sample.asciiUni

/-- the same file in two processes: the objects differ, the fingerprints do not -/
example : ∃ s s' : Stash, History Sample.oneInc Call.loading (Stash.init false false J.empty 0) s ∧
    History Sample.oneInc Call.loading (Stash.init false false J.empty 5) s' ∧
    fingerPrint Sample.oneInc s = fingerPrint Sample.oneInc s' ∧ s.items.length = 2 ∧ s.items ≠ s'.items := by
  refine ⟨_, _, History.snoc (depth := 3) (c := .addFile c!"/w/b_1.bb" 0 none) .nil trivial,
    History.snoc (depth := 3) (c := .addFile c!"/w/b_1.bb" 0 none) .nil trivial, ?_⟩
  simp only [Call.after]
  decide +kernel

/-- items that are shown by two processes: the texts differ, so do the items -/
example : ∃ x y : Item, Sample.oneInc.repr x ≠ Sample.oneInc.repr y ∧ x.payload.classifier = y.payload.classifier := by
  refine ⟨mkItem 0 { origin := c!"/w/a.bb", line := 1, infileline := 1, rawtext := c!"a'\"\n", realraw := [], inlineBlocks := [], newStyle := true } .comment,
    mkItem 0 { origin := c!"/w/a.bb", line := 1, infileline := 1, rawtext := c!"a'\\\"\n", realraw := [], inlineBlocks := [], newStyle := true } .comment, ?_⟩
  decide +kernel

/-- the text of an item -/
example : Sample.oneInc.repr (mkItem 0 { origin := c!"/w/a.bb", line := 1, infileline := 2, rawtext := c!"# it's\t1\n", realraw := [], inlineBlocks := [], newStyle := true } .comment) =
    c!"Comment -- {'Line': 1, 'Raw': \"# it's\\t1\\n\", 'Origin': '/w/a.bb', 'InFileLine': 2, 'RealRaw': \"# it's\\t1\\n\", 'IsFromClass': False, " ++
    c!"'OverrideDelimiter': ':', 'IsNewStyleOverrideSyntax': True, 'InlineBlocks': [], 'IncludedFrom': set()}\n" := by
  decide +kernel

end
end Oelint
