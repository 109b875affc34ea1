import Verif.Lemmas.ReproducibleRefs
import Verif.Props.Context
/-! # C91: results are reproducible, with references in the names of loaded files -/
set_option linter.unusedSectionVars false
namespace Oelint
open Spec

section
variable [Uni]

/-- **C91** (partial: names of includes and classes refer to variables in `V` only, which nothing assigns; see the counterexample). Any
calls of `AddFile` return the same items, raise the same exceptions and, apart from the fingerprint, lead to the same stash. -/
theorem C91_references_partial (W : World) (io : List Item → List Item) (hio : ∀ l, (io l).Perm l) (so : List Str → List Str)
    (hso : ∀ l, (so l).Perm l) (V : Str → Prop) (hw : ∀ f, FileWithin W V f) (l : List FileCall) (s : Stash)
    (hu : UsableConstants s.consts) (hc : SetsWithin s.consts V) (hv : NoneAssigned V (addCalls W l s).2) :
    ∃ h, addCalls (reordered W io hio so hso) l s = ((addCalls W l s).1, { (addCalls W l s).2 with hashed := h }) := by
  obtain ⟨h1, ⟨k, -, h3⟩, -⟩ := addCalls_order (io := io) (hio := hio) (so := so) (hso := hso) hw ⟨hu, hc⟩ s.hashed l s s
    ⟨⟨[], by simp, by simp⟩, hu, fun _ _ _ _ _ => rfl⟩ hv
  exact ⟨s.hashed ++ (k.map (reordered W io hio so hso).repr).flatten, Prod.ext h1 h3⟩

/-- **C91** (partial, likewise) The fingerprint is also the same if no `inherit` loads more than one class. -/
theorem C91_references_fingerprint_partial (W : World) (io : List Item → List Item) (hio : ∀ l, (io l).Perm l) (so : List Str → List Str)
    (hso : ∀ l, (so l).Perm l) (V : Str → Prop) (hw : ∀ f, FileWithin W V f) (l : List FileCall) (s : Stash)
    (hu : UsableConstants s.consts) (hc : SetsWithin s.consts V) (hv : NoneAssigned V (addCalls W l s).2)
    (hone : ∀ x ∈ (addCalls W l s).2.items, OneClass x) : addCalls (reordered W io hio so hso) l s = addCalls W l s :=
  addCalls_fingerprint hw ⟨hu, hc⟩ l s ⟨hu, fun _ _ _ _ _ => rfl⟩ hv hone

end

/-! ## concrete cases -/

section
attribute [local instance] Sample.asciiUni

/-- a recipe with `require ${BPN}.inc` and another one in two runs: four items of three files -/
example : addCalls (reordered Sample.bpnInc List.reverse (fun l => l.reverse_perm) List.reverse (fun l => l.reverse_perm))
      [⟨3, c!"/w/r_1.bb", 0, none⟩, ⟨3, c!"/w/s.bb", 0, none⟩] (Stash.init false false Sample.constants 0) =
    addCalls Sample.bpnInc [⟨3, c!"/w/r_1.bb", 0, none⟩, ⟨3, c!"/w/s.bb", 0, none⟩] (Stash.init false false Sample.constants 0) ∧
    (addCalls Sample.bpnInc [⟨3, c!"/w/r_1.bb", 0, none⟩, ⟨3, c!"/w/s.bb", 0, none⟩] (Stash.init false false Sample.constants 0)).2.items.length = 4 := by
  refine ⟨C91_references_fingerprint_partial _ _ _ _ _ (fun n => n = c!"BPN") Sample.bpnInc_within _ _ Sample.usableConstants
    Sample.bpn_setsWithin (Sample.noneAssigned (by decide +kernel)) ?_, by decide +kernel⟩
  have h : ∀ x ∈ (addCalls Sample.bpnInc [⟨3, c!"/w/r_1.bb", 0, none⟩, ⟨3, c!"/w/s.bb", 0, none⟩]
    (Stash.init false false Sample.constants 0)).2.items, Sample.oneClass x = true := by decide +kernel
  exact fun x hx => Sample.oneClass_spec (h x hx)

/-- the name of the include depends on a variable that two other files assign -/
def Sample.tieInc : World := Sample.world
  [(c!"/w/r.bb", c!"require ${X}.inc\n"), (c!"/w/a.inc", c!"X = \"p\"\n"), (c!"/w/b.inc", c!"X = \"q\"\n"),
   (c!"/w/p.inc", c!"P = \"1\"\n"), (c!"/w/q.inc", c!"Q = \"1\"\n")]

/-- the same files in another run -/
def Sample.tieInc' : World := reordered Sample.tieInc List.reverse (fun l => l.reverse_perm) List.reverse (fun l => l.reverse_perm)

/-- two includes, both linked to the recipe with `forcedLink`, and then the recipe -/
def Sample.tieCalls : List FileCall :=
  [⟨3, c!"/w/a.inc", 0, some c!"/w/r.bb"⟩, ⟨3, c!"/w/b.inc", 0, some c!"/w/r.bb"⟩, ⟨3, c!"/w/r.bb", 0, none⟩]

/-- **C91** is false of `AddFile` with references: the two assignments have the same `Line`, so which include is loaded differs between
runs. -/
theorem C91_references_counterexample :
    c!"/w/p.inc" ∈ (addCalls Sample.tieInc Sample.tieCalls Sample.stash).2.seenFiles ∧
    c!"/w/q.inc" ∉ (addCalls Sample.tieInc Sample.tieCalls Sample.stash).2.seenFiles ∧
    c!"/w/p.inc" ∉ (addCalls Sample.tieInc' Sample.tieCalls Sample.stash).2.seenFiles ∧
    c!"/w/q.inc" ∈ (addCalls Sample.tieInc' Sample.tieCalls Sample.stash).2.seenFiles := by decide +kernel

end
end Oelint
