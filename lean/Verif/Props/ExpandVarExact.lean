import Verif.Lemmas.ExpandVarExact
import Verif.Props.ExpandVar
/-!
# What `ExpandVar` gives exactly: C98

`TextOf` is the text of a variable from its statements in the order of `Line`; `Exploded` the dictionary that is returned.
-/
namespace Oelint
open Spec
set_option linter.unusedSectionVars false
section
variable [Uni]

/-- **C98** `ExpandVar` for a file: it raises nothing iff all names and texts can be expanded, and the result is determined: its keys in
their order and their items. The order of statements with the same `Line` is left open. -/
theorem C98_values (W : World) (s : Stash) (file : Str) (att val : Arg) (nolink : Bool) (b : KV)
    (hb : setsBase s.consts = .ok (.dict b)) (hbn : b.keys.Nodup) (hstr : ∀ k j, (k, j) ∈ b.toList → ∃ t, j = .str t) :
    ∃ its, Considered s (some file) att val nolink its ∧
      ((∃ r, expandVar W s (some file) att val nolink = .ok r) ↔ ∀ n ∈ namesOf b its, (∃ k, expandTerm W s file n = .ok k) ∧
        ∃ u t, TextOf s file n its u ∧ expandTerm W s file u = .ok t) ∧
      ∀ r, expandVar W s (some file) att val nolink = .ok r → Exploded W s file its b r := by
  refine ⟨_, considered_items W s (some file) att val nolink, ?_⟩
  obtain ⟨d, hd, h1, h2⟩ := explode_final (W := W) (file := file) hb hbn hstr
    (sortBy lineLe (expandVarItems W s (some file) att val nolink))
  have he : expandVar W s (some file) att val nolink =
      explode W s file (finalDict (sortBy lineLe (expandVarItems W s (some file) att val nolink)) d) [] := by
    unfold expandVar
    simp only [hd]
    rfl
  rw [he]
  exact ⟨h1, h2⟩

/-- **C98** `ExpandVar` without a file: an empty result if nothing is selected, else all statements are taken for statements of
the file of the first one: of the variable with the least `Line`, or of such an `unset` if there is no variable. -/
theorem C98_without_file (W : World) (s : Stash) (att val : Arg) (nolink : Bool) (b : KV)
    (hb : setsBase s.consts = .ok (.dict b)) (hbn : b.keys.Nodup) (hstr : ∀ k j, (k, j) ∈ b.toList → ∃ t, j = .str t) :
    ∃ its, Considered s none att val nolink its ∧ (its = [] → expandVar W s none att val nolink = .ok []) ∧
      (its ≠ [] → ∃ x ∈ its, (∀ y ∈ its, y.payload.classifier = x.payload.classifier → x.line ≤ y.line) ∧
        (x.payload.classifier = c!"Unset" → ∀ y ∈ its, y.payload.classifier = c!"Unset") ∧
        ((∃ r, expandVar W s none att val nolink = .ok r) ↔ ∀ n ∈ namesOf b its, (∃ k, expandTerm W s x.origin n = .ok k) ∧
          ∃ u t, TextOf s x.origin n its u ∧ expandTerm W s x.origin u = .ok t) ∧
        ∀ r, expandVar W s none att val nolink = .ok r → Exploded W s x.origin its b r) := by
  refine ⟨_, considered_items W s none att val nolink, fun h => ?_, fun h => ?_⟩
  · have : expandVarItems W s none att val nolink = [] := by
      have := (sortBy_perm lineLe (expandVarItems W s none att val nolink)).length_eq
      rw [h] at this
      exact List.length_eq_zero_iff.1 this.symm
    unfold expandVar
    simp only [this]
    rfl
  · cases hv : expandVarItems W s none att val nolink with
    | nil => rw [hv] at h; exact absurd rfl h
    | cons x rest =>
      have hx : x ∈ expandVarItems W s none att val nolink := by rw [hv]; simp
      rw [← hv]
      have hcl : ∀ y ∈ getItemsFor W s { filename := none, classifier := .one c!"Variable", attname := att, attvalue := val, nolink },
          y.payload.classifier = c!"Variable" := fun y hy => by
        have := ((mem_getItemsFor _ _ _ _).1 hy).2.classifier (by simp [given])
        simpa [given] using this
      have hcu : ∀ y ∈ getItemsFor W s { filename := none, classifier := .one c!"Unset" },
          y.payload.classifier = c!"Unset" := fun y hy => by
        have := ((mem_getItemsFor _ _ _ _).1 hy).2.classifier (by simp [given])
        simpa [given] using this
      have hs1 := reduceL_sorted W s s.items { filename := none, classifier := .one c!"Variable", attname := att, attvalue := val, nolink }
      have hs2 := reduceL_sorted W s s.items { filename := none, classifier := .one c!"Unset" }
      refine ⟨x, (mem_sortBy ..).2 hx, fun y hy hc => ?_, fun hc y hy => ?_, ?_⟩
      · have hy := (mem_sortBy ..).1 hy
        unfold expandVarItems at hv hy
        cases h1 : getItemsFor W s { filename := none, classifier := .one c!"Variable", attname := att, attvalue := val, nolink } with
        | nil =>
          rw [h1, List.nil_append] at hv hy
          rw [hv] at hy
          rw [show reduceL W s s.items { filename := none, classifier := .one c!"Unset" } = x :: rest from hv, List.pairwise_cons] at hs2
          rcases List.mem_cons.1 hy with rfl | hy
          · exact Int.le_refl _
          · exact hs2.1 y hy
        | cons z zs =>
          rw [h1] at hv
          have hzx : z = x := by simpa using (List.cons.inj hv).1
          subst hzx
          rw [show reduceL W s s.items { filename := none, classifier := .one c!"Variable", attname := att, attvalue := val, nolink } = z :: zs from h1,
            List.pairwise_cons] at hs1
          have hzc := hcl z (by rw [h1]; simp)
          rcases List.mem_append.1 hy with hy | hy
          · rw [h1] at hy
            rcases List.mem_cons.1 hy with rfl | hy
            · exact Int.le_refl _
            · exact hs1.1 y hy
          · rw [hcu y hy, hzc] at hc
            exact absurd hc (by decide)
      · have hy := (mem_sortBy ..).1 hy
        unfold expandVarItems at hv hy
        cases h1 : getItemsFor W s { filename := none, classifier := .one c!"Variable", attname := att, attvalue := val, nolink } with
        | nil =>
          rw [h1, List.nil_append] at hy
          exact hcu y hy
        | cons z zs =>
          rw [h1] at hv
          have hzx : z = x := by simpa using (List.cons.inj hv).1
          subst hzx
          rw [hcl z (by rw [h1]; simp)] at hc
          exact absurd hc (by decide)
      · obtain ⟨d, hd, h1, h2⟩ := explode_final (W := W) (file := x.origin) hb hbn hstr
          (sortBy lineLe (expandVarItems W s none att val nolink))
        have he : expandVar W s none att val nolink =
            explode W s x.origin (finalDict (sortBy lineLe (expandVarItems W s none att val nolink)) d) [] := by
          unfold expandVar
          simp only [hv, List.head?_cons, Option.map_some, hd]
          rfl
        rw [he]
        exact ⟨h1, h2⟩

/-- **C98** the statements determine the text of a variable -/
theorem C98_one_text (s : Stash) (file n : Str) (its : List Item) (t u : Str) (h1 : TextOf s file n its t) (h2 : TextOf s file n its u) :
    t = u := textOf_unique h1 h2

end

/-! ## examples -/

attribute [local instance] Sample.asciiUni

/-- names that become equal share an entry, an `unset` moves a name to the end -/
example :
    let W := Sample.world [(c!"/w/a_1.bb", c!"B_a = \"1\"\nC = \"x\"\nB_${PN} = \"2\"\nunset C\nD = \"y\"\nC += \"z\"\n")]
    (match addFile W 3 c!"/w/a_1.bb" 0 none Sample.stash with
     | (.ok _, s) => (match setsBase s.consts with
        | .ok (.dict b) => decide b.keys.Nodup && b.toList.all (fun e => match e.2 with | .str _ => true | _ => false)
        | _ => false) &&
        (match expandVar W s (some c!"/w/a_1.bb") .none .none false with
        | .ok r => decide (r = [(c!"PN", [c!"a"]), (c!"PV", [c!"1"]), (c!"BPN", [c!"a"]), (c!"B_a", [c!"1", c!"2"]),
            (c!"D", [c!"y"]), (c!"C", [c!"z"])])
        | .error _ => false)
     | _ => false) = true := by decide +kernel

end Oelint
