import Verif.Lemmas.Lang
import Verif.Lemmas.Forms4
import Verif.Lemmas.Edit
/-! Which kind of item a statement becomes (C103). -/
set_option linter.unusedSectionVars false
set_option linter.unusedSimpArgs false
namespace Oelint
variable [Uni]
open Spec

/-- the classifier of the items of a kind -/
def Kind.classifier : Kind → Str
  | .comment => c!"Comment" | .func => c!"Function" | .inherit => c!"Inherit" | .inheritGlob => c!"Inherit" | .export => c!"Export"
  | .exportNoval => c!"Export" | .python => c!"PythonBlock" | .include => c!"Include" | .includeAll => c!"IncludeAll"
  | .addtask => c!"TaskAdd" | .deltask => c!"TaskDel" | .unset => c!"Unset" | .flagassign => c!"FlagAssignment"
  | .exportfunc => c!"FunctionExports" | .addpylib => c!"AddPylib" | .addfragments => c!"AddFragements" | .vars => c!"Variable"

/-- the table of the parser is that of the specification -/
theorem rules_order : List.Forall₂ (fun r kp => r.1 = kp.1.classifier ∧ compile r.2 = some kp.2 ∧ Backtracks kp.2.re) rules parseOrder := by
  unfold rules parseOrder
  exact .cons ⟨rfl, reComments_src, by simp [Backtracks, reComments]⟩ (
    .cons ⟨rfl, reFunc_src, by simp [Backtracks, reFunc]⟩ (
    .cons ⟨rfl, reInherit_src, by simp [Backtracks, reInherit]⟩ (
    .cons ⟨rfl, reInheritGlob_src, by simp [Backtracks, reInheritGlob]⟩ (
    .cons ⟨rfl, reExportWval_src, by simp [Backtracks, reExportWval]⟩ (
    .cons ⟨rfl, reExportWoval_src, by simp [Backtracks, reExportWoval]⟩ (
    .cons ⟨rfl, rePython_src, by simp [Backtracks, rePython]⟩ (
    .cons ⟨rfl, reInclude_src, by simp [Backtracks, reInclude]⟩ (
    .cons ⟨rfl, reIncludeall_src, by simp [Backtracks, reIncludeall]⟩ (
    .cons ⟨rfl, reAddtask_src, by simp [Backtracks, reAddtask]⟩ (
    .cons ⟨rfl, reDeltask_src, by simp [Backtracks, reDeltask]⟩ (
    .cons ⟨rfl, reUnset_src, by simp [Backtracks, reUnset]⟩ (
    .cons ⟨rfl, reFlagass_src, by simp [Backtracks, reFlagass]⟩ (
    .cons ⟨rfl, reExportFunc_src, by simp [Backtracks, reExportFunc]⟩ (
    .cons ⟨rfl, reAddpylib_src, by simp [Backtracks, reAddpylib]⟩ (
    .cons ⟨rfl, reAddfragments_src, by simp [Backtracks, reAddfragments]⟩ (
    .cons ⟨rfl, reVar_src, by simp [Backtracks, reVar]⟩ (
    .nil)))))))))))))))))

variable (W : World) (add : AddFn) (file : Str)

theorem handleKind_kind (lineno : Int) (p : Params) (k : Kind) (pat : Pattern) (m : Mt) :
    M.Post (handleKind W add file lineno p k pat m) (fun r => ∀ x ∈ r, x.1.payload.classifier = k.classifier) := by
  have simple : ∀ pl : Payload, pl.classifier = k.classifier → M.Post (do let uid ← freshUid; pure (some (mkItem uid p pl, (0 : Int))) : M (Option (Item × Int)))
      (fun r => ∀ x ∈ r, x.1.payload.classifier = k.classifier) := by
    intro pl hpl
    refine M.Post.bind (M.Post.trivial _) fun uid _ => M.Post.pure ?_
    rintro x hx; cases hx; exact hpl
  cases k <;> unfold handleKind <;> simp only
  case vars =>
    refine M.Post.bind (M.Post.trivial _) fun uid _ => M.Post.pure ?_
    rintro x hx; cases hx; rfl
  case func =>
    refine M.Post.bind (M.Post.trivial _) fun known _ => ?_
    refine M.Post.bind (M.Post.trivial _) fun uid _ => M.Post.pure ?_
    rintro x hx; cases hx; rfl
  case inherit =>
    refine M.Post.bind (M.Post.trivial _) fun inhname _ => ?_
    refine M.Post.bind (M.Post.trivial _) fun r _ => ?_
    refine M.Post.bind (M.Post.trivial _) fun uid _ => M.Post.pure ?_
    rintro x hx; cases hx; rfl
  case inheritGlob =>
    refine M.Post.bind (M.Post.trivial _) fun inhname _ => ?_
    refine M.Post.bind (M.Post.trivial _) fun r _ => ?_
    refine M.Post.bind (M.Post.trivial _) fun uid _ => M.Post.pure ?_
    rintro x hx; cases hx; rfl
  case addtask =>
    split
    · exact M.Post.pure (by simp)
    · refine M.Post.bind (M.Post.trivial _) fun uid _ => M.Post.pure ?_
      rintro x hx; cases hx; rfl
  case deltask =>
    refine M.Post.bind (M.Post.trivial _) fun uid _ => M.Post.pure ?_
    rintro x hx; cases hx; rfl
  case «include» =>
    refine M.Post.bind (M.Post.trivial _) fun name _ => ?_
    refine M.Post.bind (M.Post.trivial _) fun path _ => ?_
    split
    · exact simple _ rfl
    · refine M.Post.bind (M.Post.trivial _) fun ign _ => ?_
      split
      · exact M.Post.pure (by simp)
      · refine M.Post.bind (M.Post.trivial _) fun tmp _ => ?_
        refine M.Post.bind (M.Post.trivial _) fun uid _ => M.Post.pure ?_
        rintro x hx; cases hx; rfl
  all_goals exact simple _ rfl

theorem ask_ok {α : Type} {f : Stash → Except PyErr α} {s s' : Stash} {a : α} (h : M.ask f s = (.ok a, s')) : f s = .ok a ∧ s' = s := by
  unfold M.ask at h
  cases h' : f s with
  | error e => rw [h'] at h; cases h
  | ok b => rw [h'] at h; cases h; exact ⟨rfl, rfl⟩

theorem lift_ok {α : Type} {x : Except PyErr α} {s s' : Stash} {a : α} (h : M.lift x s = (.ok a, s')) : s' = s := by
  unfold M.lift at h
  cases x <;> cases h
  rfl

/-- what is passed on -/
theorem handleKind_passed {lineno : Int} {p : Params} {k : Kind} {pat : Pattern} {cnt : Str} {m : Mt} (hm : reMatch pat.re cnt = some m)
    {s s' : Stash} (h : handleKind W add file lineno p k pat m s = (.ok none, s')) : s' = s ∧ PassedOn W s.consts k.classifier cnt := by
  have infixOf : ∀ n, (pat.group m n).getD [] <:+: cnt := by
    intro n
    cases hg : pat.group m n with
    | none => exact ⟨[], cnt, rfl⟩
    | some g => exact reMatch_group hm hg
  have never : ∀ {β : Type} {x : M β} {f : β → M (Option (Item × Int))}, (∀ b, M.Post (f b) (fun r => r ≠ none)) →
      ¬ (x >>= f) s = (.ok none, s') := by
    intro β x f hf e
    obtain ⟨b, s1, -, h2⟩ := M.bind_ok.1 e
    exact hf b s1 _ _ h2 rfl
  have fresh : ∀ {g : Nat → Item × Int}, M.Post (do let uid ← freshUid; pure (some (g uid)) : M (Option (Item × Int))) (fun r => r ≠ none) :=
    fun {g} => M.Post.bind (M.Post.trivial _) fun uid _ => M.Post.pure (by simp)
  cases k <;> unfold handleKind at h <;> simp only at h
  case addtask =>
    split at h
    · rename_i hv
      cases h
      refine ⟨rfl, .inl ⟨rfl, ?_⟩⟩
      unfold taskAsVar at hv
      obtain ⟨x, hx, hp⟩ := List.any_eq_true.1 hv
      exact ⟨x, hx, List.IsInfix.trans (List.isPrefixOf_iff_prefix.1 hp).isInfix (infixOf _)⟩
    · exact absurd h (never fun _ => M.Post.pure (by simp))
  case «include» =>
    obtain ⟨name, s1, h1, j1⟩ := M.bind_ok.1 h
    obtain ⟨h1, rfl⟩ := ask_ok h1
    obtain ⟨path, s2, h2, j2⟩ := M.bind_ok.1 j1
    cases lift_ok h2
    split at j2
    · exact absurd j2 (never fun _ => M.Post.pure (by simp))
    · obtain ⟨ign, s3, h3, j3⟩ := M.bind_ok.1 j2
      obtain ⟨h3, rfl⟩ := ask_ok h3
      split at j3
      · rename_i hh
        cases j3
        exact ⟨rfl, .inr ⟨rfl, _, _, _, _, _, infixOf _, h1, h3, hh⟩⟩
      · exact absurd j3 (never fun _ => fresh)
  case func => exact absurd h (never fun _ => fresh)
  case inherit => exact absurd h (never fun _ => M.Post.bind (M.Post.trivial _) fun _ _ => fresh)
  case inheritGlob => exact absurd h (never fun _ => M.Post.bind (M.Post.trivial _) fun _ _ => fresh)
  all_goals exact absurd h (never fun _ => M.Post.pure (by simp))

theorem reMatch_describes {r : Re} (hb : Backtracks r) (t : Str) : (reMatch r t).isSome ↔ Describes r t := matchAt_describes hb 0 t

theorem classify_kind (lineno : Int) (p : Params) (cnt : Str) {rs : List (Str × Str)} {l : List (Kind × Pattern)}
    (hl : List.Forall₂ (fun r kp => r.1 = kp.1.classifier ∧ compile r.2 = some kp.2 ∧ Backtracks kp.2.re) rs l) {s s' : Stash} {r : Item × Int}
    (h : classify W add file lineno p cnt l s = (.ok r, s')) : ∃ pre post, rs = pre ++ post ∧
      (∀ x ∈ pre, ¬ WrittenAs x.2 cnt ∨ PassedOn W s.consts x.1 cnt) ∧
      ((post = [] ∧ r.1.payload.classifier = c!"Item") ∨
        ∃ x ∈ post.head?, WrittenAs x.2 cnt ∧ r.1.payload.classifier = x.1) := by
  induction hl with
  | nil =>
    rw [classify] at h
    cases h
    exact ⟨[], [], rfl, by simp, .inl ⟨rfl, rfl⟩⟩
  | @cons x kp rs l hx _ ih =>
    obtain ⟨k, pat⟩ := kp
    obtain ⟨h1, h2, h3⟩ := hx
    have hw : WrittenAs x.2 cnt ↔ (reMatch pat.re cnt).isSome := by
      rw [reMatch_describes h3]
      constructor
      · rintro ⟨q, hq, hd⟩
        rw [h2] at hq
        cases hq
        exact hd
      · exact fun hd => ⟨pat, h2, hd⟩
    have on : (¬ WrittenAs x.2 cnt ∨ PassedOn W s.consts x.1 cnt) → classify W add file lineno p cnt l s = (.ok r, s') →
        ∃ pre post, x :: rs = pre ++ post ∧
          (∀ x ∈ pre, ¬ WrittenAs x.2 cnt ∨ PassedOn W s.consts x.1 cnt) ∧
          ((post = [] ∧ r.1.payload.classifier = c!"Item") ∨
            ∃ x ∈ post.head?, WrittenAs x.2 cnt ∧ r.1.payload.classifier = x.1) := by
      intro hh h
      obtain ⟨pre, post, e, h4, h5⟩ := ih h
      refine ⟨x :: pre, post, by rw [e]; rfl, ?_, h5⟩
      intro y hy
      rcases List.mem_cons.1 hy with rfl | hy
      · exact hh
      · exact h4 y hy
    rw [classify] at h
    cases hm : reMatch pat.re cnt with
    | none =>
      rw [hm] at h
      exact on (.inl (by rw [hw, hm]; simp)) h
    | some m =>
      rw [hm] at h
      obtain ⟨y, s1, h4, j⟩ := M.bind_ok.1 h
      cases y with
      | some y =>
        cases j
        exact ⟨[], x :: rs, rfl, by simp, .inr ⟨x, rfl, by rw [hw, hm]; rfl, by
          rw [h1]; exact handleKind_kind W add file lineno p k pat m _ _ _ h4 _ rfl⟩⟩
      | none =>
        obtain ⟨rfl, hp⟩ := handleKind_passed W add file hm h4
        exact on (.inr (by rw [h1]; exact hp)) j

/-- the items are made in states with the constants of the beginning, up to the known distros and machines -/
theorem itemsLoop_states {n : Nat} {db : J} {lo off : Int} {ns : Bool} {cs : List Chunk} {s t : Stash} {r : List Item} (k : ConstsOf db s)
    (h : itemsLoop W (addFile W n) file lo off ns cs s = (.ok r, t)) : ∀ it ∈ r, ∃ c ∈ cs, ∃ p s1 s2 d, ConstsOf db s1 ∧
      classify W (addFile W n) file c.line p c.cnt parseOrder s1 = (.ok (it, d), s2) ∧ it.raw = c.raw := by
  induction cs generalizing off ns s t r with
  | nil => cases h; simp
  | cons c cs ih =>
    rw [itemsLoop] at h
    obtain ⟨⟨it, d⟩, s1, h1, h⟩ := M.bind_ok.1 h
    obtain ⟨rest, s2, h2, h⟩ := M.bind_ok.1 h
    cases h
    have hg := classify_rel (R := fun s s' => NamesGrow W s.consts s'.consts) (fun a => NamesGrow.refl W _) (fun _ _ _ => NamesGrow.trans)
      (fun s => NamesGrow.refl W _) W file (fun p o f => addFile_grow W n p o f) c.line (chunkParams file lo off ns c) c.cnt parseOrder s k.1
    rw [h1] at hg
    obtain ⟨g1, g2, -⟩ := hg
    have k1 : ConstsOf db s1 := ⟨g1, fun ks k1 k2 k3 k4 => (g2.1 ks k1 k2 k3 k4).trans (k.2 ks k1 k2 k3 k4)⟩
    intro x hx
    rcases List.mem_cons.1 hx with rfl | hx
    · obtain ⟨hp, -, -⟩ := classify_post W _ file (addPos_addFile W n) _ _ _ _ _ _ _ h1
      exact ⟨c, by simp, _, s, s1, d, k, h1, hp.raw⟩
    · obtain ⟨c', hc', q⟩ := ih k1 h2 x hx
      exact ⟨c', List.mem_cons_of_mem _ hc', q⟩

theorem prepareLines_cntOf {lo : Int} {neg : Bool} {cs : List Chunk} (h : prepareLines W file lo neg = .ok cs) : ∀ c ∈ cs, c.cnt = cntOf c.raw := by
  unfold prepareLines at h
  split at h
  · obtain ⟨gs, -, rfl⟩ := chunksOf_ok_iff.1 h
    intro c hc
    obtain ⟨g, -, k, rfl⟩ := chunksFrom_mem hc
    rfl
  · cases h; simp
  · cases h
  · cases h

/-- every item comes from the loop over the patterns, in a state with the constants of the beginning -/
theorem item_of_consts {n : Nat} {db : J} {path : Str} {off : Int} {forced : Option Str} {s t : Stash} {r : List Item} (k : ConstsOf db s)
    (h : addFile W n path off forced s = (.ok r, t)) {it : Item} (hi : it ∈ r) : ∃ n l p s1 s2 d it0, ConstsOf db s1 ∧
      classify W (addFile W n) (abspath W.cwd path) l p (joined it.raw) parseOrder s1 = (.ok (it0, d), s2) ∧ it0.payload = it.payload := by
  cases n with
  | zero => cases h
  | succ n =>
  by_cases hs : alreadySeen s (abspath W.cwd path) = true
  · rw [addFile_seen off forced hs] at h
    cases h
    cases hi
  rw [addFile_eq W n path off forced s (by simpa using hs)] at h
  generalize hfile : abspath W.cwd path = file at *
  have habs : isAbs file = true := by rw [← hfile]; exact isAbs_abspath W path
  rcases h1 : getItems W (addFile W n) file off s.newStyle s.negative (markSeen s file) with ⟨x, v⟩
  rw [h1] at h
  cases x with
  | error e => cases h
  | ok its =>
  unfold getItems at h1
  rw [if_pos habs] at h1
  obtain ⟨cs, s1, h2, h3⟩ := M.bind_ok.1 h1
  have e : r.map content = its.map content := by
    simp only at h
    split at h
    · cases h
    · rename_i res s3 hx
      split at h
      · cases h
      · cases h
        exact crossLink_content hx
  have hp : prepareLines W file off s.negative = .ok cs := by
    unfold M.lift at h2
    cases hq : prepareLines W file off s.negative with
    | error e => rw [hq] at h2; cases h2
    | ok a => rw [hq] at h2; cases h2; rfl
  cases lift_ok h2
  have : content it ∈ its.map content := e ▸ List.mem_map_of_mem hi
  obtain ⟨it0, h0, e0⟩ := List.mem_map.1 this
  obtain ⟨c, hc, p, s2, s3, d, k2, h4, h5⟩ := itemsLoop_states W file (show ConstsOf db (markSeen s file) from k) h3 it0 h0
  refine ⟨n, c.line, p, s2, s3, d, it0, k2, ?_, show (content it0).payload = (content it).payload by rw [e0]⟩
  have : it.raw = c.raw := by rw [← h5]; exact (show (content it).raw = (content it0).raw by rw [e0])
  rw [this, joined_eq, ← prepareLines_cntOf W file hp c hc]
  exact h4

theorem passedOn_of {db : J} {s : Stash} (k : ConstsOf db s) (hu : UsableConstants db) {kind t : Str} (h : PassedOn W s.consts kind t) :
    PassedOn W db kind t := by
  rcases h with h | ⟨h1, a, b, c, d, e, h2, h3, h4, h5⟩
  · exact .inl h
  · refine .inr ⟨h1, a, b, c, d, e, h2, h3, ?_, h5⟩
    have := both_ignoreInclude (db := db) W k (s' := { s with consts := db }) ⟨hu, fun _ _ _ _ _ => rfl⟩
    rw [← this]
    exact h4

end Oelint
