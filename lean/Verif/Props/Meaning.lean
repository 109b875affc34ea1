import Verif.Spec.Meaning
import Verif.Props.Spelling
import Verif.Props.Agree
/-! C116: the values of a recipe follow from its text. -/
set_option linter.unusedSectionVars false
namespace Oelint
section
variable [Uni]
open Spec

/-- the item of an entry -/
inductive EntryItem (it : Item) : Entry → Prop
  | decl {d : Decl} {v : VarData} (h : it.payload = .variable v) (hn : varNameCompleteNoModifiers it.delim v = d.name) (hs : v.subItems = d.overrides)
      (ht : varValueStripped v = d.text) (ho : v.varOp = c!" " ++ (d.op ++ c!" ")) (hop : d.op ∈ operators) (hb : ¬ c!"!!!inlineblock!!!" <:+: d.text)
      (hap : ¬ (c!"append" ∈ d.overrides ∧ c!"prepend" ∈ d.overrides)) (hvn : v.varName = d.base) : EntryItem it (.decl d)
  | other {st : Stmt} (h : it.payload.classifier ∉ [c!"Variable", c!"Unset"]) : EntryItem it (.other st)

theorem reads_other {it : Item} {st : Stmt} (h : ReadsAs it st) (hc : st.counts = false) :
    it.payload.classifier ∉ [c!"Variable", c!"Unset", c!"Inherit", c!"Include"] := by
  cases st <;> first | (cases hc; done) | (unfold ReadsAs at h; rw [h.1]; decide)

theorem forall₂_left {α β : Type} {R : α → β → Prop} {l : List α} {k : List β} (h : List.Forall₂ R l k) {x : α} (hx : x ∈ l) : ∃ y ∈ k, R x y := by
  induction h with
  | nil => cases hx
  | cons h1 _ ih =>
    rcases List.mem_cons.1 hx with rfl | hx
    · exact ⟨_, by simp, h1⟩
    · obtain ⟨y, hy, hr⟩ := ih hx
      exact ⟨y, by simp [hy], hr⟩

theorem loads_of_idle {x : Item} (h : x.payload.loads = false) : loadedBy x = [] := by
  unfold loadedBy
  cases hp : x.payload <;> rw [hp] at h <;> first | rfl | cases h

theorem quiet_idle {it : Item} (h : it.payload.classifier ∉ [c!"Variable", c!"Unset", c!"Inherit", c!"Include"]) : it.payload.classifier ∉ [c!"Variable", c!"Unset"] ∧ it.payload.loads = false := by
  refine ⟨fun hh => h ?_, ?_⟩
  · simp only [List.mem_cons, List.not_mem_nil, or_false] at hh ⊢
    rcases hh with hh | hh <;> rw [hh] <;> simp
  · cases hp : it.payload <;> rw [hp] at h <;> first | rfl | exact absurd (by simp [Payload.classifier]) h

/-- items whose texts are those of entries are the items of these entries and load nothing -/
theorem entries_of {W : World} {n : Nat} {path : Str} {off : Int} {forced : Option Str} {s s' : Stash} {res : List Item}
    (h : addFile W n path off forced s = (.ok res, s')) (hnew : alreadySeen s (abspath W.cwd path) = false) {t : Str}
    (hf : W.file (abspath W.cwd path) = .text t) (gs : List (List Str)) (es : List Entry) (r : List Item) (hr : r ⊆ res) (e : r.map (·.realRaw) = gs.map List.flatten)
    (hst : List.Forall₂ (fun g e => ¬ c!"${@" <:+: g.flatten ∧ joined g.flatten = e.stmt.text ∧ e.Ok) gs es) : List.Forall₂ (fun it e => EntryItem it e ∧ it.payload.loads = false) r es := by
  obtain ⟨value, hraw⟩ := C06_raw_from_realraw W n path off forced s s' res t h hnew hf
  have one : ∀ it ∈ res, ∀ (g : List Str) (e : Entry), it.realRaw = g.flatten → ¬ c!"${@" <:+: g.flatten ∧ joined g.flatten = e.stmt.text ∧ e.Ok → EntryItem it e ∧ it.payload.loads = false := by
    rintro it hi g e hg ⟨h1, h2, h3⟩
    obtain ⟨hrr, -⟩ := (hraw it hi).2 (by rw [hg]; exact h1)
    have hj : joined it.raw = e.stmt.text := by rw [hrr, hg, h2]
    cases e with
    | decl d =>
      obtain ⟨hA, hO, hap, q1, q2, hb⟩ := h3
      obtain ⟨uid, p, e1, e2⟩ := item_assigned h hi (by rw [hj]; exact hA)
      obtain ⟨hd, hp⟩ := spelled_new hO uid p ('"' :: d.text ++ ['"']) (c!" " ++ (d.op ++ c!" "))
      rw [← e1] at hp
      rw [← e2] at hd
      refine ⟨.decl hp ?_ rfl ?_ rfl hA.op hb hap rfl, by rw [hp]; rfl⟩
      · have hml : ∀ o, modifierNames.contains o = later.contains o := by
          intro o
          rw [Bool.eq_iff_iff]
          simp only [modifierNames, later, List.contains_iff_mem, List.mem_cons, List.not_mem_nil, or_false]
          exact or_left_comm
        have hm : (fun o : Str => !modifierNames.contains o) = fun o => !later.contains o := by
          funext o; rw [hml]
        unfold Decl.name
        rw [← hm]
        by_cases hos : d.overrides = []
        · unfold varNameCompleteNoModifiers; rw [hos]; rfl
        · rw [hd hos]; rfl
      · exact (C21_var_value_stripped _).1 [] [] d.text (by simp) (by simp) (by simp) q1 q2
    | other st =>
      obtain ⟨k1, k2⟩ := quiet_idle (reads_other (C76_statement W n path off forced s s' res h it hi st hj h3.1) h3.2)
      exact ⟨.other k1, k2⟩
  induction hst generalizing r with
  | nil =>
    cases r with
    | nil => exact .nil
    | cons => cases e
  | @cons g st gs sts hx _ ih =>
    cases r with
    | nil => cases e
    | cons it r =>
      rw [List.map_cons, List.map_cons, List.cons.injEq] at e
      exact .cons (one it (hr (by simp)) g st e.1 hx) (ih r (fun x hx => hr (by simp [hx])) e.2)

/-- the items of a file are its entries -/
theorem file_entries {W : World} {n : Nat} {path : Str} {off : Int} {forced : Option Str} {s s' : Stash} {res : List Item}
    (h : addFile W n path off forced s = (.ok res, s')) (hnew : alreadySeen s (abspath W.cwd path) = false) {t : Str}
    (hf : W.file (abspath W.cwd path) = .text t) {ls : List Str} {gs : List (List Str)} (hl : IsLines (univNewlines t) ls) (hg : Groups ls gs)
    {es : List Entry} (hst : List.Forall₂ (fun g e => ¬ c!"${@" <:+: g.flatten ∧ joined g.flatten = e.stmt.text ∧ e.Ok) gs es) : List.Forall₂ EntryItem res es ∧ ∀ x ∈ res, loadedBy x = [] := by
  have hreal := (C08_chunk_boundaries W n path off forced s s' res t h hnew hf ls gs hl).2 hg
  have hE := entries_of h hnew hf gs es res (fun _ hx => hx) hreal hst
  refine ⟨hE.imp fun _ _ h => h.1, fun x hx => ?_⟩
  obtain ⟨e, -, he⟩ := forall₂_left hE hx
  exact loads_of_idle he.2

theorem late_iff {v : VarData} {d : Decl} (h : v.subItems = d.overrides) : Modifies v ↔ d.late = true := by
  unfold Modifies Decl.late
  rw [h]
  simp [later]

theorem other_idle {it : Item} (h : it.payload.classifier ∉ [c!"Variable", c!"Unset"]) (n : Str) :
    ¬ Concerns n it := by
  unfold Concerns
  cases hp : it.payload <;> rw [hp] at h <;> first | exact fun h => h | exact absurd (by simp [Payload.classifier]) h

theorem entry_step {n : Str} {it : Item} {d : Decl} (h : EntryItem it (.decl d)) (o : Option Str) :
    stepItem n (o.map some) it = (if d.name = n ∧ d.late = false then Decl.now o d else o).map some := by
  cases h with
  | @decl _ v hv hn hs ht ho hop hb hap _ =>
  unfold stepItem
  simp only [hv]
  have : (¬ Modifies v ∧ varNameCompleteNoModifiers it.delim v = n) ↔ (d.name = n ∧ d.late = false) := by
    rw [late_iff hs, hn]; simp [and_comm]
  by_cases hc : d.name = n ∧ d.late = false
  · rw [if_pos (this.2 hc), if_pos hc]
    unfold immediateOp Decl.now
    rw [ht, ho]
    simp only [hasSub_false_iff.2 hb, show inlineBlock = c!"!!!inlineblock!!!" from rfl, Bool.false_eq_true, if_false]
    simp only [operators, List.mem_cons, List.not_mem_nil, or_false] at hop
    rcases hop with e | e | e | e | e | e | e | e <;> rw [e] <;> cases o <;> simp
  · rw [if_neg (fun hh => hc (this.1 hh)), if_neg hc]

theorem entry_fold {n : Str} {res : List Item} {es : List Entry} (h : List.Forall₂ EntryItem res es) (o : Option Str) :
    res.foldl (stepItem n) (o.map some) = (byOperators n o (decls es)).map some := by
  unfold byOperators
  induction h generalizing o with
  | nil => rfl
  | @cons it e res es hx _ ih =>
    rw [List.foldl_cons]
    cases e with
    | decl d =>
      rw [entry_step hx, ih, decls, List.filter_cons]
      by_cases hc : d.name = n ∧ d.late = false
      · rw [if_pos hc, if_pos (by simpa using hc), List.foldl_cons]
      · rw [if_neg hc, if_neg (by simpa using hc)]
    | other st =>
      obtain hx : it.payload.classifier ∉ [c!"Variable", c!"Unset"] := by cases hx; assumption
      rw [stepItem_other (other_idle hx n), ih, decls]

theorem entry_mods {n : Str} {res : List Item} {es : List Entry} (h : List.Forall₂ EntryItem res es) :
    appends (mods n res) = texts n c!"append" (decls es) ∧ prepends (mods n res) = texts n c!"prepend" (decls es) ∧
    removes (mods n res) = texts n c!"remove" (decls es) ∧ (mods n res ≠ [] ↔ ∃ d ∈ decls es, d.name = n ∧ d.late = true) := by
  induction h with
  | nil => exact ⟨rfl, rfl, rfl, by simp [mods, decls]⟩
  | @cons it e res es hx _ ih =>
    obtain ⟨i1, i2, i3, i4⟩ := ih
    have cons : mods n (it :: res) = (modOf n it).toList ++ mods n res := by
      unfold mods; rw [List.filterMap_cons]; cases modOf n it <;> rfl
    rw [cons]
    cases e with
    | other st =>
      obtain hx : it.payload.classifier ∉ [c!"Variable", c!"Unset"] := by cases hx; assumption
      rw [modOf_other (other_idle hx n)]
      exact ⟨i1, i2, i3, i4⟩
    | decl d =>
      obtain ⟨hv, hn, hs, ht, ho, hop, hb, hap, -⟩ := hx
      rename_i v
      have hm : modOf n it = if d.late = true ∧ d.name = n then some v else none := by
        unfold modOf
        simp only [hv]
        rw [hn]
        by_cases hc : d.late = true ∧ d.name = n
        · rw [if_pos hc, if_pos ⟨(late_iff hs).2 hc.1, hc.2⟩]
        · rw [if_neg hc, if_neg (fun hh => hc ⟨(late_iff hs).1 hh.1, hh.2⟩)]
      rw [hm]
      have l1 : ∀ w ∈ later, w ∈ d.overrides → d.late = true := by
        intro w hw hd
        unfold Decl.late
        exact List.any_eq_true.2 ⟨w, hw, by simpa using hd⟩
      by_cases hc : d.late = true ∧ d.name = n
      · rw [if_pos hc]
        unfold appends texts at i1
        unfold prepends texts at i2
        unfold removes texts at i3
        unfold appends prepends removes texts
        simp only [Option.toList_some, List.cons_append, List.nil_append, decls, List.filter_cons]
        rw [hs]
        refine ⟨?_, ?_, ?_, ?_⟩
        · by_cases ha : c!"append" ∈ d.overrides <;> simp [ha, hc.2, ht] <;> simpa using i1
        · by_cases hp : c!"prepend" ∈ d.overrides
          · have : c!"append" ∉ d.overrides := fun h => hap ⟨h, hp⟩
            simp [hp, this, hc.2, ht]; simpa using i2
          · simp [hp]; simpa using i2
        · by_cases ha : c!"remove" ∈ d.overrides <;> simp [ha, hc.2, ht] <;> simpa using i3
        · simp only [ne_eq, List.cons_ne_nil, not_false_eq_true, true_iff]
          exact ⟨d, by simp, hc.2, hc.1⟩
      · rw [if_neg hc]
        have skip : ∀ w ∈ later, texts n w (d :: decls es) = texts n w (decls es) := by
          intro w hw
          unfold texts
          rw [List.filter_cons_of_neg]
          simp only [decide_eq_true_iff]
          exact fun hh => hc ⟨l1 w hw hh.2, hh.1⟩
        simp only [Option.toList_none, List.nil_append, decls]
        refine ⟨?_, ?_, ?_, ?_⟩
        · rw [skip _ (by simp [later]), i1]
        · rw [skip _ (by simp [later]), i2]
        · rw [skip _ (by simp [later]), i3]
        · rw [i4]
          refine ⟨fun ⟨x, hx, h1, h2⟩ => ⟨x, by simp [hx], h1, h2⟩, ?_⟩
          rintro ⟨x, hx, h1, h2⟩
          rcases List.mem_cons.1 hx with rfl | hx
          · exact absurd ⟨h2, h1⟩ hc
          · exact ⟨x, hx, h1, h2⟩

theorem entry_events {n : Str} {res : List Item} {es : List Entry} (h : List.Forall₂ EntryItem res es) :
    events n res = ((decls es).filter (fun d => d.name = n ∧ d.late = false)).map (fun d => Event.assign d.op d.text) := by
  induction h with
  | nil => rfl
  | @cons it e res es hx _ ih =>
    unfold events at ih ⊢
    rw [List.filterMap_cons]
    cases e with
    | other st =>
      obtain hx : it.payload.classifier ∉ [c!"Variable", c!"Unset"] := by cases hx; assumption
      have : eventOf n it = none := by
        have := (other_idle hx n)
        unfold Concerns at this
        unfold eventOf
        cases hp : it.payload <;> rw [hp] at this <;> simp only at this ⊢
        · rw [if_neg (fun hh => this hh.2)]
        · rw [if_neg this]
      rw [this, ih, decls]
    | decl d =>
      cases hx with
      | @decl _ v hv hn hs ht ho hop hb hap _ =>
      have hstrip : stripP pySpace v.varOp = d.op := by
        rw [ho]
        simp only [operators, List.mem_cons, List.not_mem_nil, or_false] at hop
        rcases hop with e | e | e | e | e | e | e | e <;> rw [e] <;> decide
      have hev : eventOf n it = if d.name = n ∧ d.late = false then some (.assign d.op d.text) else none := by
        unfold eventOf
        simp only [hv]
        by_cases hc : d.name = n ∧ d.late = false
        · rw [if_pos ⟨fun hm => (by rw [(late_iff hs).1 hm] at hc; cases hc.2), hn.trans hc.1⟩, if_pos hc, hstrip, ht]
        · rw [if_neg (fun hh => hc ⟨hn.symm.trans hh.2, by
            cases hl : d.late
            · rfl
            · exact absurd ((late_iff hs).2 hl) hh.1⟩), if_neg hc]
      rw [hev, decls, List.filter_cons]
      by_cases hc : d.name = n ∧ d.late = false
      · rw [if_pos hc, if_pos (by simpa using hc), List.map_cons, ← ih]
      · rw [if_neg hc, if_neg (by simpa using hc), ← ih]

theorem now_isSome (o : Option Str) (d : Decl) : (Decl.now o d).isSome = true := by
  unfold Decl.now
  repeat' split
  all_goals rfl

theorem fold_now_some {ds : List Decl} (h : ds ≠ []) (o : Option Str) : (ds.foldl Decl.now o).isSome = true := by
  induction ds generalizing o with
  | nil => exact absurd rfl h
  | cons d ds ih =>
    by_cases hd : ds = []
    · subst hd; exact now_isSome o d
    · exact ih hd _

/-- what is known after a recipe was read: the stash has the items of these entries, in this order -/
structure RecipeRead (consts : J) (file : Str) (u : Stash) (res : List Item) (es : List Entry) : Prop where
  items : ∀ x, x ∈ u.items ↔ x ∈ res
  entries : List.Forall₂ EntryItem res es
  linked : ∀ x ∈ res, LinkedTo u file false x
  rising : res.Pairwise (fun a b => a.line < b.line)
  base : setsBase u.consts = setsBase consts

theorem recipe_read {W : World} {ns neg : Bool} {consts : J} (hu : UsableConstants consts) {uid k : Nat} {path : Str} {off : Int} {forced : Option Str} {u : Stash} {res : List Item}
    (h : addFile W k path off forced (Stash.init ns neg consts uid) = (.ok res, u)) {t : Str} (hf : W.file (abspath W.cwd path) = .text t)
    {ls : List Str} {gs : List (List Str)} (hl : IsLines (univNewlines t) ls) (hg : Groups ls gs) {es : List Entry}
    (hst : List.Forall₂ (fun g e => ¬ c!"${@" <:+: g.flatten ∧ joined g.flatten = e.stmt.text ∧ e.Ok) gs es) :
    RecipeRead consts (abspath W.cwd path) u res es := by
  have hnew : alreadySeen (Stash.init ns neg consts uid) (abspath W.cwd path) = false := by simp [alreadySeen, Stash.init]
  obtain ⟨hE, idle⟩ := file_entries h hnew hf hl hg hst
  obtain ⟨hitems, -, -⟩ := addFile_idle (W := W) (W' := W) rfl rfl rfl rfl hnew hnew h h idle idle
  have c0 : ConstsOf consts (Stash.init ns neg consts uid) := ⟨hu, otherNames_refl _⟩
  have c1 : ConstsOf consts u := by
    have := addFile_constsOf_any (W := W) c0 k path off forced
    rwa [h] at this
  exact ⟨fun x => by rw [hitems], hE, fun x hx => .inl (((C03_one_item_per_chunk W k path off forced _ _ res h).2 t hnew hf).2 x hx), (C02_lines W k path off forced _ _ res _ h hnew hf).2.1,
    (twin_names W).sets (s' := { (Stash.init ns neg consts uid) with consts := u.consts }) (constsOf_names c0 c1)⟩

theorem RecipeRead.start {consts : J} {file : Str} {u s : Stash} {res : List Item} {es : List Entry} (R : RecipeRead consts file u res es) (hc : s.consts = consts) {n : Str} {start : Option Str}
    (hs : Base s file n start) : Base u file n start := by
  have hbase : setsBase u.consts = setsBase s.consts := by rw [hc]; exact R.base
  cases hs with
  | base h1 h2 => exact .base (hbase.trans h1) h2
  | name h1 h2 h3 h4 => exact .name (hbase.trans h1) h2 h3 h4
  | none h1 h2 h3 => exact .none (hbase.trans h1) h2 h3

/-- the values, if the stash has the items of these entries -/
theorem RecipeRead.values {D : World} {consts : J} {file : Str} {u : Stash} {res : List Item} {es : List Entry} (R : RecipeRead consts file u res es)
    {r : List (Str × List Str)} (hr : expandVar D u (some file) .none .none false = .ok r)
    {b : KV} (hb : setsBase consts = .ok (.dict b)) (hbn : b.keys.Nodup) (hbk : ∀ x ∈ b.keys, '$' ∉ x ∧ '(' ∉ x) (hds : ∀ d ∈ decls es, '$' ∉ d.name ∧ '(' ∉ d.name)
    {n : Str} {start : Option Str} (hsu : Base u file n start) :
    ((dget n r).isSome = true ↔ Given n start (decls es)) ∧
    (Given n start (decls es) → byOperators n start (decls es) ≠ none ∨ texts n c!"remove" (decls es) = [] →
      ∃ o, expandTerm D u file (without ((texts n c!"prepend" (decls es)).reverse.flatten ++ (byOperators n start (decls es)).getD [] ++
        (texts n c!"append" (decls es)).flatten) (texts n c!"remove" (decls es))) = .ok o ∧ dget n r = some (safeLinesplit o)) := by
  have hbu : setsBase u.consts = .ok (.dict b) := R.base.trans hb
  have hE := R.entries
  have hplain : PlainNames u u.items := by
    rintro q (⟨x, hx, v, hv, rfl⟩ | ⟨b', hb', hk⟩ | hk)
    · rw [R.items] at hx
      obtain ⟨e, hem, he⟩ := forall₂_left hE hx
      cases he with
      | @decl d w hw hn =>
        rw [hv] at hw
        cases hw
        rw [hn]
        refine hds d ?_
        clear hE R
        induction es with
        | nil => cases hem
        | cons e es ih =>
          rcases List.mem_cons.1 hem with rfl | hem
          · simp [decls]
          · have := ih (fun d hd => hds d (by cases e <;> simp [decls, hd])) hem
            cases e <;> simp [decls, this]
      | other hc => rw [hv] at hc; exact absurd (by simp [Payload.classifier]) hc
    · rw [hbu] at hb'; cases hb'; exact hbk q hk
    · simp only [List.mem_cons, List.not_mem_nil, or_false] at hk
      rcases hk with rfl | rfl | rfl <;> decide
  have unset : ∀ x ∈ res, ∀ q, Concerns q x → ∃ v, x.payload = .variable v := by
    intro x hx q hq
    obtain ⟨e, -, he⟩ := forall₂_left hE hx
    cases he with
    | decl hv => exact ⟨_, hv⟩
    | other hc => exact absurd hq (other_idle hc q)
  have habout : StatementsAbout u file .none .none false n (res.filter (fun x => decide (Concerns n x))) := by
    refine ⟨R.rising.filter _, fun x => ?_⟩
    rw [List.mem_filter, R.items, decide_eq_true_iff]
    refine ⟨fun ⟨h1, h2⟩ => ⟨h1, h2, .inl ?_⟩, fun ⟨h1, h2, _⟩ => ⟨h1, h2⟩⟩
    obtain ⟨v, hv⟩ := unset x h1 n h2
    constructor
    · intro fn hfn _
      cases hfn
      exact R.linked x h1
    all_goals simp [given, hv, Payload.classifier]
  obtain ⟨⟨base, hb1, hpres⟩, htext⟩ := expandVar_text hr hbu hbn hplain habout
  have := base_unique hb1 hsu
  subst this
  obtain ⟨m1, m2, m3, m4⟩ := entry_mods (n := n) hE
  have hmods := mods_concerns n res
  have hev : events n (res.filter (fun x => decide (Concerns n x))) = events n res := by
    unfold events
    rw [List.filterMap_filter]
    refine List.filterMap_congr fun x hx => ?_
    by_cases hc : Concerns n x
    · simp [hc]
    · rw [if_neg (by simpa using hc)]
      unfold Concerns at hc
      unfold eventOf
      cases hp : x.payload <;> rw [hp] at hc <;> simp only at hc ⊢
      · rw [if_neg (fun hh => hc hh.2)]
      · rw [if_neg hc]
  rw [hev, ← hmods, entry_events hE] at hpres
  have hgiven : (dget n r).isSome = true ↔ Given n base (decls es) := by
    rw [hpres]
    unfold Present Given
    rw [m4]
    have : byOperators n base (decls es) ≠ none ↔ ((decls es).filter (fun d => d.name = n ∧ d.late = false) ≠ []) ∨
        ((decls es).filter (fun d => d.name = n ∧ d.late = false) = [] ∧ base ≠ none) := by
      unfold byOperators
      by_cases he : (decls es).filter (fun d => d.name = n ∧ d.late = false) = []
      · rw [he]; simp
      · have := fold_now_some he base
        rw [← Option.isSome_iff_ne_none]
        simp only [this, ne_eq, he, not_false_eq_true, true_or]
    rw [this]
    have e1 : (∃ op v, (((decls es).filter (fun d => d.name = n ∧ d.late = false)).map (fun d => Event.assign d.op d.text)).getLast? = some (.assign op v)) ↔
        (decls es).filter (fun d => d.name = n ∧ d.late = false) ≠ [] := by
      generalize (decls es).filter (fun d => d.name = n ∧ d.late = false) = l
      rcases List.eq_nil_or_concat l with rfl | ⟨l, d, rfl⟩
      · simp
      · simp [List.concat_eq_append]
    rw [e1, List.map_eq_nil_iff]
    exact or_comm
  refine ⟨hgiven, fun hgv hq => ?_⟩
  obtain ⟨items, hi⟩ := Option.isSome_iff_exists.1 (hgiven.2 hgv)
  obtain ⟨t', o, k1, k2, k3⟩ := htext items hi
  have target : TextOf u file n (res.filter (fun x => decide (Concerns n x))) (without ((texts n c!"prepend" (decls es)).reverse.flatten ++
      (byOperators n base (decls es)).getD [] ++ (texts n c!"append" (decls es)).flatten) (texts n c!"remove" (decls es))) := by
    refine ⟨base, _, hsu, immediate_fold n _ _, ?_⟩
    rw [← foldl_concerns, entry_fold hE, ← hmods, ← m1, ← m2, ← m3]
    unfold extended
    congr 3
    rw [← m3] at hq
    cases hv : byOperators n base (decls es) with
    | some v => rfl
    | none =>
      rw [hv] at hq
      have hq := hq.resolve_left (by simp)
      simp only [Option.getD_none, Option.map_none]
      cases hm : mods n res with
      | nil => rfl
      | cons v ms =>
        rw [hm] at hq
        have hmod : Modifies v := by
          have : v ∈ mods n res := by rw [hm]; simp
          obtain ⟨x, -, hx⟩ := List.mem_filterMap.1 this
          unfold modOf at hx
          split at hx
          · split at hx
            · rename_i hh; cases hx; exact hh.1
            · cases hx
          · cases hx
        have hnr : c!"remove" ∉ v.subItems := by
          intro hh
          unfold removes at hq
          simp [hh] at hq
        unfold Modifies at hmod
        simp only [startText]
        rw [if_pos (hmod.imp_right (fun hh => hh.resolve_right hnr))]
  have := textOf_unique target k1
  subst this
  exact ⟨o, k2, by rw [hi, k3]⟩

/-- **C116** A file is read into a fresh stash. Each group of its lines is an entry: a declaration `NAME:overrides OP "text"`, or another statement that loads no file. Then `ExpandVar` gives
items for exactly the variables with a value, and for each the items of the expansion of the text that follows from the declarations: the operators in order, then what is prepended and
appended, then what is removed. (No name contains a reference; `start` is the value from the constants or from the name of the file. A variable that only has modifiers has no `remove`.) -/
theorem C116_recipe (W D : World) (ns neg : Bool) (consts : J) (hu : UsableConstants consts) (uid k : Nat) (path : Str) (off : Int) (forced : Option Str) (u : Stash) (res : List Item)
    (h : addFile W k path off forced (Stash.init ns neg consts uid) = (.ok res, u)) (t : Str) (hf : W.file (abspath W.cwd path) = .text t)
    (ls : List Str) (gs : List (List Str)) (hl : IsLines (univNewlines t) ls) (hg : Groups ls gs) (es : List Entry)
    (hst : List.Forall₂ (fun g e => ¬ c!"${@" <:+: g.flatten ∧ joined g.flatten = e.stmt.text ∧ e.Ok) gs es)
    (r : List (Str × List Str)) (hr : expandVar D u (some (abspath W.cwd path)) .none .none false = .ok r)
    (b : KV) (hb : setsBase consts = .ok (.dict b)) (hbn : b.keys.Nodup) (hbk : ∀ x ∈ b.keys, '$' ∉ x ∧ '(' ∉ x) (hds : ∀ d ∈ decls es, '$' ∉ d.name ∧ '(' ∉ d.name)
    (n : Str) (start : Option Str) (hs : Base (Stash.init ns neg consts uid) (abspath W.cwd path) n start) :
    ((dget n r).isSome = true ↔ Given n start (decls es)) ∧
    (Given n start (decls es) → byOperators n start (decls es) ≠ none ∨ texts n c!"remove" (decls es) = [] →
      ∃ o, expandTerm D u (abspath W.cwd path) (without ((texts n c!"prepend" (decls es)).reverse.flatten ++ (byOperators n start (decls es)).getD [] ++
        (texts n c!"append" (decls es)).flatten) (texts n c!"remove" (decls es))) = .ok o ∧ dget n r = some (safeLinesplit o)) := by
  have R := recipe_read hu h hf hl hg hst
  exact R.values hr hb hbn hbk hds (R.start rfl hs)

/-- one statement on each line -/
theorem one_line_texts {sts : List Str} (hst : ∀ st ∈ sts, OneLine st ∧ ¬ c!"${@" <:+: st) :
    IsLines (univNewlines (sts.map (fun st => st ++ c!"\n")).flatten) (sts.map (fun st => st ++ c!"\n")) ∧
    Groups (sts.map (fun st => st ++ c!"\n")) ((sts.map (fun st => st ++ c!"\n")).map (fun x => [x])) ∧
    ∀ st ∈ sts, ¬ c!"${@" <:+: st ++ c!"\n" ∧ joined (st ++ c!"\n") = st := by
  have hr : '\r' ∉ (sts.map (fun st => st ++ c!"\n")).flatten := by
    simp only [List.mem_flatten, List.mem_map, not_exists, not_and]
    rintro _ ⟨st, hm, rfl⟩ hc
    simp at hc
    exact ((hst st hm).1.chars _ hc).2.1 rfl
  refine ⟨?_, groups_single ?_, fun st hm => ⟨?_, ?_⟩⟩
  · rw [univNewlines_id hr]
    refine ⟨rfl, ?_, ?_, ?_⟩
    · simp
    · simp only [List.mem_map]
      rintro _ ⟨st, hm, rfl⟩
      rw [List.dropLast_concat]
      exact fun hc => ((hst st hm).1.chars _ hc).1 rfl
    · intro x hx
      obtain ⟨st, hm, rfl⟩ := List.mem_map.1 (List.mem_of_mem_dropLast hx)
      simp
  · intro x hx
    obtain ⟨st, hm, rfl⟩ := List.mem_map.1 hx
    have hone := (hst st hm).1
    refine ⟨?_, hone.noHeader, hone.noComment, hone.noDef⟩
    rintro ⟨a, ws, e, -⟩
    have : '\\' ∈ st ++ c!"\n" := by rw [e]; simp
    simp at this
    exact (hone.chars _ this).2.2 rfl
  · intro hh
    obtain ⟨a, b, e⟩ := hh
    refine (hst st hm).2 ?_
    rcases List.eq_nil_or_concat b with rfl | ⟨b, c, rfl⟩
    · have := congrArg List.getLast? e
      simp at this
    · rw [List.concat_eq_append, ← List.append_assoc] at e
      exact ⟨a, b, (List.append_inj' e rfl).1⟩
  · have hone := (hst st hm).1.chars
    generalize st = u at hone ⊢
    unfold joined
    rw [List.filter_append, List.filter_eq_self.2 (by intro c hc; simp [(hone c hc).1])]
    simp only [List.filter_cons, bne_self_eq_false, Bool.false_eq_true, if_false, List.filter_nil, List.append_nil]
    have : u.map (fun c => if c = '\\' then '\x1b' else c) = u.map id := List.map_congr_left (fun c hc => by rw [if_neg (hone c hc).2.2]; rfl)
    rw [this, List.map_id]

theorem one_line_groups {sts : List Stmt} (hst : ∀ st ∈ sts, OneLine st.text ∧ ¬ c!"${@" <:+: st.text) :
    IsLines (univNewlines (sts.map (fun st => st.text ++ c!"\n")).flatten) (sts.map (fun st => st.text ++ c!"\n")) ∧
    Groups (sts.map (fun st => st.text ++ c!"\n")) ((sts.map (fun st => st.text ++ c!"\n")).map (fun x => [x])) ∧
    ∀ st ∈ sts, ¬ c!"${@" <:+: st.text ++ c!"\n" ∧ joined (st.text ++ c!"\n") = st.text := by
  have := one_line_texts (sts := sts.map Stmt.text) (by
    intro x hx
    obtain ⟨st, hs, rfl⟩ := List.mem_map.1 hx
    exact hst st hs)
  rw [List.map_map] at this
  exact ⟨this.1, this.2.1, fun st hs => this.2.2 _ (List.mem_map_of_mem hs)⟩

theorem now_chars {c : Char} (hsp : c ≠ ' ') {ds : List Decl} (h : ∀ d ∈ ds, c ∉ d.text) {o : Option Str} (ho : c ∉ o.getD []) : c ∉ (ds.foldl Decl.now o).getD [] := by
  induction ds generalizing o with
  | nil => exact ho
  | cons d ds ih =>
    refine ih (fun d hd => h d (by simp [hd])) ?_
    have hd := h d (by simp)
    unfold Decl.now
    repeat' split
    all_goals simp only [Option.getD_some, List.mem_append, List.mem_singleton, not_or]
    · cases o with
      | none => exact hd
      | some v => exact ho
    · exact ⟨⟨ho, hsp⟩, hd⟩
    · exact ⟨⟨hd, hsp⟩, ho⟩
    · exact ⟨ho, hd⟩
    · exact ⟨hd, ho⟩
    · exact hd

theorem texts_chars {c : Char} {n w : Str} {ds : List Decl} (h : ∀ d ∈ ds, c ∉ d.text) : ∀ x ∈ texts n w ds, c ∉ x := by
  intro x hx
  obtain ⟨d, hd, rfl⟩ := List.mem_map.1 hx
  exact h d (List.mem_filter.1 hd).1

theorem without_chars {c : Char} {t : Str} {rs : List Str} (h : c ∉ t) : c ∉ without t rs := by
  unfold without
  induction rs generalizing t with
  | nil => exact h
  | cons w rs ih => exact ih (fun hc => h (replaceAll_mem hc))

/-- **C116** (texts without references). A file of one entry on each line, read into a fresh stash: `ExpandVar` gives for each variable the items of the text that follows from the declarations,
and nothing for a variable without a value. Nothing else matters: not the path, not the disk, not the settings of the stash. -/
theorem C116_one_line_entries (W D : World) (ns neg : Bool) (consts : J) (hu : UsableConstants consts) (uid k : Nat) (path : Str) (off : Int) (forced : Option Str) (u : Stash) (res : List Item)
    (h : addFile W k path off forced (Stash.init ns neg consts uid) = (.ok res, u)) (es : List Entry)
    (hf : W.file (abspath W.cwd path) = .text (es.map (fun e => e.stmt.text ++ c!"\n")).flatten)
    (hes : ∀ e ∈ es, e.Ok ∧ OneLine e.stmt.text ∧ ¬ c!"${@" <:+: e.stmt.text)
    (r : List (Str × List Str)) (hr : expandVar D u (some (abspath W.cwd path)) .none .none false = .ok r)
    (b : KV) (hb : setsBase consts = .ok (.dict b)) (hbn : b.keys.Nodup) (hbk : ∀ x ∈ b.keys, '$' ∉ x ∧ '(' ∉ x) (hds : ∀ d ∈ decls es, '$' ∉ d.name ∧ '(' ∉ d.name)
    (n : Str) (start : Option Str) (hs : Base (Stash.init ns neg consts uid) (abspath W.cwd path) n start)
    (hplain : ∀ c ∈ ['$', '('], c ∉ start.getD [] ∧ ∀ d ∈ decls es, c ∉ d.text)
    (hrem : byOperators n start (decls es) ≠ none ∨ texts n c!"remove" (decls es) = []) :
    (Given n start (decls es) → dget n r = some (safeLinesplit (without ((texts n c!"prepend" (decls es)).reverse.flatten ++ (byOperators n start (decls es)).getD [] ++
        (texts n c!"append" (decls es)).flatten) (texts n c!"remove" (decls es))))) ∧
    (¬ Given n start (decls es) → dget n r = none) := by
  have hone : ∀ st ∈ es.map Entry.stmt, OneLine st.text ∧ ¬ c!"${@" <:+: st.text := by
    intro st hst
    obtain ⟨e, he, rfl⟩ := List.mem_map.1 hst
    exact (hes e he).2
  have heq : (es.map Entry.stmt).map (fun st => st.text ++ c!"\n") = es.map (fun e => e.stmt.text ++ c!"\n") := by rw [List.map_map]; rfl
  obtain ⟨g1, g2, g3⟩ := one_line_groups hone
  rw [heq] at g1 g2
  obtain ⟨m1, m2⟩ := C116_recipe W D ns neg consts hu uid k path off forced u res h _ hf _ _ g1 g2 es (by
    rw [List.map_map, List.forall₂_map_left_iff, List.forall₂_same]
    intro e he
    simp only [Function.comp, List.flatten_cons, List.flatten_nil, List.append_nil]
    obtain ⟨k1, k2⟩ := g3 e.stmt (List.mem_map_of_mem he)
    exact ⟨k1, k2, (hes e he).1⟩) r hr b hb hbn hbk hds n start hs
  refine ⟨fun hg => ?_, fun hg => ?_⟩
  · obtain ⟨o, h1, h2⟩ := m2 hg hrem
    have c0 : ConstsOf consts (Stash.init ns neg consts uid) := ⟨hu, otherNames_refl _⟩
    have c1 : ConstsOf consts u := by
      have := addFile_constsOf_any (W := W) c0 k path off forced
      rwa [h] at this
    have hbase : setsBase u.consts = setsBase consts :=
      (twin_names W).sets (s' := { (Stash.init ns neg consts uid) with consts := u.consts }) (constsOf_names c0 c1)
    have plain : ∀ c ∈ ['$', '('], c ∉ without ((texts n c!"prepend" (decls es)).reverse.flatten ++ (byOperators n start (decls es)).getD [] ++
        (texts n c!"append" (decls es)).flatten) (texts n c!"remove" (decls es)) := by
      intro c hc
      obtain ⟨p1, p2⟩ := hplain c hc
      refine without_chars ?_
      simp only [List.mem_append, List.mem_flatten, List.mem_reverse, not_or, not_exists, not_and]
      refine ⟨⟨texts_chars p2, ?_⟩, texts_chars p2⟩
      exact now_chars (by rintro rfl; simp at hc) (fun d hd => p2 d (List.mem_filter.1 hd).1) p1
    rw [expandTerm_plain (hbase.trans hb) (plain '$' (by simp)) (plain '(' (by simp))] at h1
    cases h1
    exact h2
  · cases hd : dget n r with
    | none => rfl
    | some x => exact absurd (m1.1 (by rw [hd]; rfl)) hg
end

section
attribute [local instance] Sample.asciiUni
open Spec

/-- declarations with every kind of effect, with an empty line and a task between them -/
def Sample.entries : List Entry :=
  [ .decl ⟨c!"A", [], c!"=", c!"1"⟩, .other (.blank []), .decl ⟨c!"A", [c!"append"], c!"=", c!"9 x"⟩, .decl ⟨c!"A", [], c!"+=", c!"2"⟩,
    .other (.deltask c!" " c!"do_b" c!" " c!"# no"), .decl ⟨c!"A", [c!"prepend"], c!"=", c!"0"⟩, .decl ⟨c!"A", [c!"remove"], c!"=", c!"x"⟩,
    .decl ⟨c!"B", [c!"foo"], c!"?=", c!"3"⟩, .decl ⟨c!"B", [c!"foo"], c!"?=", c!"4"⟩ ]
/-- the disk with this recipe -/
def Sample.entriesDisk : World := Sample.world [(c!"/w/r.bb", (Sample.entries.map (fun e => e.stmt.text ++ c!"\n")).flatten)]

theorem Sample.entry {c : Char} {os : List Str} {op t : Str} (h1 : 'A' ≤ c ∧ c ≤ 'Z') (h2 : (os.all fun o => !o.contains '_' && !o.contains ':' &&
    match o with | x :: _ => decide ('a' ≤ x ∧ x ≤ 'z') | [] => false) = true)
    (h3 : (∀ x ∈ joinS [':'] ([c] :: os), NameChar x) ∧ (joinS [':'] ([c] :: os)).getLast? ≠ some ':' ∧ (joinS [':'] ([c] :: os)).getLast? ≠ some '.' ∧
      joinS [':'] ([c] :: os) ∉ keywords ∧ (joinS [':'] ([c] :: os)).head? = some c)
    (h4 : op ∈ operators) (h5 : ¬ (c!"append" ∈ os ∧ c!"prepend" ∈ os)) (h6 : '"' ∉ t ∧ '\n' ∉ t ∧ '!' ∉ t) : (Entry.decl ⟨[c], os, op, t⟩).Ok := by
  obtain ⟨n1, n2, n3, n4, n5⟩ := h3
  refine ⟨⟨rfl, ⟨?_, n1, ⟨n2, n3⟩, n4, ?_⟩, h4, by unfold Blanks; decide, by unfold Blanks; decide, by simpa using h6.2.1, by simp [reSpace]⟩,
    Sample.overridden h1 h2, h5, fun h => h6.1 (List.mem_of_head? h), fun h => h6.1 (List.mem_of_getLast? h), ?_⟩
  · intro e
    rw [e] at n5
    cases n5
  · intro k e
    show False
    have e : joinS [':'] ([c] :: os) = _ := e
    rw [e] at n5
    have : 'i' = c := by simpa using n5
    subst this
    revert h1
    decide
  · rintro ⟨a, b, e⟩
    exact h6.2.2 (show '!' ∈ Decl.text ⟨[c], os, op, t⟩ by rw [← e]; simp)

theorem Sample.entries_ok : ∀ e ∈ Sample.entries, e.Ok ∧ OneLine e.stmt.text ∧ ¬ c!"${@" <:+: e.stmt.text := by
  have hin : ∀ e ∈ Sample.entries, '@' ∉ e.stmt.text := by decide +kernel
  have hone : ∀ e ∈ Sample.entries, (∀ c ∈ e.stmt.text, c ≠ '\n' ∧ c ≠ '\r' ∧ c ≠ '\\' ∧ c ≠ '(') ∧ e.stmt.text.head? ≠ some '#' ∧
      ¬ c!"def " <+: (e.stmt.text ++ c!"\n").dropWhile pySpace := by decide +kernel
  intro e he
  refine ⟨?_, oneLine_of_chars (hone e he).1 (hone e he).2.1 (hone e he).2.2, ?_⟩
  · simp only [Sample.entries, List.mem_cons, List.not_mem_nil, or_false] at he
    rcases he with rfl | rfl | rfl | rfl | rfl | rfl | rfl | rfl | rfl
    · exact Sample.entry (by decide) (by decide) (by decide) (by decide) (by decide) (by decide)
    · exact ⟨by show Tabs _; unfold Tabs; decide, rfl⟩
    · exact Sample.entry (by decide) (by decide) (by decide) (by decide) (by decide) (by decide)
    · exact Sample.entry (by decide) (by decide) (by decide) (by decide) (by decide) (by decide)
    · exact ⟨⟨⟨by decide, by decide⟩, ⟨by decide, by decide⟩, by decide, Or.inr (by decide), by decide⟩, rfl⟩
    · exact Sample.entry (by decide) (by decide) (by decide) (by decide) (by decide) (by decide)
    · exact Sample.entry (by decide) (by decide) (by decide) (by decide) (by decide) (by decide)
    · exact Sample.entry (by decide) (by decide) (by decide) (by decide) (by decide) (by decide)
    · exact Sample.entry (by decide) (by decide) (by decide) (by decide) (by decide) (by decide)
  · rintro ⟨a, b, e'⟩
    exact hin e he (by rw [← e']; simp)

/-- all hypotheses of C116 hold for this recipe, and say what its values are -/
example : ∀ res u, addFile Sample.entriesDisk 5 c!"/w/r.bb" 0 none (Stash.init false false Sample.constants 0) = (.ok res, u) →
    ∀ (D : World) r, expandVar D u (some c!"/w/r.bb") .none .none false = .ok r →
      dget c!"A" r = some [c!"01", c!"29"] ∧ dget c!"B:foo" r = some [c!"3"] ∧ dget c!"C" r = none := by
  intro res u h D r hr
  have hb : setsBase Sample.constants = .ok J.empty := Sample.emptyBase (u := Stash.init false false Sample.constants 0) (by decide +kernel)
  have main := fun n hn hp hrem => C116_one_line_entries Sample.entriesDisk D false false Sample.constants Sample.usableConstants 0 5 c!"/w/r.bb" 0 none u res h Sample.entries rfl
    Sample.entries_ok r hr .nil hb (by decide) (by decide) (by decide) n none (.none hb rfl hn) hp hrem
  refine ⟨?_, ?_, ?_⟩
  · rw [(main c!"A" (by decide) (by decide) (by decide)).1 (.inl (by decide))]
    decide +kernel
  · rw [(main c!"B:foo" (by decide) (by decide) (by decide)).1 (.inl (by decide))]
    decide +kernel
  · refine (main c!"C" (by decide) (by decide) (by decide)).2 ?_
    rintro (hg | ⟨d, hd, hg⟩)
    · exact hg (by decide)
    · revert d
      decide

/-- the two calls do not fail -/
example : (expandVar (Sample.world []) (addFile Sample.entriesDisk 5 c!"/w/r.bb" 0 none (Stash.init false false Sample.constants 0)).2 (some c!"/w/r.bb") .none .none false).toOption.map
      (fun e => (dget c!"A" e, dget c!"B:foo" e)) = some (some [c!"01", c!"29"], some [c!"3"]) := by
  decide +kernel
end
end Oelint
