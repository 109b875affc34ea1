import Verif.Lemmas.ReproducibleRefs
import Verif.Lemmas.Printed
import Verif.Lemmas.Links
import Verif.Spec.Undisturbed
/-! Files of one stash that have nothing to do with each other (C105). -/
set_option linter.unusedSectionVars false
set_option linter.unusedSimpArgs false
namespace Oelint
variable [Uni]
open Spec

/-- links are only added, at the end -/
def LinksPrefix (s s' : Stash) : Prop := ∀ k, links s k <+: links s' k

theorem linksPrefix_mapAppend (s : Stash) (k x : Str) : LinksPrefix s { s with map := mapAppend s.map k x } := by
  intro j
  rw [links_mapAppend]
  split
  · rename_i h; subst h; exact List.prefix_append _ _
  · exact List.prefix_refl _

theorem linksPrefix_enter (s : Stash) (k : Str) (h : dhas k s.map = false) : LinksPrefix s { s with map := dset k [] s.map } := by
  intro j
  rw [links_dset_nil _ _ _ h]

theorem LinksPrefix.refl (s : Stash) : LinksPrefix s s := fun _ => List.prefix_refl _
theorem LinksPrefix.trans {a b c : Stash} (h1 : LinksPrefix a b) (h2 : LinksPrefix b c) : LinksPrefix a c :=
  fun k => (h1 k).trans (h2 k)

/-- is the item linked to the file? -/
def seenFrom (s : Stash) (f : Str) (x : Item) : Bool := isLinkedTo s x f false

theorem seenFrom_iff {s : Stash} {f : Str} {x : Item} : seenFrom s f x = true ↔ x.origin = f ∨ x.origin ∈ links s f := by
  unfold seenFrom isLinkedTo links
  simp only [Bool.not_false, Bool.and_true, Bool.or_eq_true, List.contains_iff_mem, beq_iff_eq]
  rw [Or.comm, eq_comm]

theorem seenFrom_links {s t : Stash} {f : Str} (h : links t f = links s f) : seenFrom t f = seenFrom s f := by
  funext x
  rw [Bool.eq_iff_iff, seenFrom_iff, seenFrom_iff, h]

/-- one step, or many: the files `T` are announced, and what is linked to `f` stays as it is if they have nothing to do with it.
`F` are files that are being read. -/
structure Far (f : Str) (F : List Str) (s s' : Stash) : Prop where
  grow : LinksPrefix s s'
  quiet : s'.quiet = s.quiet
  same : ∃ T, s'.printed = (if s.quiet then s.printed else s.printed ++ T.map announcement) ∧
    (Elsewhere s s' (F ++ T) f → s'.items.filter (seenFrom s f) = s.items.filter (seenFrom s f))

theorem Far.of_items {f : Str} {F : List Str} {s s' : Stash} (h1 : LinksPrefix s s') (h2 : s'.quiet = s.quiet) (h3 : s'.printed = s.printed)
    (h4 : Elsewhere s s' F f → s'.items.filter (seenFrom s f) = s.items.filter (seenFrom s f)) : Far f F s s' :=
  ⟨h1, h2, [], by rw [h3]; split <;> simp, by rw [List.append_nil]; exact h4⟩

theorem Far.of_same {f : Str} {F : List Str} {s s' : Stash} (h1 : LinksPrefix s s') (h2 : s'.quiet = s.quiet) (h3 : s'.printed = s.printed)
    (h4 : s'.items = s.items) : Far f F s s' := .of_items h1 h2 h3 fun _ => by rw [h4]

theorem Far.refl (f : Str) (F : List Str) (s : Stash) : Far f F s s := .of_same (.refl s) rfl rfl rfl

theorem elsewhere_first {a b c : Stash} {f : Str} {R R' : List Str} (h1 : LinksPrefix a b) (h2 : LinksPrefix b c) (hs : ∀ p ∈ R, p ∈ R')
    (h : Elsewhere a c R' f) : Elsewhere a b R f := by
  refine ⟨?_, fun p hp => h.fresh p (hs p hp), fun x hx hb p hp hm => h.appends x hx hb p (hs p hp) ((h2 p).subset hm)⟩
  have e := h.links
  have l1 := (h1 f).length_le
  have l2 := (h2 f).length_le
  exact ((h1 f).eq_of_length (by rw [e] at l2; omega)).symm

theorem elsewhere_second {a b c : Stash} {f : Str} {R R' : List Str} (h1 : LinksPrefix a b) (h2 : LinksPrefix b c) (hs : ∀ p ∈ R, p ∈ R')
    (h : Elsewhere a c R' f) : Elsewhere b c R f := by
  have e : links b f = links a f := (elsewhere_first (R := []) h1 h2 (by simp) h).links
  refine ⟨h.links.trans e.symm, fun p hp => by rw [e]; exact h.fresh p (hs p hp), fun x hx hb p hp => ?_⟩
  rw [e] at hx
  exact h.appends x hx hb p (hs p hp)

theorem Far.trans {f : Str} {F : List Str} (a b c : Stash) (h1 : Far f F a b) (h2 : Far f F b c) : Far f F a c := by
  obtain ⟨g1, q1, T, p1, s1⟩ := h1
  obtain ⟨g2, q2, U, p2, s2⟩ := h2
  refine ⟨g1.trans g2, q2.trans q1, T ++ U, ?_, fun h => ?_⟩
  · rw [p2, p1, q1]; split <;> simp
  · have e1 := elsewhere_first (R := F ++ T) g1 g2 (by simp; tauto) h
    have e2 := elsewhere_second (R := F ++ U) g1 g2 (by simp; tauto) h
    rw [← s1 e1, ← seenFrom_links e1.links, s2 e2]

theorem Far.more {f : Str} {F : List Str} {s s' : Stash} (h : Far f [] s s') : Far f F s s' := by
  obtain ⟨g, q, T, p, hs⟩ := h
  exact ⟨g, q, T, p, fun h => hs (elsewhere_first g (.refl _) (by simp; tauto) h)⟩

/-! ## recipes and appends -/

/-- an item of an append that is now linked to `file` may have got another `Line` -/
def MovedBy (t : Stash) (file : Str) (x y : Item) : Prop :=
  y.origin = x.origin ∧ (y = x ∨ (c!".bbappend" <:+ x.origin ∧ x.origin ∈ links t file))

theorem forall₂_same {R : Item → Item → Prop} (h : ∀ x, R x x) (l : List Item) : List.Forall₂ R l l := by
  induction l with
  | nil => exact .nil
  | cons x l ih => exact .cons (h x) ih

theorem linkRecipe_moved (file bn : Str) (mx : Int) (done l : List Item) (s : Stash) :
    ∃ l', (linkRecipe file bn mx done l s).2.items = done ++ l' ∧
      List.Forall₂ (MovedBy (linkRecipe file bn mx done l s).2 file) l l' := by
  induction l generalizing done s with
  | nil => exact ⟨[], by rw [linkRecipe_nil]; simp, .nil⟩
  | cons item rest ih =>
    rw [linkRecipe_cons]
    split
    · obtain ⟨l', h1, h2⟩ := ih (done ++ [item]) s
      exact ⟨item :: l', by rw [h1]; simp, .cons ⟨rfl, .inl rfl⟩ h2⟩
    · rename_i hb
      split
      · exact ⟨item :: rest, rfl, forall₂_same (fun x => ⟨rfl, .inl rfl⟩) _⟩
      · obtain ⟨l', h1, h2⟩ := ih (done ++ [item]) s
        exact ⟨item :: l', by rw [h1]; simp, .cons ⟨rfl, .inl rfl⟩ h2⟩
      · obtain ⟨l', h1, h2⟩ := ih (done ++ [{ item with line := max item.line (item.inFileLine + mx) }])
          { s with map := mapAppend s.map file item.origin }
        refine ⟨{ item with line := max item.line (item.inFileLine + mx) } :: l', by rw [h1]; simp, .cons ⟨rfl, .inr ⟨?_, ?_⟩⟩ h2⟩
        · exact List.isSuffixOf_iff_suffix.1 (by simpa [endsWith] using hb)
        · have g : LinksPrefix { s with map := mapAppend s.map file item.origin }
              (linkRecipe file bn mx (done ++ [{ item with line := max item.line (item.inFileLine + mx) }]) rest
                { s with map := mapAppend s.map file item.origin }).2 := by
            clear ih h1 h2
            generalize done ++ [{ item with line := max item.line (item.inFileLine + mx) }] = d
            generalize { s with map := mapAppend s.map file item.origin } = u
            induction rest generalizing d u with
            | nil => exact .refl _
            | cons y rest ih =>
              rw [linkRecipe_cons]
              split
              · exact ih _ _
              · split
                · exact fun _ => List.prefix_refl _
                · exact ih _ _
                · exact (linksPrefix_mapAppend u file y.origin).trans (ih _ _)
          refine (g file).subset ?_
          rw [links_mapAppend]; simp

theorem filter_moved {p : Item → Bool} {R : Item → Item → Prop} {l l' : List Item} (h : List.Forall₂ R l l')
    (hp : ∀ x y, R x y → p y = p x) (he : ∀ x y, R x y → p x = true → y = x) : l'.filter p = l.filter p := by
  induction h with
  | nil => rfl
  | cons hx _ ih =>
    rw [List.filter_cons, List.filter_cons, hp _ _ hx, ih]
    split
    · rename_i h; rw [he _ _ hx h]
    · rfl

theorem crossLink_far (f file : Str) (its : List Item) : M.Rel (Far f [file]) (crossLink file its) := by
  unfold crossLink
  split
  · refine M.Rel.bind Far.trans (M.Rel.get (Far.refl f _)) fun s => ?_
    exact M.Rel.bind Far.trans (linkAppend_rel (Far.refl f _) Far.trans file (fun s x => .of_same (linksPrefix_mapAppend s x file) rfl rfl rfl) _ _)
      fun _ => M.Rel.pure (Far.refl f _) _
  · split
    · intro s
      have key : Far f [file] s (linkRecipe file (replaceAll c!".bb" [] (basename file)) (maxLine its) [] s.items s).2 := by
        have g : ∀ (done l : List Item) (s : Stash), LinksPrefix s (linkRecipe file (replaceAll c!".bb" [] (basename file)) (maxLine its) done l s).2 ∧
            (linkRecipe file (replaceAll c!".bb" [] (basename file)) (maxLine its) done l s).2.quiet = s.quiet ∧
            (linkRecipe file (replaceAll c!".bb" [] (basename file)) (maxLine its) done l s).2.printed = s.printed := by
          intro done l
          induction l generalizing done with
          | nil => exact fun s => ⟨fun _ => List.prefix_refl _, rfl, rfl⟩
          | cons y rest ih =>
            intro s
            rw [linkRecipe_cons]
            split
            · exact ih _ _
            · split
              · exact ⟨fun _ => List.prefix_refl _, rfl, rfl⟩
              · exact ih _ _
              · obtain ⟨h1, h2, h3⟩ := ih (done ++ [{ y with line := max y.line (y.inFileLine + maxLine its) }])
                  { s with map := mapAppend s.map file y.origin }
                exact ⟨(linksPrefix_mapAppend s file y.origin).trans h1, h2, h3⟩
        obtain ⟨h1, h2, h3⟩ := g [] s.items s
        refine .of_items h1 h2 h3 fun he => ?_
        obtain ⟨l', h4, h5⟩ := linkRecipe_moved file (replaceAll c!".bb" [] (basename file)) (maxLine its) [] s.items s
        rw [h4, List.nil_append]
        refine filter_moved h5 (fun x y hm => ?_) (fun x y hm hx => ?_)
        · rw [Bool.eq_iff_iff, seenFrom_iff, seenFrom_iff, hm.1]
        · rcases hm.2 with h | ⟨hb, hl⟩
          · exact h
          · exact absurd hl (he.appends _ (seenFrom_iff.1 hx) hb file (by simp))
      change Far f [file] s ((linkRecipe file (replaceAll c!".bb" [] (basename file)) (maxLine its) [] s.items >>= fun _ => pure its) s).2
      rw [M.bind_def]
      rcases h : linkRecipe file (replaceAll c!".bb" [] (basename file)) (maxLine its) [] s.items s with ⟨r, s'⟩
      rw [h] at key
      cases r <;> exact key
    · exact M.Rel.pure (Far.refl f _) _

theorem addFile_far (W : World) (f : Str) (n : Nat) (path : Str) (off : Int) (forced : Option Str) :
    M.Rel (Far f []) (addFile W n path off forced) := by
  induction n generalizing path off forced with
  | zero => exact M.Rel.raise (Far.refl f _) _
  | succ n ih =>
    intro s
    by_cases hs : alreadySeen s (abspath W.cwd path) = true
    · rw [addFile_seen off forced hs]; exact Far.refl f _ s
    · have hs := (by simpa using hs : alreadySeen s (abspath W.cwd path) = false)
      have close : ∀ s', Far f [abspath W.cwd path] (markSeen s (abspath W.cwd path)) s' → Far f [] s s' := by
        rintro s' ⟨g, q, T, p, hT⟩
        refine ⟨g, q, abspath W.cwd path :: T, ?_, fun h => hT ⟨h.links, h.fresh, h.appends⟩⟩
        rw [p]
        unfold markSeen Stash.say
        simp only
        split
        · rfl
        · simp [announcement]
      rcases addFile_step Far.trans W off forced hs
        (fun o ns neg => getItems_rel (Far.refl f _) Far.trans (fun s => .of_same (.refl s) rfl rfl rfl) W _
          (fun p o fo s => (ih p o fo s).more) o ns neg)
        (enterMap_rel (Far.refl f _) Far.trans (fun s k x => .of_same (linksPrefix_mapAppend s k x) rfl rfl rfl)
          (fun s k h => .of_same (linksPrefix_enter s k h) rfl rfl rfl) _ _)
        (crossLink_far f _)
        (addDistroMachine_rel (Far.refl f _) Far.trans (fun s db => .of_same (fun _ => List.prefix_refl _) rfl rfl rfl) W _)
        with ⟨e, s', he, hR⟩ | ⟨res, s4, he, hR⟩
      · rw [he]; exact close _ hR
      · have ho := addFile_origin he
        rw [he]
        refine close _ (Far.trans _ _ _ hR (.of_items (fun _ => List.prefix_refl _) rfl rfl fun h => ?_))
        show (s4.items ++ res).filter _ = _
        have hn : res.filter (seenFrom s4 f) = [] := List.filter_eq_nil_iff.2 fun x hx hl => ?_
        · rw [List.filter_append, hn, List.append_nil]
        obtain ⟨h1, h2⟩ := h.fresh (abspath W.cwd path) (by simp)
        rcases seenFrom_iff.1 hl with h3 | h3
        · exact h1 (ho x hx ▸ h3)
        · exact h2 (ho x hx ▸ h3)

theorem addCalls_far (W : World) (f : Str) (l : List FileCall) (s : Stash) : Far f [] s (addCalls W l s).2 := by
  induction l generalizing s with
  | nil => exact Far.refl f _ s
  | cons c l ih => exact Far.trans _ _ _ (addFile_far W f c.depth c.path c.off c.forced s) (ih _)

/-! ## answers -/

/-- what the questions about `f` ask agrees -/
structure SameFor (W : World) (f : Str) (s t : Stash) : Prop where
  name : f ≠ []
  links : links t f = links s f
  items : t.items.filter (seenFrom s f) = s.items.filter (seenFrom s f)
  sets : setsBase t.consts = setsBase s.consts
  mirrors : mirrorsKnown t.consts = mirrorsKnown s.consts
  imgClasses : imagesClasses t.consts = imagesClasses s.consts
  imgVars : imagesVariables t.consts = imagesVariables s.consts

variable {W : World} {s t : Stash} {f : Str}

theorem keeps_seen {g : Filter} (hf : f ≠ []) (hg : g.filename = some f) {x : Item} (h : keeps s g x = true) : seenFrom s f x = true :=
  seenFrom_iff.2 <| by
    rcases ((keeps_iff _ _ _).1 h).file f hg hf with h | ⟨-, fs, h1, h2⟩
    · exact .inl h
    · exact .inr (mem_links.2 ⟨fs, h1, h2⟩)

theorem keeps_links (h : links t f = links s f) (hf : f ≠ []) {g : Filter} (hg : g.filename = some f) : keeps t g = keeps s g := by
  have key : ∀ (s t : Stash), links t f = links s f → ∀ x, keeps t g x = true → keeps s g x = true := by
    intro s t h x hk
    have k := (keeps_iff _ _ _).1 hk
    refine (keeps_iff _ _ _).2 ⟨fun fn e hn => ?_, k.classifier, k.attr⟩
    rw [hg] at e
    obtain rfl := Option.some.inj e
    rcases k.file f hg hn with h1 | ⟨h1, fs, h2, h3⟩
    · exact .inl h1
    · exact .inr ⟨h1, mem_links.1 (h ▸ mem_links.2 ⟨fs, h2, h3⟩)⟩
  funext x
  exact Bool.eq_iff_iff.2 ⟨key s t h x, key t s h.symm x⟩

theorem SameFor.reduce (h : SameFor W f s t) {g : Filter} (hg : g.filename = some f) (l : List Item) : reduceL W t l g = reduceL W s l g := by
  unfold reduceL
  rw [applyFilter_eq, applyFilter_eq, keeps_links h.links h.name hg]

theorem SameFor.get (h : SameFor W f s t) {g : Filter} (hg : g.filename = some f) : getItemsFor W t g = getItemsFor W s g := by
  unfold getItemsFor
  rw [h.reduce hg]
  unfold reduceL
  rw [applyFilter_eq, applyFilter_eq]
  have e : ∀ l : List Item, l.filter (keeps s g) = (l.filter (seenFrom s f)).filter (keeps s g) := fun l => by
    rw [List.filter_filter]
    refine List.filter_congr fun x _ => ?_
    rw [Bool.eq_iff_iff, Bool.and_eq_true]
    exact ⟨fun hk => ⟨hk, keeps_seen h.name hg hk⟩, fun hk => hk.1⟩
  rw [e t.items, e s.items, h.items]

theorem SameFor.vars (h : SameFor W f s t) (n : Str) : getItemsFor W t (varFilter f n) = getItemsFor W s (varFilter f n) := h.get rfl

theorem SameFor.termF (h : SameFor W f s t) (n : Nat) (sp : List Str) (v : Str) (sn : Seen) :
    expandTermF W t n f sp v sn = expandTermF W s n f sp v sn := by
  induction n generalizing sp v sn with
  | zero => rfl
  | succ n ih =>
    have hone : ∀ b rec q m res sn, expandOne W t b rec f sp q m res sn = expandOne W s b rec f sp q m res sn := by
      intro b rec q m res sn
      have hs : ∀ n, sourceOf W t b f n q = sourceOf W s b f n q := fun n => by unfold sourceOf assignments; rw [h.vars]
      unfold expandOne
      simp only [hs]
    have hmany : ∀ b rec q l res sn, expandMany W t b rec f sp q l res sn = expandMany W s b rec f sp q l res sn := by
      intro b rec q l
      induction l with
      | nil => intros; rfl
      | cons m l ihl =>
        intro res sn
        rw [expandMany, expandMany, hone]
        split
        · rfl
        · exact ihl _ _
    rw [expandTermF, expandTermF, h.sets]
    simp only [hmany, ih]

theorem SameFor.term (h : SameFor W f s t) (sp : List Str) (v : Str) : expandTermS W t f sp v = expandTermS W s f sp v := by
  rw [← (expandTerm_fuel W s f sp v (max (expandBound s v) (expandBound t v)) (Nat.le_max_left _ _)).1,
    ← (expandTerm_fuel W t f sp v (max (expandBound s v) (expandBound t v)) (Nat.le_max_right _ _)).1, h.termF]

theorem SameFor.explode (h : SameFor W f s t) (d : ExpDict) (acc : List (Str × List Str)) :
    explode W t f d acc = Oelint.explode W s f d acc := by
  induction d generalizing acc with
  | nil => rfl
  | cons kv d ih =>
    obtain ⟨k, v⟩ := kv
    unfold Oelint.explode expandTerm
    simp only [h.term, ih]

theorem SameFor.packages (h : SameFor W f s t) (pn : Str) (b : Bool) (l : List VarData) (res : List Str) :
    packageLoop W t f pn b l res = packageLoop W s f pn b l res := by
  induction l generalizing res with
  | nil => rfl
  | cons v l ih =>
    unfold packageLoop packageWords
    simp only [h.term, ih]

theorem SameFor.named (h : SameFor W f s t) (pn : Str) (l res : List Str) : namedLoop W t pn l res = namedLoop W s pn l res := by
  induction l generalizing res with
  | nil => rfl
  | cons w l ih =>
    rw [namedLoop, namedLoop]
    have : getScrComponents W t w = getScrComponents W s w := by
      unfold getScrComponents withKnownMirrors
      rw [h.mirrors]
    rw [this]
    simp only [ih]

theorem SameFor.dyn (h : SameFor W f s t) (l : List VarData) (res : List Str) : dynLoop W t f l res = dynLoop W s f l res := by
  induction l generalizing res with
  | nil => rfl
  | cons v l ih =>
    unfold dynLoop expandTerm
    simp only [h.term, ih]

theorem SameFor.answer (h : SameFor W f s t) {q : Question} (hq : q.asksAbout f) : q.fresh W t = q.fresh W s := by
  have dynamic : getPackagesDynamic W t f = getPackagesDynamic W s f := by unfold getPackagesDynamic; rw [h.vars, h.dyn]
  cases q <;> simp only [Question.asksAbout] at hq <;> unfold Question.fresh <;> simp only
  case itemsFor g => rw [h.get hq]
  case reduce l g => rw [h.reduce hq]
  case expandTerm => subst hq; rw [h.term]
  case expandVar =>
    subst hq
    unfold expandVar expandVarItems expInit
    simp only [h.get (g := { filename := some f, classifier := .one c!"Variable", attname := _, attvalue := _, nolink := _ }) rfl,
      h.get (g := { filename := some f, classifier := .one c!"Unset" }) rfl, h.sets, h.explode]
  case packageNames =>
    subst hq
    unfold getValidPackageNames
    simp only [h.vars, h.packages]
  case namedResources =>
    subst hq
    unfold getValidNamedResources
    simp only [h.vars, h.named]
  case isImage =>
    subst hq
    unfold isImage
    rw [h.imgClasses, h.imgVars]
    simp only [h.vars, h.get (g := inheritFilter _) rfl]
  case isPackageGroup =>
    subst hq
    unfold isPackageGroup
    rw [h.get (g := inheritFilter _) rfl]
  case packagesDynamic => subst hq; rw [dynamic]
  case isDynamicPackage =>
    subst hq
    unfold isDynamicPackage expandTerm
    rw [dynamic, h.term]

end Oelint
