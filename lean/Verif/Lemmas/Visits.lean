import Verif.Lemmas.Walk
import Verif.Lemmas.Lines
import Verif.Lemmas.Context
import Verif.Lemmas.Printed
import Verif.Lemmas.Directory
import Verif.Lemmas.AppendNames
import Verif.Lemmas.LoadSpec
import Verif.Lemmas.Paths
import Verif.Lemmas.LayerNames
/-! The files that are read, and the items they leave behind (C104). -/
set_option linter.unusedSectionVars false
set_option linter.unusedSimpArgs false
namespace Oelint
variable [Uni]
open Spec

/-! ### classes are not read again -/

theorem splitC_last {w : Str} (hw : '/' ∉ w) : ∀ a : Str, ∃ l b, splitC '/' (a ++ w) = l ++ [b ++ w] ∧ '/' ∉ b
  | [] => ⟨[], [], by rw [List.nil_append, splitC_of_not_mem hw]; rfl, by simp⟩
  | x :: a => by
    obtain ⟨l, b, h, hb⟩ := splitC_last hw a
    by_cases hx : x = '/'
    · subst hx
      exact ⟨[] :: l, b, by rw [List.cons_append, splitC_cons_eq, h]; rfl, hb⟩
    · rw [List.cons_append, splitC_cons_ne _ hx, h]
      cases l with
      | nil => exact ⟨[], x :: b, rfl, by simp [hb]; exact fun h => hx h.symm⟩
      | cons y l => exact ⟨(x :: y) :: l, b, rfl, hb⟩

theorem ext_bbclass {p : Str} (h : c!".bbclass" <:+ basename p) : ¬ Reread p := by
  obtain ⟨x, hx⟩ := h
  unfold Reread splitext
  simp only [← hx]
  have e : ((x ++ c!".bbclass").reverse.takeWhile (· != '.')).reverse = c!"bbclass" := by
    rw [List.reverse_append]
    simp [List.takeWhile]
  rw [e]
  split <;> simp

theorem abspath_bbclass (W : World) {p : Str} (h : c!".bbclass" <:+ p) : ¬ Reread (abspath W.cwd p) := by
  apply ext_bbclass
  unfold abspath
  generalize hq : (if isAbs p = true then p else pathJoin W.cwd p) = q
  have habs : isAbs q = true := by
    rw [← hq]
    split
    · assumption
    · exact isAbs_pathJoin W.cwd_abs
  have hs : c!".bbclass" <:+ q := by
    rw [← hq]
    split
    · exact h
    · unfold pathJoin
      split
      · exact h
      · split
        · exact h.trans (List.suffix_append _ _)
        · exact (h.trans (List.suffix_cons _ _)).trans (List.suffix_append _ _)
  obtain ⟨a, rfl⟩ := hs
  obtain ⟨l, b, e, hb⟩ := splitC_last (w := c!".bbclass") (by decide) a
  rw [normpath_abs habs, e, List.foldl_append]
  have hn : '/' ∉ b ++ c!".bbclass" := by
    rw [List.mem_append]
    rintro (h | h)
    · exact hb h
    · revert h; decide
  have hne : ∀ w : Str, w.length < 8 → b ++ c!".bbclass" ≠ w := by
    rintro w hw rfl
    simp at hw
    omega
  have hw : ∀ ns : List Str, [b ++ c!".bbclass"].foldl walk ns = ns ++ [b ++ c!".bbclass"] := by
    intro ns
    simp only [List.foldl_cons, List.foldl_nil]
    unfold walk
    rw [if_neg (by rintro (h | h); exacts [hne [] (by simp) h, hne _ (by decide) h]), if_neg (hne _ (by decide))]
  rw [hw]
  generalize l.foldl walk [] = ns
  refine ⟨b, ?_⟩
  cases ns with
  | nil =>
    rw [List.nil_append, show joinS c!"/" [b ++ c!".bbclass"] = b ++ c!".bbclass" from rfl]
    have : ∃ k, slashes (a ++ c!".bbclass") = k + 1 := by
      unfold slashes
      split
      · exact ⟨0, rfl⟩
      · split
        · exact ⟨1, rfl⟩
        · exact ⟨0, rfl⟩
    obtain ⟨k, hk⟩ := this
    rw [hk, show List.replicate (k + 1) '/' = List.replicate k '/' ++ c!"/" by rw [List.replicate_succ']]
    exact (basename_file hn).symm
  | cons y ns =>
    rw [joinS_append_ne (by simp) (by simp)]
    rw [show List.replicate (slashes (a ++ c!".bbclass")) '/' ++ (joinS c!"/" (y :: ns) ++ '/' :: joinS c!"/" [b ++ c!".bbclass"]) =
      (List.replicate (slashes (a ++ c!".bbclass")) '/' ++ joinS c!"/" (y :: ns)) ++ c!"/" ++ (b ++ c!".bbclass") by
        simp [joinS]]
    exact (basename_file hn).symm

theorem pathJoin_suffix {w a p : Str} (h : w <:+ p) : w <:+ pathJoin a p := by
  unfold pathJoin
  split
  · exact h
  · split
    · exact h.trans (List.suffix_append _ _)
    · exact (h.trans (List.suffix_cons _ _)).trans (List.suffix_append _ _)

theorem findsClass_suffix {W : World} {dir name p w : Str} {locs : List Str} (h : FindsClass W dir name locs p) (hw : w <:+ name) : w <:+ p := by
  induction h with
  | here h _ =>
    rcases h with ⟨-, rfl⟩ | ⟨-, r, -, -, rfl⟩
    · exact pathJoin_suffix (pathJoin_suffix hw)
    · exact pathJoin_suffix (pathJoin_suffix hw)
  | next _ _ ih => exact ih

/-- the classes that an item loads are read once only -/
theorem inherit_once {W : World} {file : Str} {stmt cls : Str} {paths : List Str} (h : LoadSpec W file (.inherit stmt cls paths)) :
    ∀ p ∈ paths, ¬ Reread (abspath W.cwd p) := by
  obtain ⟨st, nm, locs, -, -, -, h, -⟩ := h
  intro p hp
  obtain ⟨hne, word, -, hf⟩ := h p hp
  apply abspath_bbclass
  refine findsClass_suffix ((findClass_spec locs hf).1 hne) ?_
  rcases classFile_withBbclass word with ⟨h, e⟩ | ⟨-, e⟩
  · rw [e]; exact h
  · rw [e]; exact List.suffix_append _ _

/-! ### the walk of `AddFile` -/

/-- the files that the items load -/
def loadsOf (W : World) (l : List Item) : List Str := l.flatMap (fun x => (loadedBy x).map (abspath W.cwd))

/-- read again each time -/
def again (f : Str) : Bool := decide ((splitext f).2 ∈ [c!".inc", c!".bb", c!".conf"])

theorem again_iff (f : Str) : again f = true ↔ Reread f := by unfold again Reread; simp
theorem again_false (f : Str) : again f = false ↔ ¬ Reread f := by rw [← again_iff]; simp

/-- with these settings the file has these items -/
def Says (W : World) (db : J) (V : Str → Prop) (ns neg : Bool) (f : Str) (a : List Item) : Prop :=
  ∃ n off forced s t r, ConstsOf db s ∧ s.newStyle = ns ∧ s.negative = neg ∧ alreadySeen s (abspath W.cwd f) = false ∧
    addFile W n f off forced s = (.ok r, t) ∧ a = r.map content ∧ NoneAssigned V t

theorem says_unique {W : World} {V : Str → Prop} {db : J} (hv : KeepsTo db V) (hw : ∀ f, FileWithin W V f) {ns neg : Bool} (f : Str)
    (a b : List Item) (h : Says W db V ns neg f a) (h' : Says W db V ns neg f b) : a = b := by
  obtain ⟨n, off, forced, s, t, r, k, e1, e2, e3, e4, rfl, u⟩ := h
  obtain ⟨n', off', forced', s', t', r', k', e1', e2', e3', e4', rfl, u'⟩ := h'
  exact addFile_content hv (hw _) k k' u u' (e1'.trans e1.symm) (e2'.trans e2.symm) e3 e3' e4 e4'

/-- the invariant of a stash that files are added to -/
structure Fit (db : J) (ns neg : Bool) (s : Stash) : Prop where
  consts : ConstsOf db s
  newStyle : s.newStyle = ns
  negative : s.negative = neg
  seen : SeenOk s

variable {W : World} {db : J} {V : Str → Prop} {ns neg : Bool}

theorem addFile_abspath (n : Nat) (p : Str) (off : Int) (forced : Option Str) :
    addFile W n p off forced = addFile W n (abspath W.cwd p) off forced := by
  cases n with
  | zero => rfl
  | succ n => rw [addFile, addFile, abspath_idem]

theorem addFile_fit {n : Nat} {p : Str} {off : Int} {forced : Option Str} {s t : Stash} {r : List Item} (k : Fit db ns neg s)
    (h : addFile W n p off forced s = (.ok r, t)) : Fit db ns neg t := by
  have h1 := addFile_rel (settings_step W) n p off forced s
  have h2 := addFile_tells W n p off forced s k.seen
  rw [h] at h1 h2
  obtain ⟨_, h2⟩ := h2
  exact ⟨addFile_constsOf k.consts h, h1.1.trans k.newStyle, h1.2.trans k.negative, h2.inv⟩

theorem raised_content {a b : List Item} (h : Raised a b) : b.map content = a.map content := by
  induction h with
  | nil => rfl
  | cons h _ ih =>
    rw [List.map_cons, List.map_cons, ih]
    congr 1
    obtain ⟨h, -⟩ := h
    rw [h]
    rfl

/-- the names of distros or machines that become known with a file -/
def confNames (W : World) (dir f : Str) : List Str :=
  match getLayerRoot W f with
  | .ok root => if root = [] then [] else (layerConfs W root dir).map (fun c => (splitext (basename c)).1)
  | .error _ => []

theorem addDistroMachine_confNames {W : World} {f : Str} {s s' : Stash} (h : addDistroMachine W f s = (.ok (), s')) (hu : UsableConstants s.consts) :
    namesAt c!"distros" s'.consts = namesAt c!"distros" s.consts ++ confNames W c!"distro" f ∧
    namesAt c!"machines" s'.consts = namesAt c!"machines" s.consts ++ confNames W c!"machine" f := by
  unfold confNames
  cases hr : getLayerRoot W f with
  | error e =>
    unfold addDistroMachine at h
    rw [hr] at h
    cases h
  | ok root =>
    by_cases hn : root = []
    · subst hn
      rw [addDistroMachine_outside hr] at h
      cases h
      simp
    · obtain ⟨db, h1, -, h3, h4, -⟩ := addDistroMachine_names hr hn s hu
      rw [h] at h1
      cases h1
      simp only [if_neg hn]
      exact ⟨h3, h4⟩

/-- what the files that were read leave behind -/
structure Left (W : World) (s : Stash) (E : List (Str × List Item)) (s' : Stash) : Prop where
  items : s'.items.map content = s.items.map content ++ E.flatMap (·.2)
  quiet : s'.quiet = s.quiet
  printed : s'.printed.Perm (s.printed ++ if s.quiet then [] else E.map (fun e => announcement e.1))
  distros : namesAt c!"distros" s'.consts = namesAt c!"distros" s.consts ++ E.flatMap (fun e => confNames W c!"distro" e.1)
  machines : namesAt c!"machines" s'.consts = namesAt c!"machines" s.consts ++ E.flatMap (fun e => confNames W c!"machine" e.1)

/-- what a computation reads and leaves behind -/
def Visits (W : World) (db : J) (V : Str → Prop) (ns neg : Bool) (s : Stash) (L : List Str) (s' : Stash) : Prop :=
  ∃ E, Walk again (Says W db V ns neg) (loadsOf W) (· ∈ s.seenFiles) L E (· ∈ s'.seenFiles) ∧ Left W s E s'

theorem Left.refl (s : Stash) : Left W s [] s := ⟨by simp, rfl, by simp, by simp, by simp⟩

theorem Visits.refl (s : Stash) : Visits W db V ns neg s [] s := ⟨[], .done, .refl s⟩

theorem Left.trans {a b c : Stash} {E E' : List (Str × List Item)} (h : Left W a E b) (h' : Left W b E' c) : Left W a (E ++ E') c where
  items := by rw [h'.items, h.items, List.flatMap_append, List.append_assoc]
  quiet := h'.quiet.trans h.quiet
  printed := by
    refine h'.printed.trans ?_
    rw [h.quiet]
    refine (h.printed.append_right _).trans ?_
    split <;> simp
  distros := by rw [h'.distros, h.distros, List.flatMap_append, List.append_assoc]
  machines := by rw [h'.machines, h.machines, List.flatMap_append, List.append_assoc]

theorem Visits.trans {a b c : Stash} {L L' : List Str} (h : Visits W db V ns neg a L b) (h' : Visits W db V ns neg b L' c) :
    Visits W db V ns neg a (L ++ L') c := by
  obtain ⟨E, h1, h2⟩ := h
  obtain ⟨E', h3, h4⟩ := h'
  exact ⟨E ++ E', h1.append h3, h2.trans h4⟩

/-- one file, if it was not skipped -/
def VisitsOne (W : World) (db : J) (V : Str → Prop) (ns neg : Bool) (n : Nat) : Prop :=
  ∀ p off forced s t r, Fit db ns neg s → addFile W n p off forced s = (.ok r, t) → NoneAssigned V t → Visits W db V ns neg s [abspath W.cwd p] t

theorem ran_down {n : Nat} {file : Str} {lineno : Int} {s s' : Stash} {l : List (Str × Option (List Item))} (h : Ran W n file lineno s l s')
    (u : NoneAssigned V s') : NoneAssigned V s := by
  induction h with
  | done => exact u
  | uid _ ih => exact ih u
  | skip _ _ ih => exact ih u
  | read _ hadd _ ih => exact (down_add _ _ _ _).ok hadd (ih u)

theorem ran_visits {n : Nat} (ih : VisitsOne W db V ns neg n) {file : Str} {lineno : Int} {s s' : Stash} {l : List (Str × Option (List Item))}
    (h : Ran W n file lineno s l s') (k : Fit db ns neg s) (u : NoneAssigned V s') :
    Fit db ns neg s' ∧ Visits W db V ns neg s (l.map (fun e => abspath W.cwd e.1)) s' := by
  induction h with
  | done => exact ⟨k, .refl _⟩
  | uid _ ih =>
    obtain ⟨k', E, h1, h2⟩ := ih ⟨k.consts, k.newStyle, k.negative, k.seen⟩ u
    exact ⟨k', E, h1, ⟨h2.items, h2.quiet, h2.printed, h2.distros, h2.machines⟩⟩
  | @skip s p l s' hs _ ih' =>
    obtain ⟨k', E, h1, h2⟩ := ih' k u
    obtain ⟨q1, q2⟩ := (alreadySeen_inv k.seen _).1 hs
    exact ⟨k', E, .skip ((again_false _).2 q2) q1 h1, h2⟩
  | @read s p tmp s1 l s' hs hadd hran ih' =>
    obtain ⟨k', h1⟩ := ih' (addFile_fit k hadd) u
    exact ⟨k', (ih p lineno (some file) s s1 tmp k hadd (ran_down hran u)).trans h1⟩

theorem filter_again_nil {l : List Str} (h : ∀ x ∈ l, again x = false) : l.filter again = [] := by
  rw [List.filter_eq_nil_iff]
  intro x hx
  simp [h x hx]

/-- the calls of one item are what it reports -/
theorem ranAll_fits {file : Str} {ls : List (Str × Option (List Item))} {r : Item × Int} (h : RanAll ls (some r)) (hs : LoadSpec W file r.1.payload) :
    (∀ x, x ∈ ls.map (fun e => abspath W.cwd e.1) ↔ x ∈ (loadedBy r.1).map (abspath W.cwd)) ∧
    (ls.map (fun e => abspath W.cwd e.1)).filter again = ((loadedBy r.1).map (abspath W.cwd)).filter again := by
  obtain ⟨h1, -, h2⟩ := h
  rw [loaded_loadedBy] at h1
  have e : ls.map (fun e => abspath W.cwd e.1) = (ls.map (·.1)).map (abspath W.cwd) := by rw [List.map_map]; rfl
  rw [e]
  refine ⟨fun x => by simp only [List.mem_map (f := abspath W.cwd), h1], ?_⟩
  cases hp : r.1.payload with
  | «include» nm path st =>
    rw [hp] at h2
    have h2 := h2 rfl
    have hl : loadedBy r.1 = if path = [] then [] else [path] := by unfold loadedBy; rw [hp]
    rw [hl] at h1 ⊢
    cases ls with
    | nil =>
      by_cases hn : path = []
      · rw [if_pos hn]; rfl
      · rw [if_neg hn] at h1
        have := (h1 path).2 (by simp)
        simp at this
    | cons c ls =>
      have : ls = [] := by cases ls <;> simp_all
      subst this
      have := (h1 c.1).1 (by simp)
      by_cases hn : path = []
      · rw [if_pos hn] at this; cases this
      · rw [if_neg hn] at this ⊢
        simp only [List.mem_singleton] at this
        rw [← this]; rfl
  | inherit st cls paths =>
    rw [hp] at hs
    have hl : loadedBy r.1 = paths := by unfold loadedBy; rw [hp]
    rw [hl] at h1 ⊢
    have ho := inherit_once hs
    rw [filter_again_nil, filter_again_nil]
    · intro x hx
      obtain ⟨p, hp, rfl⟩ := List.mem_map.1 hx
      exact (again_false _).2 (ho p hp)
    · intro x hx
      obtain ⟨p, hp, rfl⟩ := List.mem_map.1 hx
      exact (again_false _).2 (ho p ((h1 p).1 hp))
  | _ =>
    have hl : loadedBy r.1 = [] := by unfold loadedBy; rw [hp]
    rw [hl] at h1 ⊢
    have : ls.map (·.1) = [] := List.eq_nil_iff_forall_not_mem.2 fun x hx => by simpa using (h1 x).1 hx
    rw [this]

theorem itemsLoop_visits {n : Nat} (ih : VisitsOne W db V ns neg n) {file : Str} {lo off : Int} {new : Bool} {cs : List Chunk} {s s' : Stash}
    {its : List Item} (h : itemsLoop W (addFile W n) file lo off new cs s = (.ok its, s')) (k : Fit db ns neg s)
    (u : NoneAssigned V s') : Fit db ns neg s' ∧ ∃ L, KidsOf again (loadsOf W) its L ∧ Visits W db V ns neg s L s' := by
  induction cs generalizing off new s its with
  | nil => cases h; exact ⟨k, [], ⟨by simp [loadsOf], rfl⟩, .refl _⟩
  | cons c cs ihc =>
    have htr := itemsLoop_traced W _ _ _ _ _ _ _ _ _ h
    rw [itemsLoop] at h
    obtain ⟨⟨it, d⟩, s1, h1, h⟩ := M.bind_ok.1 h
    obtain ⟨rest, s2, h2, h⟩ := M.bind_ok.1 h
    cases h
    obtain ⟨l, hl, hr⟩ := classify_ran _ _ _ _ _ _ _ h1
    obtain ⟨k1, v1⟩ := ran_visits ih hl k ((down_itemsLoop _ _ _ _ _ _).ok h2 u)
    obtain ⟨k2, L, f2, v2⟩ := ihc h2 k1
    obtain ⟨f3, f4⟩ := ranAll_fits (W := W) hr (traced_loadSpec htr it (by simp))
    refine ⟨k2, _, ⟨?_, ?_⟩, v1.trans v2⟩
    · intro x
      rw [List.mem_append, f3, f2.1]
      simp [loadsOf]
    · rw [List.filter_append, f4, f2.2]
      simp [loadsOf]

theorem loadsOf_content (l : List Item) : loadsOf W (l.map content) = loadsOf W l := by
  unfold loadsOf
  rw [List.flatMap_map]
  rfl

theorem addFile_visits (n : Nat) : VisitsOne W db V ns neg n := by
  induction n with
  | zero => intro p off forced s t r _ h _; cases h
  | succ n ih =>
    intro p off forced s t r k h u
    rcases addFile_ok W h with ⟨hs, -, rfl⟩ | ⟨hs, ⟨ok⟩⟩
    · obtain ⟨q1, q2⟩ := (alreadySeen_inv k.seen _).1 hs
      exact ⟨[], .skip ((again_false _).2 q2) q1 .done, .refl _⟩
    · have km : Fit db ns neg (markSeen s (abspath W.cwd p)) := ⟨k.consts, k.newStyle, k.negative, (markSeen_announces k.seen hs).inv⟩
      obtain ⟨k1, L, f1, E, w1, i1⟩ := itemsLoop_visits ih ok.loop km (down_addOk ok u)
      have e0 := crossLink_content ok.cross
      have hx := crossLink_lifted W (abspath W.cwd p) ok.its { ok.s1 with map := enterMap ok.s1.map (abspath W.cwd p) forced }
      rw [ok.cross] at hx
      have hxs := crossLink_rel (R := fun s s' : Stash => s'.seenFiles = s.seenFiles ∧ s'.quiet = s.quiet ∧ s'.printed = s.printed ∧ s'.consts = s.consts)
        (fun _ => ⟨rfl, rfl, rfl, rfl⟩) (fun _ _ _ h1 h2 => ⟨h2.1.trans h1.1, h2.2.1.trans h1.2.1, h2.2.2.1.trans h1.2.2.1, h2.2.2.2.trans h1.2.2.2⟩)
        (fun _ _ _ => ⟨rfl, rfl, rfl, rfl⟩) (fun _ _ _ => ⟨rfl, rfl, rfl, rfl⟩) (abspath W.cwd p) ok.its
        { ok.s1 with map := enterMap ok.s1.map (abspath W.cwd p) forced }
      rw [ok.cross] at hxs
      have hd := addDistroMachine_rel (R := fun s s' => s'.items = s.items ∧ s'.seenFiles = s.seenFiles ∧ s'.quiet = s.quiet ∧ s'.printed = s.printed)
        (fun _ => ⟨rfl, rfl, rfl, rfl⟩) (fun _ _ _ h1 h2 => ⟨h2.1.trans h1.1, h2.2.1.trans h1.2.1, h2.2.2.1.trans h1.2.2.1, h2.2.2.2.trans h1.2.2.2⟩)
        (fun _ _ => ⟨rfl, rfl, rfl, rfl⟩) W (abspath W.cwd p) ok.s3
      rw [ok.distro] at hd
      obtain ⟨d1, d2, d3, d4⟩ := hd
      obtain ⟨x1, x2, x3, x4⟩ := hxs
      have hc3 : ok.s3.consts = ok.s1.consts := x4
      obtain ⟨c1, c2⟩ := addDistroMachine_confNames ok.distro (hc3 ▸ k1.consts.1)
      have hct : t.consts = ok.s4.consts := (congrArg Stash.consts ok.final).trans rfl
      have hseen : t.seenFiles = ok.s1.seenFiles := (congrArg Stash.seenFiles ok.final).trans (d2.trans x1)
      have hitems : t.items.map content = ok.s1.items.map content ++ r.map content := by
        rw [show t.items = ok.s4.items ++ r from (congrArg Stash.items ok.final).trans rfl, d1, List.map_append, raised_content hx.items]
      have hlast : Left W ok.s1 [(abspath W.cwd p, r.map content)] { t with printed := ok.s1.printed ++ if ok.s1.quiet then [] else [announcement (abspath W.cwd p)] } :=
        ⟨by simpa using hitems, (congrArg Stash.quiet ok.final).trans (d3.trans x2), by simp,
          by simp only [hct, c1, hc3]; simp, by simp only [hct, c2, hc3]; simp⟩
      have hq : ok.s1.quiet = s.quiet := i1.quiet.trans rfl
      have hleft := i1.trans hlast
      refine ⟨E ++ [(abspath W.cwd p, r.map content)], ?_, ⟨?_, ?_, ?_, ?_, ?_⟩⟩
      · refine .read (fun hr hS => ?_) ?_ (K := L) ?_ ?_ .done
        · rw [(alreadySeen_inv k.seen _).2 ⟨hS, (again_false _).1 hr⟩] at hs
          cases hs
        · refine ⟨n + 1, off, forced, s, t, r, k.consts, k.newStyle, k.negative, ?_, ?_, rfl, u⟩
          · rw [abspath_idem]; exact hs
          · rw [← addFile_abspath]; exact h
        · refine ⟨fun x => ?_, ?_⟩
          · rw [e0, loadsOf_content]; exact f1.1 x
          · rw [e0, loadsOf_content]; exact f1.2
        · rw [hseen]
          have : (fun x => x ∈ s.seenFiles ∨ x = abspath W.cwd p) = (· ∈ (markSeen s (abspath W.cwd p)).seenFiles) := by
            funext x
            rw [(markSeen_announces k.seen hs).seen]
            simp
          rw [this]
          exact w1
      · exact hleft.items
      · exact hleft.quiet
      · have hp : t.printed = ok.s1.printed := (congrArg Stash.printed ok.final).trans (d4.trans x3)
        rw [hp]
        refine i1.printed.trans ?_
        rw [(markSeen_announces k.seen hs).printed, show (markSeen s (abspath W.cwd p)).quiet = s.quiet from rfl]
        cases s.quiet with
        | true => simp
        | false =>
          simp only [List.map_append, List.append_assoc, Bool.false_eq_true, if_false]
          exact (List.perm_append_comm).append_left _
      · exact hleft.distros
      · exact hleft.machines

end Oelint
