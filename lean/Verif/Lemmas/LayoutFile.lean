import Verif.Lemmas.Layout
import Verif.Lemmas.Edit
import Verif.Lemmas.Tasks
import Verif.Lemmas.Order
import Verif.Lemmas.Append
import Verif.Lemmas.ReproducibleRefs
import Verif.Spec.Lines
/-! A file that loads no other file, and its comments (C107). -/
set_option linter.unusedSectionVars false
set_option linter.unusedSimpArgs false
namespace Oelint
variable [Uni]
open Spec

/-! ## nothing is loaded -/

theorem inheritLoop_idle (W : World) (add : AddFn) (file : Str) (lineno : Int) (inhname : Str) (locs : List Str) (l found : List Str) (off : Int)
    (s s' : Stash) (r : List Str × Int) (h : inheritLoop W add file lineno inhname locs l found off s = (.ok r, s')) :
    (∀ x ∈ found, x ∈ r.1) ∧ (r.1 = [] → s' = s) := by
  induction l generalizing found off s with
  | nil => rw [inheritLoop] at h; cases h; exact ⟨fun _ h => h, fun _ => rfl⟩
  | cons inh l ih =>
    rw [inheritLoop] at h
    have hh := M.bind_ok.1 h; clear h; obtain ⟨p, s1, h1, h⟩ := hh
    obtain rfl := M.lift_ok h1
    split at h
    · exact ih _ _ _ h
    · have hh := M.bind_ok.1 h; clear h; obtain ⟨ign, s2, h2, h⟩ := hh
      obtain rfl := M.ask_ok h2
      split at h
      · exact ih _ _ _ h
      · rename_i hp hi
        have hh := M.bind_ok.1 h; clear h; obtain ⟨tmp, s3, h3, h⟩ := hh
        obtain ⟨k1, -⟩ := ih _ _ _ h
        have hm : p ∈ (if found.contains p then found else found ++ [p]) := by
          split
          · rename_i hc; exact List.contains_iff_mem.1 hc
          · simp
        refine ⟨fun x hx => k1 x ?_, fun e => ?_⟩
        · split
          · exact hx
          · simp [hx]
        · have := k1 p hm
          rw [e] at this
          cases this

/-- only identities have been used up -/
def Idle (s s' : Stash) : Prop := ∃ k, s' = { s with nextUid := k }

theorem Idle.refl (s : Stash) : Idle s s := ⟨s.nextUid, rfl⟩
theorem Idle.trans {a b c : Stash} (h1 : Idle a b) (h2 : Idle b c) : Idle a c := by
  obtain ⟨k, rfl⟩ := h1
  obtain ⟨j, rfl⟩ := h2
  exact ⟨j, rfl⟩

theorem handleKind_idle (W : World) (add : AddFn) (file : Str) (lineno : Int) (p : Params) (k : Kind) (pat : Pattern) (m : Mt) (s s' : Stash)
    (r : Option (Item × Int)) (h : handleKind W add file lineno p k pat m s = (.ok r, s')) (hr : ∀ x, r = some x → loadedBy x.1 = []) : Idle s s' := by
  cases k
  case «include» =>
    simp only [handleKind] at h
    have hh := M.bind_ok.1 h; clear h; obtain ⟨name, s1, h1, h⟩ := hh
    obtain rfl := M.ask_ok h1
    have hh := M.bind_ok.1 h; clear h; obtain ⟨path, s2, h2, h⟩ := hh
    obtain rfl := M.lift_ok h2
    split at h
    · have hh := M.bind_ok.1 h; clear h; obtain ⟨uid, s3, h3, h⟩ := hh
      cases h3; cases h
      exact ⟨_, rfl⟩
    · rename_i hp
      have hh := M.bind_ok.1 h; clear h; obtain ⟨ign, s3, h3, h⟩ := hh
      obtain rfl := M.ask_ok h3
      split at h
      · cases h; exact Idle.refl _
      · have hh := M.bind_ok.1 h; clear h; obtain ⟨tmp, s4, h4, h⟩ := hh
        have hh := M.bind_ok.1 h; clear h; obtain ⟨uid, s5, h5, h⟩ := hh
        cases h5; cases h
        have := hr _ rfl
        simp only [loadedBy, mkItem, mkItemD] at this
        split at this
        · rename_i he; rw [he] at hp; exact absurd rfl hp
        · cases this
  case «inherit» =>
    simp only [handleKind] at h
    have hh := M.bind_ok.1 h; clear h; obtain ⟨name, s1, h1, h⟩ := hh
    obtain rfl := M.ask_ok h1
    have hh := M.bind_ok.1 h; clear h; obtain ⟨fo, s2, h2, h⟩ := hh
    have hh := M.bind_ok.1 h; clear h; obtain ⟨uid, s3, h3, h⟩ := hh
    cases h3; cases h
    have := (inheritLoop_idle _ _ _ _ _ _ _ _ _ _ _ _ h2).2 (hr _ rfl)
    subst this
    exact ⟨_, rfl⟩
  case inheritGlob =>
    simp only [handleKind] at h
    have hh := M.bind_ok.1 h; clear h; obtain ⟨name, s1, h1, h⟩ := hh
    obtain rfl := M.ask_ok h1
    have hh := M.bind_ok.1 h; clear h; obtain ⟨fo, s2, h2, h⟩ := hh
    have hh := M.bind_ok.1 h; clear h; obtain ⟨uid, s3, h3, h⟩ := hh
    cases h3; cases h
    have := (inheritLoop_idle _ _ _ _ _ _ _ _ _ _ _ _ h2).2 (hr _ rfl)
    subst this
    exact ⟨_, rfl⟩
  case addtask =>
    simp only [handleKind] at h
    split at h
    · cases h; exact Idle.refl _
    · have hh := M.bind_ok.1 h; clear h; obtain ⟨uid, s3, h3, h⟩ := hh
      cases h3; cases h
      exact ⟨_, rfl⟩
  case func =>
    simp only [handleKind] at h
    have hh := M.bind_ok.1 h; clear h; obtain ⟨name, s1, h1, h⟩ := hh
    obtain rfl := M.ask_ok h1
    have hh := M.bind_ok.1 h; clear h; obtain ⟨uid, s3, h3, h⟩ := hh
    cases h3; cases h
    exact ⟨_, rfl⟩
  all_goals
    simp only [handleKind] at h
    have hh := M.bind_ok.1 h; clear h; obtain ⟨uid, s3, h3, h⟩ := hh
    cases h3; cases h
    exact ⟨_, rfl⟩

theorem classify_idle (W : World) (add : AddFn) (file : Str) (lineno : Int) (p : Params) (cnt : Str) (l : List (Kind × Pattern)) (s s' : Stash)
    (r : Item × Int) (h : classify W add file lineno p cnt l s = (.ok r, s')) (hr : loadedBy r.1 = []) : Idle s s' := by
  induction l generalizing s with
  | nil =>
    rw [classify] at h
    have hh := M.bind_ok.1 h; clear h; obtain ⟨uid, s3, h3, h⟩ := hh
    cases h3; cases h
    exact ⟨_, rfl⟩
  | cons kp l ih =>
    obtain ⟨k, pat⟩ := kp
    rw [classify] at h
    cases hm : reMatch pat.re cnt with
    | none => rw [hm] at h; exact ih _ h
    | some m =>
      rw [hm] at h
      have hh := M.bind_ok.1 h; clear h; obtain ⟨o, s1, h1, h⟩ := hh
      cases o with
      | some x => cases h; exact handleKind_idle _ _ _ _ _ _ _ _ _ _ _ h1 (fun x e => by cases e; exact hr)
      | none => exact (handleKind_idle _ _ _ _ _ _ _ _ _ _ _ h1 (fun x e => by cases e)).trans (ih _ h)

theorem itemsLoop_idle (W : World) (add : AddFn) (file : Str) (off i : Int) (ns : Bool) (cs : List Chunk) (s s' : Stash) (r : List Item)
    (h : itemsLoop W add file off i ns cs s = (.ok r, s')) (hr : ∀ x ∈ r, loadedBy x = []) : Idle s s' := by
  induction cs generalizing i ns s r with
  | nil => rw [itemsLoop] at h; cases h; exact Idle.refl _
  | cons c cs ih =>
    rw [itemsLoop] at h
    obtain ⟨⟨it, d⟩, s1, h1, h⟩ := M.bind_ok.1 h
    have hh := M.bind_ok.1 h; clear h; obtain ⟨rest, s2, h2, h⟩ := hh
    cases h
    exact (classify_idle _ _ _ _ _ _ _ _ _ _ h1 (hr it (by simp))).trans (ih _ _ _ _ h2 (fun x hx => hr x (by simp [hx])))

/-! ## entering into an empty stash -/

theorem linkAppend_blind (file : Str) (l : List Str) (mx : Int) (s s' t : Stash) (r : Int) (hm : s'.map = s.map) (hi : s'.items = s.items)
    (h : linkAppend file l mx s = (.ok r, t)) : linkAppend file l mx s' = (.ok r, { s' with map := t.map }) ∧ t.items = s.items := by
  induction l generalizing mx s s' with
  | nil =>
    cases h
    refine ⟨?_, rfl⟩
    rw [← hm]; rfl
  | cons x l ih =>
    rw [linkAppend_cons] at h ⊢
    cases hd : matchDyn (appendPattern file) (basename x) with
    | error e => rw [hd] at h; cases h
    | ok b =>
      rw [hd] at h
      cases b with
      | false => exact ih _ _ _ hm hi h
      | true =>
        have := ih _ { s with map := mapAppend s.map x file } { s' with map := mapAppend s'.map x file } (by simp only [hm]) hi h
        refine ⟨?_, this.2⟩
        show linkAppend file l (max mx (maxLine (s'.items.filter (fun i => i.origin == x)))) { s' with map := mapAppend s'.map x file } = _
        have e : maxLine (s'.items.filter (fun i => i.origin == x)) = maxLine (s.items.filter (fun i => i.origin == x)) := by rw [hi]
        rw [e]
        exact this.1

theorem crossLink_blind (file file' : Str) (hf : file' = file) (its its' r r' : List Item) (s s' t t' : Stash) (hm : s'.map = s.map) (hi : s.items = []) (hi' : s'.items = [])
    (h : crossLink file its s = (.ok r, t)) (h' : crossLink file' its' s' = (.ok r', t')) : t'.map = t.map ∧ t.items = [] ∧ t'.items = [] := by
  subst hf
  unfold crossLink at h h'
  split at h
  · rename_i he
    rw [if_pos he] at h'
    have hh := M.bind_ok.1 h; clear h; obtain ⟨a, b, h1, h⟩ := hh
    cases h1
    obtain ⟨a', b', h1, h'⟩ := M.bind_ok.1 h'
    cases h1
    have hh := M.bind_ok.1 h; clear h; obtain ⟨mx, s1, h2, h⟩ := hh
    obtain ⟨mx', s1', h2', h'⟩ := M.bind_ok.1 h'
    cases h; cases h'
    obtain ⟨k1, k2⟩ := linkAppend_blind _ _ 0 s s' _ _ hm (hi'.trans hi.symm) h2
    rw [hm, k1] at h2'
    cases h2'
    exact ⟨rfl, k2.trans hi, hi'⟩
  · rename_i he
    rw [if_neg he] at h'
    split at h
    · rename_i hb
      rw [if_pos hb] at h'
      have hh := M.bind_ok.1 h; clear h; obtain ⟨a, b, h1, h⟩ := hh
      cases h1
      obtain ⟨a', b', h1, h'⟩ := M.bind_ok.1 h'
      cases h1
      have hh := M.bind_ok.1 h; clear h; obtain ⟨mx, s1, h2, h⟩ := hh
      obtain ⟨mx', s1', h2', h'⟩ := M.bind_ok.1 h'
      cases h; cases h'
      rw [hi, linkRecipe] at h2
      rw [hi', linkRecipe] at h2'
      cases h2; cases h2'
      exact ⟨hm, rfl, rfl⟩
    · rename_i hb
      rw [if_neg hb] at h'
      cases h; cases h'
      exact ⟨hm, hi, hi'⟩

theorem addDistroMachine_items (W : World) (file : Str) (s : Stash) : (addDistroMachine W file s).2.items = s.items :=
  addDistroMachine_rel (R := fun s s' => s'.items = s.items) (fun _ => rfl) (fun _ _ _ h1 h2 => h2.trans h1) (fun _ _ => rfl) W file s

theorem addFile_idle {W W' : World} {n n' : Nat} {path : Str} {off off' : Int} {forced : Option Str} {s s' u u' : Stash} {r r' : List Item}
    (hc : W'.cwd = W.cwd) (hm : s'.map = s.map) (hi : s.items = []) (hi' : s'.items = [])
    (hnew : alreadySeen s (abspath W.cwd path) = false) (hnew' : alreadySeen s' (abspath W.cwd path) = false)
    (h : addFile W n path off forced s = (.ok r, u)) (h' : addFile W' n' path off' forced s' = (.ok r', u'))
    (hr : ∀ x ∈ r, loadedBy x = []) (hr' : ∀ x ∈ r', loadedBy x = []) : u.items = r ∧ u'.items = r' ∧ u'.map = u.map := by
  cases n with
  | zero => cases h
  | succ n =>
  cases n' with
  | zero => cases h'
  | succ n' =>
  obtain ⟨hs, -⟩ | ⟨-, ⟨ok⟩⟩ := addFile_ok W h
  · rw [hnew] at hs; cases hs
  obtain ⟨hs, -⟩ | ⟨-, ⟨ok'⟩⟩ := addFile_ok W' h'
  · rw [hc, hnew'] at hs; cases hs
  have key : ∀ {l k : List Item}, l.map content = k.map content → (∀ x ∈ l, loadedBy x = []) → ∀ x ∈ k, loadedBy x = [] := by
    intro l k e hl x hx
    have : content x ∈ l.map content := e ▸ List.mem_map_of_mem hx
    obtain ⟨y, hy, he⟩ := List.mem_map.1 this
    have hp : y.payload = x.payload := show (content y).payload = (content x).payload by rw [he]
    have := hl y hy
    unfold loadedBy at this ⊢
    rwa [hp] at this
  obtain ⟨k, e1⟩ := itemsLoop_idle _ _ _ _ _ _ _ _ _ _ ok.loop (key (crossLink_content ok.cross) hr)
  obtain ⟨k', e1'⟩ := itemsLoop_idle _ _ _ _ _ _ _ _ _ _ ok'.loop (key (crossLink_content ok'.cross) hr')
  have hf : abspath W'.cwd path = abspath W.cwd path := by rw [hc]
  obtain ⟨q1, q2, q3⟩ := crossLink_blind _ _ hf _ _ _ _ _ _ _ _ (by
      show enterMap ok'.s1.map _ forced = enterMap ok.s1.map _ forced
      rw [e1, e1', hf]; exact congrArg (enterMap · _ _) hm)
    (by show ok.s1.items = []; rw [e1]; exact hi) (by show ok'.s1.items = []; rw [e1']; exact hi') ok.cross ok'.cross
  have d1 := addDistroMachine_items W (abspath W.cwd path) ok.s3
  have d2 := addDistroMachine_items W' (abspath W'.cwd path) ok'.s3
  have d3 := addDistroMachine_keys W (abspath W.cwd path) ok.s3
  have d4 := addDistroMachine_keys W' (abspath W'.cwd path) ok'.s3
  rw [ok.distro] at d1 d3
  rw [ok'.distro] at d2 d4
  rw [ok.final, ok'.final]
  simp only [commitItems] at *
  exact ⟨by rw [d1, q2]; rfl, by rw [d2, q3]; rfl, by rw [d3, d4, q1]⟩

/-! ## comments -/

theorem classify_comment_delim {W : World} {add : AddFn} {file : Str} {l : Int} {p : Params} {cnt : Str} {s s' : Stash} {it : Item} {d : Int}
    (h : classify W add file l p cnt parseOrder s = (.ok (it, d), s')) (hc : it.payload = .comment) : it.delim = initDelim p.newStyle := by
  have hh := (classify_comment h).1 hc
  rw [← reComments_iff] at hh
  cases hm : reMatch reComments.re cnt with
  | none => rw [hm] at hh; cases hh
  | some m =>
    simp only [parseOrder, classify, hm, handleKind, M.bind_def, freshUid, M.pure_def, Prod.mk.injEq, Except.ok.injEq] at h
    obtain ⟨⟨rfl, -⟩, -⟩ := h
    simp [mkItem, mkItemD]

theorem traced_comments {W : World} {add : AddFn} {file : Str} {lineOffset off : Int} {ns : Bool} {cs : List Chunk} {its : List Item}
    (h : Traced W add file lineOffset off ns cs its) (hns : ns = false) (pre mid post : List Item) (he : its = pre ++ mid ++ post)
    (hm : ∀ x ∈ mid, x.payload = .comment) (hp : ¬ SomeNew pre) : ¬ SomeNew (pre ++ mid) := by
  induction h generalizing pre mid with
  | nil =>
    rintro ⟨x, hx, -⟩
    have : x ∈ pre ++ mid ++ post := by simp at hx ⊢; tauto
    rw [← he] at this
    cases this
  | @cons off d ns c cs it its s s' hc _ ih =>
    cases pre with
    | nil =>
      cases mid with
      | nil => exact hp
      | cons y mid =>
        simp only [List.nil_append, List.cons_append, List.cons.injEq] at he
        obtain ⟨rfl, he⟩ := he
        have hd := classify_comment_delim hc (hm it (by simp))
        simp only [chunkParams, hns, initDelim] at hd
        have hd : it.delim = '_' := by simpa using hd
        have := ih (by simp [hns, Item.isNewStyle, hd]) [] mid (by simpa using he) (fun x hx => hm x (by simp [hx])) (by rintro ⟨x, hx, -⟩; cases hx)
        rintro ⟨x, hx, hx'⟩
        simp only [List.nil_append, List.mem_cons] at hx
        rcases hx with rfl | hx
        · rw [hd] at hx'; exact absurd hx' (by decide)
        · exact this ⟨x, by simpa using hx, hx'⟩
    | cons y pre =>
      simp only [List.cons_append, List.cons.injEq] at he
      obtain ⟨rfl, he⟩ := he
      have hd : it.delim ≠ ':' := fun e => hp ⟨it, by simp, e⟩
      have := ih (by simp [hns, Item.isNewStyle, hd]) pre mid (by simpa using he) hm (fun ⟨x, hx, hx'⟩ => hp ⟨x, by simp [hx], hx'⟩)
      rintro ⟨x, hx, hx'⟩
      simp only [List.cons_append, List.mem_cons] at hx
      rcases hx with rfl | hx
      · exact hd hx'
      · exact this ⟨x, hx, hx'⟩

theorem file_comments {W : World} {fuel : Nat} {file t : Str} {off : Int} {ns neg : Bool} {pre mid post : List Item}
    (h : FileOk W fuel file t off ns neg (pre ++ mid ++ post)) (hns : ns = false) (hm : ∀ x ∈ mid, x.payload = .comment) :
    SomeNew (pre ++ mid) ↔ SomeNew pre := by
  refine ⟨fun hx => ?_, fun ⟨x, hx, hx'⟩ => ⟨x, by simp [hx], hx'⟩⟩
  by_contra hp
  have he := h.res_eq.symm
  have htr := h.traced
  generalize h.mx = mx at he
  generalize h.its = its at he htr
  unfold shiftLines at he
  obtain ⟨k, post', h1, h2, -⟩ := List.map_eq_append_iff.1 he
  obtain ⟨pre', mid', rfl, h3, h4⟩ := List.map_eq_append_iff.1 h2
  have key : ∀ l : List Item, SomeNew (l.map (fun r => { r with line := r.line + mx })) ↔ SomeNew l := by
    intro l
    constructor
    · rintro ⟨x, hx, hx'⟩
      obtain ⟨y, hy, rfl⟩ := List.mem_map.1 hx
      exact ⟨y, hy, hx'⟩
    · rintro ⟨x, hx, hx'⟩
      exact ⟨_, List.mem_map_of_mem hx, hx'⟩
  rw [← h3, ← h4, ← List.map_append, key] at hx
  rw [← h3, key] at hp
  refine traced_comments htr hns pre' mid' post' h1 (fun x hx => ?_) hp hx
  have := hm { x with line := x.line + mx } (h4 ▸ List.mem_map_of_mem hx)
  exact this

end Oelint
