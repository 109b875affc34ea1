import Verif.Model.Json
import Verif.Spec.Json
import Verif.Spec.Constants
import Verif.Lemmas.File
/-! Data bases are loaded as they are written (for C84). -/
namespace Oelint
open Spec

theorem skipWs_append {w r : Str} (hw : JWs w) : skipWs (w ++ r) = skipWs r := by
  unfold skipWs
  induction w with
  | nil => rfl
  | cons c w ih =>
    have hc : jsonWs c = true := by
      rcases hw c (by simp) with rfl | rfl | rfl <;> rfl
    rw [List.cons_append, List.dropWhile_cons, if_pos hc]
    exact ih (fun x hx => hw x (by simp [hx]))

theorem skipWs_cons {c : Char} {r : Str} (h : jsonWs c = false) : skipWs (c :: r) = c :: r := by
  unfold skipWs
  rw [List.dropWhile_cons, if_neg (by simp [h])]

theorem jsonStr_text {s t : Str} (h : StrText s t) (r : Str) : jsonStr (t ++ r) = some (s, r) := by
  induction h with
  | close => simp [jsonStr]
  | @plain c s t hc _ ih =>
    rw [List.cons_append, jsonStr.eq_def]
    split
    · rename_i e; cases e
    · rename_i e; exact absurd (List.cons.inj e).1 hc.1
    · rename_i e; exact absurd (List.cons.inj e).1 hc.2.1
    · rename_i c' r' _ _ e
      obtain ⟨rfl, rfl⟩ := List.cons.inj e
      rw [if_neg (by omega), ih]
      rfl
  | @escape c e s t hc _ ih =>
    have : jsonEscape e = some c := by
      simp only [escapes, List.mem_cons, List.not_mem_nil, Prod.mk.injEq, or_false] at hc
      rcases hc with ⟨rfl, rfl⟩ | ⟨rfl, rfl⟩ | ⟨rfl, rfl⟩ | ⟨rfl, rfl⟩ | ⟨rfl, rfl⟩ | ⟨rfl, rfl⟩ | ⟨rfl, rfl⟩ | ⟨rfl, rfl⟩ <;> rfl
    rw [List.cons_append, List.cons_append, jsonStr]
    simp only [this, ih]
    rfl

theorem jsonElems_text {xs : List Str} {t : Str} (h : ListText xs t) : xs ≠ [] → ∀ n, t.length ≤ n → ∀ r,
    jsonElems n (t ++ r) = some (xs, r) := by
  induction h with
  | nil => intro h; exact absurd rfl h
  | @last x t w w' hw hx hw' =>
    intro _ n hn r
    cases n with
    | zero => simp at hn
    | succ n =>
      have e1 : skipWs (w ++ '"' :: (t ++ (w' ++ [']'])) ++ r) = '"' :: (t ++ (w' ++ ']' :: r)) := by
        rw [List.append_assoc, skipWs_append hw, List.cons_append, skipWs_cons rfl]; simp
      have e2 : skipWs (w' ++ ']' :: r) = ']' :: r := by rw [skipWs_append hw', skipWs_cons rfl]
      rw [jsonElems, e1]
      simp only [jsonStr_text hx, e2]
  | @cons x y t w w' xs u hw hx hw' _ ih =>
    intro _ n hn r
    cases n with
    | zero => simp at hn
    | succ n =>
      have e1 : skipWs (w ++ '"' :: (t ++ (w' ++ ',' :: u)) ++ r) = '"' :: (t ++ (w' ++ ',' :: (u ++ r))) := by
        rw [List.append_assoc, skipWs_append hw, List.cons_append, skipWs_cons rfl]; simp
      have e2 : skipWs (w' ++ ',' :: (u ++ r)) = ',' :: (u ++ r) := by rw [skipWs_append hw', skipWs_cons rfl]
      rw [jsonElems, e1]
      simp only [jsonStr_text hx, e2]
      rw [ih (by simp) n (by simp at hn; omega) r]
      rfl

theorem keys_without (k : Str) (d : KV) : (d.without k).keys = d.keys.filter (· ≠ k) := by
  induction d using KV.rec (motive_1 := fun _ => True) with
  | nil => rfl
  | cons k' v r _ ih =>
    by_cases h : k' = k
    · subst h; simp [KV.without, KV.keys, ih]
    · simp [KV.without, KV.keys, ih, h]
  | dict | list | str => trivial

theorem get_without (k j : Str) (d : KV) (hj : j ≠ k) : (d.without k).get j = d.get j := by
  induction d using KV.rec (motive_1 := fun _ => True) with
  | nil => rfl
  | cons k' v r _ ih =>
    by_cases h : k' = k
    · subst h; simp [KV.without, KV.get, ih, Ne.symm hj]
    · simp [KV.without, KV.get, ih, h]
  | dict | list | str => trivial

theorem get_not_mem (k : Str) (d : KV) : d.get k = none ↔ k ∉ d.keys := by
  induction d using KV.rec (motive_1 := fun _ => True) with
  | nil => simp [KV.get, KV.keys]
  | cons k' v r _ ih =>
    by_cases h : k' = k
    · subst h; simp [KV.get, KV.keys]
    · simp [KV.get, KV.keys, ih, h, Ne.symm h]
  | dict | list | str => trivial

theorem kv_ext (a b : KV) (hn : a.keys.Nodup) (hk : a.keys = b.keys) (hg : ∀ k, a.get k = b.get k) : a = b := by
  induction a using KV.rec (motive_1 := fun _ => True) generalizing b with
  | nil => cases b with
    | nil => rfl
    | cons => simp [KV.keys] at hk
  | cons k v r _ ih => cases b with
    | nil => simp [KV.keys] at hk
    | cons k' v' r' =>
      simp only [KV.keys, List.cons.injEq] at hk
      obtain ⟨rfl, hk⟩ := hk
      have h1 := hg k
      simp only [KV.get, beq_self_eq_true, if_true, Option.some.injEq] at h1
      simp only [KV.keys, List.nodup_cons] at hn
      rw [h1, ih r' hn.2 hk (fun j => ?_)]
      by_cases hj : k = j
      · subst hj
        rw [(get_not_mem k r).2 hn.1, (get_not_mem k r').2 (hk ▸ hn.1)]
      · have := hg j
        simpa [KV.get, hj] using this
  | dict | list | str => trivial

theorem push_put (k : Str) (v : J) (d : KV) : Put k v d (d.push k v) := by
  refine ⟨?_, ?_, fun j hj => ?_⟩
  · rw [KV.push, KV.keys, keys_without]
  · simp [KV.push, KV.get]
  · rw [KV.push, KV.get, if_neg (by simpa using Ne.symm hj), get_without k j d hj]

theorem put_nodup {k : Str} {v : J} {d r : KV} (h : Put k v d r) (hn : d.keys.Nodup) : r.keys.Nodup := by
  rw [h.1, List.nodup_cons]
  exact ⟨by simp, hn.filter _⟩

theorem put_unique {k : Str} {v : J} {d r r' : KV} (h : Put k v d r) (h' : Put k v d r') (hn : d.keys.Nodup) : r = r' := by
  refine kv_ext r r' (put_nodup h hn) (by rw [h.1, h'.1]) (fun j => ?_)
  by_cases hj : j = k
  · subst hj; rw [h.2.1, h'.2.1]
  · rw [h.2.2 j hj, h'.2.2 j hj]

theorem wfkv_of (d : KV) (hn : d.keys.Nodup) (h : ∀ k x, d.get k = some x → WF x) : WFKV d := by
  induction d using KV.rec (motive_1 := fun _ => True) with
  | nil => trivial
  | cons k v r _ ih =>
    simp only [KV.keys, List.nodup_cons] at hn
    refine ⟨(get_not_mem k r).2 hn.1, h k v (by simp [KV.get]), ih hn.2 (fun j x hx => h j x ?_)⟩
    have : k ≠ j := by
      rintro rfl
      rw [(get_not_mem k r).2 hn.1] at hx; cases hx
    simp [KV.get, this, hx]
  | dict | list | str => trivial

theorem json_text (n : Nat) :
    (∀ v t, ValText v t → t.length ≤ n → WF v ∧ ∀ w, JWs w → ∀ r, jsonVal n (w ++ (t ++ r)) = some (v, r)) ∧
    (∀ d t, DictText d t → t.length ≤ n → d.keys.Nodup ∧ (∀ k x, d.get k = some x → WF x) ∧
      (d ≠ .nil → ∀ r, jsonPairs n (t ++ r) = some (d, r))) := by
  induction n with
  | zero =>
    refine ⟨fun v t h hn => ?_, fun d t h hn => ?_⟩
    · cases h <;> simp at hn
    · cases h <;> simp at hn
  | succ n ih =>
    obtain ⟨ih1, ih2⟩ := ih
    refine ⟨fun v t h hn => ⟨?_, fun w hw r => ?_⟩, fun d t h hn => ?_⟩
    · cases h with
      | str h => trivial
      | list h => trivial
      | dict h =>
        obtain ⟨h1, h2, -⟩ := ih2 _ _ h (by simp at hn; omega)
        exact wfkv_of _ h1 h2
    · cases h with
      | str h =>
        rw [jsonVal, skipWs_append hw, List.cons_append, skipWs_cons rfl]
        simp only [jsonStr_text h]
        rfl
      | @list xs t h =>
        rw [jsonVal, skipWs_append hw, List.cons_append, skipWs_cons rfl]
        simp only
        have hel := fun hne => jsonElems_text h hne n (by simp at hn; omega) r
        cases h with
        | nil hw0 =>
          rw [List.append_assoc, skipWs_append hw0, List.cons_append, skipWs_cons rfl]
          simp
        | last hw0 hx hw' =>
          rw [hel (by simp), List.append_assoc, skipWs_append hw0, List.cons_append, skipWs_cons rfl]
          rfl
        | cons hw0 hx hw' h' =>
          rw [hel (by simp), List.append_assoc, skipWs_append hw0, List.cons_append, skipWs_cons rfl]
          rfl
      | @dict d t h =>
        rw [jsonVal, skipWs_append hw, List.cons_append, skipWs_cons rfl]
        simp only
        have hlen : t.length ≤ n := by simp at hn; omega
        cases h with
        | nil hw0 =>
          rw [List.append_assoc, skipWs_append hw0, List.cons_append, skipWs_cons rfl]
          simp
        | last h1 hk h2 h3 hv h4 =>
          rw [(ih2 _ _ (.last h1 hk h2 h3 hv h4) hlen).2.2 (by simp) r, List.append_assoc, skipWs_append h1, List.cons_append, skipWs_cons rfl]
          rfl
        | cons h1 hk h2 h3 hv h4 h hr =>
          rw [(ih2 _ _ (.cons h1 hk h2 h3 hv h4 h hr) hlen).2.2 (by rintro rfl; simp [Put, KV.keys] at hr) r, List.append_assoc, skipWs_append h1, List.cons_append, skipWs_cons rfl]
          rfl
    · cases h with
      | nil => exact ⟨by simp [KV.keys], by simp [KV.get], fun h => absurd rfl h⟩
      | @last k v a b w1 w2 w3 w4 h1 hk h2 h3 hv h4 =>
        obtain ⟨hw, e4⟩ := ih1 _ _ hv (by simp at hn; omega)
        refine ⟨by simp [KV.keys], fun j x hx => ?_, fun _ r => ?_⟩
        · simp only [KV.get] at hx
          split at hx
          · cases hx; exact hw
          · cases hx
        have e1 : skipWs (w1 ++ '"' :: (a ++ (w2 ++ ':' :: (w3 ++ (b ++ (w4 ++ ['}']))))) ++ r) =
            '"' :: (a ++ (w2 ++ ':' :: (w3 ++ (b ++ (w4 ++ '}' :: r))))) := by
          rw [List.append_assoc, skipWs_append h1, List.cons_append, skipWs_cons rfl]; simp
        have e2 : skipWs (w2 ++ ':' :: (w3 ++ (b ++ (w4 ++ '}' :: r)))) = ':' :: (w3 ++ (b ++ (w4 ++ '}' :: r))) := by
          rw [skipWs_append h2, skipWs_cons rfl]
        have e3 : skipWs (w4 ++ '}' :: r) = '}' :: r := by rw [skipWs_append h4, skipWs_cons rfl]
        rw [jsonPairs, e1]
        simp only [jsonStr_text hk, e2, e4 w3 h3, e3]
      | @cons k v k' v' d r' a b w1 w2 w3 w4 u h1 hk h2 h3 hv h4 h hr =>
        obtain ⟨hw, e4⟩ := ih1 _ _ hv (by simp at hn; omega)
        obtain ⟨hnd, hwd, e5⟩ := ih2 _ _ h (by simp at hn; omega)
        refine ⟨put_nodup hr hnd, fun j x hx => ?_, fun _ r => ?_⟩
        · by_cases hj : j = k
          · subst hj
            rw [hr.2.1, Option.some.injEq] at hx
            cases hg : (KV.cons k' v' d).get j with
            | none => rw [hg] at hx; exact hx ▸ hw
            | some y => rw [hg] at hx; exact hx ▸ hwd j y hg
          · rw [hr.2.2 j hj] at hx
            exact hwd j x hx
        have e1 : skipWs (w1 ++ '"' :: (a ++ (w2 ++ ':' :: (w3 ++ (b ++ (w4 ++ ',' :: u))))) ++ r) =
            '"' :: (a ++ (w2 ++ ':' :: (w3 ++ (b ++ (w4 ++ ',' :: (u ++ r)))))) := by
          rw [List.append_assoc, skipWs_append h1, List.cons_append, skipWs_cons rfl]; simp
        have e2 : skipWs (w2 ++ ':' :: (w3 ++ (b ++ (w4 ++ ',' :: (u ++ r))))) = ':' :: (w3 ++ (b ++ (w4 ++ ',' :: (u ++ r)))) := by
          rw [skipWs_append h2, skipWs_cons rfl]
        have e3 : skipWs (w4 ++ ',' :: (u ++ r)) = ',' :: (u ++ r) := by rw [skipWs_append h4, skipWs_cons rfl]
        rw [jsonPairs, e1]
        simp only [jsonStr_text hk, e2, e4 w3 h3, e3, e5 (by simp) r, Option.map_some]
        rw [put_unique (push_put k v _) hr hnd]

theorem strText_cr {s t : Str} (h : StrText s t) : '\r' ∉ t := by
  induction h with
  | close => decide
  | @plain c s t hc _ ih =>
    simp only [List.mem_cons, not_or]
    exact ⟨fun e => by rw [← e] at hc; exact absurd hc.2.2 (by decide), ih⟩
  | @escape c e s t hc _ ih =>
    simp only [escapes, List.mem_cons, List.not_mem_nil, Prod.mk.injEq, or_false] at hc
    simp only [List.mem_cons, not_or]
    refine ⟨by decide, ?_, ih⟩
    rcases hc with ⟨rfl, rfl⟩ | ⟨rfl, rfl⟩ | ⟨rfl, rfl⟩ | ⟨rfl, rfl⟩ | ⟨rfl, rfl⟩ | ⟨rfl, rfl⟩ | ⟨rfl, rfl⟩ | ⟨rfl, rfl⟩ <;> decide

theorem jws_cr {w : Str} (h : JWs w) : '\r' ∉ w := fun hm => by
  rcases h _ hm with h | h | h <;> exact absurd h (by decide)

theorem listText_cr {xs : List Str} {t : Str} (h : ListText xs t) : '\r' ∉ t := by
  induction h with
  | nil hw => simp [jws_cr hw]
  | last hw hx hw' => simp [jws_cr hw, jws_cr hw', strText_cr hx]
  | cons hw hx hw' _ ih => simp [jws_cr hw, jws_cr hw', strText_cr hx, ih]

theorem json_cr (n : Nat) :
    (∀ v t, ValText v t → t.length ≤ n → '\r' ∉ t) ∧ (∀ d t, DictText d t → t.length ≤ n → '\r' ∉ t) := by
  induction n with
  | zero =>
    refine ⟨fun v t h hn => ?_, fun d t h hn => ?_⟩
    · cases h <;> simp at hn
    · cases h <;> simp at hn
  | succ n ih =>
    obtain ⟨ih1, ih2⟩ := ih
    refine ⟨fun v t h hn => ?_, fun d t h hn => ?_⟩
    · cases h with
      | str h => simp [strText_cr h]
      | list h => simp [listText_cr h]
      | dict h => simp [ih2 _ _ h (by simp at hn; omega)]
    · cases h with
      | nil hw => simp [jws_cr hw]
      | last h1 hk h2 h3 hv h4 =>
        simp [jws_cr h1, jws_cr h2, jws_cr h3, jws_cr h4, strText_cr hk, ih1 _ _ hv (by simp at hn; omega)]
      | cons h1 hk h2 h3 hv h4 h hnew =>
        simp [jws_cr h1, jws_cr h2, jws_cr h3, jws_cr h4, strText_cr hk, ih1 _ _ hv (by simp at hn; omega), ih2 _ _ h (by simp at hn; omega)]

theorem jsonLoad_text {v : J} {t : Str} (h : FileText v t) : jsonLoad t = some v := by
  obtain ⟨w, b, w', rfl, hw, hw', hv⟩ := h
  unfold jsonLoad
  rw [((json_text _).1 v b hv (by simp; omega)).2 w hw w']
  have : skipWs w' = [] := by
    have := skipWs_append (r := []) hw'
    rw [List.append_nil] at this
    rw [this]; rfl
  simp [this]

theorem fileText_cr {v : J} {t : Str} (h : FileText v t) : '\r' ∉ t := by
  obtain ⟨w, b, w', rfl, hw, hw', hv⟩ := h
  simp [jws_cr hw, jws_cr hw', (json_cr b.length).1 v b hv (le_refl _)]

/-! ### and nothing else is accepted -/

theorem skipWs_split {s : Str} (h : '\r' ∉ s) : ∃ w, s = w ++ skipWs s ∧ JWs w := by
  refine ⟨s.takeWhile jsonWs, (List.takeWhile_append_dropWhile).symm, fun c hc => ?_⟩
  have h1 : jsonWs c = true := (List.all_eq_true.1 (List.all_takeWhile) c hc)
  have h2 : c ≠ '\r' := fun e => h (e ▸ (List.takeWhile_sublist _).subset hc)
  simpa [jsonWs, h2, or_assoc] using h1

theorem jsonStr_sound : ∀ (s : Str) (x r : Str), jsonStr s = some (x, r) → ∃ t, s = t ++ r ∧ StrText x t := by
  intro s
  induction s using jsonStr.induct with
  | case1 => intro x r h; simp [jsonStr] at h
  | case2 r0 => intro x r h; simp [jsonStr] at h; obtain ⟨rfl, rfl⟩ := h; exact ⟨['"'], rfl, .close⟩
  | case3 c r0 e he ih =>
    intro x r h
    rw [jsonStr] at h
    simp only [he] at h
    cases hs : jsonStr r0 with
    | none => rw [hs] at h; cases h
    | some p =>
      rw [hs] at h; cases h
      obtain ⟨t, h1, h2⟩ := ih p.1 p.2 hs
      refine ⟨'\\' :: c :: t, by simp [← h1], .escape ?_ h2⟩
      unfold jsonEscape at he
      split at he <;> first | (cases he; simp [escapes]) | cases he
  | case4 c r0 he => intro x r h; rw [jsonStr] at h; simp only [he] at h; cases h
  | case5 c r0 h1 h2 hc =>
    intro x r h
    rw [jsonStr.eq_4 _ _ h1 h2, if_pos hc] at h; cases h
  | case6 c r0 h1 h2 hc ih =>
    intro x r h
    rw [jsonStr.eq_4 _ _ h1 h2, if_neg hc] at h
    cases hs : jsonStr r0 with
    | none => rw [hs] at h; cases h
    | some p =>
      rw [hs] at h; cases h
      obtain ⟨t, h3, h4⟩ := ih p.1 p.2 hs
      refine ⟨c :: t, by simp [← h3], .plain ⟨h1, ?_, by omega⟩ h4⟩
      rintro rfl
      cases r0 with
      | nil => simp [jsonStr] at hs
      | cons c' r0 => exact h2 c' r0 rfl rfl

theorem jsonElems_sound (n : Nat) : ∀ (s : Str) (xs : List Str) (r : Str), '\r' ∉ s → jsonElems n s = some (xs, r) →
    ∃ t, s = t ++ r ∧ xs ≠ [] ∧ ListText xs t := by
  induction n with
  | zero => intro s xs r _ h; simp [jsonElems] at h
  | succ n ih =>
    intro s xs r hs h
    obtain ⟨w, e, hw⟩ := skipWs_split hs
    rw [jsonElems] at h
    split at h
    · rename_i s1 e1
      rw [e1] at e
      split at h
      · rename_i x s2 e2
        obtain ⟨t, rfl, ht⟩ := jsonStr_sound _ _ _ e2
        obtain ⟨w', e', hw'⟩ := skipWs_split (s := s2) (fun hm => hs (by rw [e]; simp [hm]))
        split at h
        · rename_i s3 e3
          cases h
          rw [e3] at e'
          exact ⟨w ++ '"' :: (t ++ (w' ++ [']'])), by rw [e, e']; simp, by simp, .last hw ht hw'⟩
        · rename_i s3 e3
          rw [e3] at e'
          cases hp : jsonElems n s3 with
          | none => rw [hp] at h; cases h
          | some p =>
            rw [hp] at h; cases h
            obtain ⟨u, h1, h2, h3⟩ := ih s3 p.1 p.2 (fun hm => hs (by rw [e, e']; simp [hm])) hp
            cases hx : p.1 with
            | nil => exact absurd hx h2
            | cons y ys =>
              refine ⟨w ++ '"' :: (t ++ (w' ++ ',' :: u)), ?_, by simp, .cons hw ht hw' (hx ▸ h3)⟩
              rw [e, e']; simp [← h1]
        · cases h
      · cases h
    · cases h

theorem json_sound (n : Nat) :
    (∀ s v r, '\r' ∉ s → jsonVal n s = some (v, r) → ∃ w t, s = w ++ (t ++ r) ∧ JWs w ∧ ValText v t) ∧
    (∀ s d r, '\r' ∉ s → jsonPairs n s = some (d, r) → ∃ t, s = t ++ r ∧ d ≠ .nil ∧ DictText d t) := by
  induction n with
  | zero => exact ⟨fun s v r _ h => by simp [jsonVal] at h, fun s v r _ h => by simp [jsonPairs] at h⟩
  | succ n ih =>
    obtain ⟨ih1, ih2⟩ := ih
    refine ⟨fun s v r hs h => ?_, fun s d r hs h => ?_⟩
    · obtain ⟨w, e, hw⟩ := skipWs_split hs
      rw [jsonVal] at h
      split at h
      · rename_i s1 e1
        rw [e1] at e
        cases hp : jsonStr s1 with
        | none => rw [hp] at h; cases h
        | some p =>
          rw [hp] at h; cases h
          obtain ⟨t, h1, h2⟩ := jsonStr_sound _ _ _ hp
          exact ⟨w, '"' :: t, by rw [e, h1]; simp, hw, .str h2⟩
      · rename_i s1 e1
        rw [e1] at e
        have hs1 : '\r' ∉ s1 := fun hm => hs (by rw [e]; simp [hm])
        split at h
        · rename_i s2 e2
          obtain ⟨w', e', hw'⟩ := skipWs_split hs1
          cases h
          rw [e2] at e'
          exact ⟨w, '[' :: (w' ++ [']']), by rw [e, e']; simp, hw, .list (.nil hw')⟩
        · cases hp : jsonElems n s1 with
          | none => rw [hp] at h; cases h
          | some p =>
            rw [hp] at h; cases h
            obtain ⟨t, h1, -, h2⟩ := jsonElems_sound n _ _ _ hs1 hp
            exact ⟨w, '[' :: t, by rw [e, h1]; simp, hw, .list h2⟩
      · rename_i s1 e1
        rw [e1] at e
        have hs1 : '\r' ∉ s1 := fun hm => hs (by rw [e]; simp [hm])
        split at h
        · rename_i s2 e2
          obtain ⟨w', e', hw'⟩ := skipWs_split hs1
          cases h
          rw [e2] at e'
          exact ⟨w, '{' :: (w' ++ ['}']), by rw [e, e']; simp, hw, .dict (.nil hw')⟩
        · cases hp : jsonPairs n s1 with
          | none => rw [hp] at h; cases h
          | some p =>
            rw [hp] at h; cases h
            obtain ⟨t, h1, -, h2⟩ := ih2 _ _ _ hs1 hp
            exact ⟨w, '{' :: t, by rw [e, h1]; simp, hw, .dict h2⟩
      · cases h
    · obtain ⟨w1, e, h1⟩ := skipWs_split hs
      rw [jsonPairs] at h
      split at h
      · rename_i s1 e1
        rw [e1] at e
        split at h
        · rename_i k s2 e2
          obtain ⟨a, rfl, hk⟩ := jsonStr_sound _ _ _ e2
          have hs2 : '\r' ∉ s2 := fun hm => hs (by rw [e]; simp [hm])
          obtain ⟨w2, e', h2⟩ := skipWs_split hs2
          split at h
          · rename_i s3 e3
            rw [e3] at e'
            have hs3 : '\r' ∉ s3 := fun hm => hs2 (by rw [e']; simp [hm])
            split at h
            · rename_i v s4 e4
              obtain ⟨w3, b, e5, h3, hv⟩ := ih1 _ _ _ hs3 e4
              have hs4 : '\r' ∉ s4 := fun hm => hs3 (by rw [e5]; simp [hm])
              obtain ⟨w4, e6, h4⟩ := skipWs_split hs4
              split at h
              · rename_i s5 e7
                cases h
                rw [e7] at e6
                refine ⟨_, ?_, by simp, .last h1 hk h2 h3 hv h4⟩
                rw [e, e', e5, e6]; simp
              · rename_i s5 e7
                rw [e7] at e6
                cases hp : jsonPairs n s5 with
                | none => rw [hp] at h; cases h
                | some p =>
                  rw [hp] at h; cases h
                  obtain ⟨u, e8, hne, hd⟩ := ih2 _ _ _ (fun hm => hs4 (by rw [e6]; simp [hm])) hp
                  cases hx : p.1 with
                  | nil => exact absurd hx hne
                  | cons k' v' d =>
                    refine ⟨_, ?_, by simp [KV.push], .cons h1 hk h2 h3 hv h4 (hx ▸ hd) (push_put k v _)⟩
                    rw [e, e', e5, e6]; simp [← e8]
              · cases h
            · cases h
          · cases h
        · cases h
      · cases h

theorem jsonLoad_sound {v : J} {t : Str} (ht : '\r' ∉ t) (h : jsonLoad t = some v) : FileText v t := by
  unfold jsonLoad at h
  split at h
  · rename_i v' r e
    split at h
    · rename_i hr
      cases h
      obtain ⟨w, b, rfl, hw, hv⟩ := (json_sound _).1 _ _ _ ht e
      have hr2 : '\r' ∉ r := fun hm => ht (by simp [hm])
      obtain ⟨w', e', hw'⟩ := skipWs_split hr2
      rw [List.isEmpty_iff.1 hr, List.append_nil] at e'
      exact ⟨w, b, r, rfl, hw, e' ▸ hw', hv⟩
    · cases h
  · cases h

theorem jsonLoad_iff {v : J} {t : Str} (ht : '\r' ∉ t) : jsonLoad t = some v ↔ FileText v t :=
  ⟨jsonLoad_sound ht, jsonLoad_text⟩

theorem fileText_wf {v : J} {t : Str} (h : FileText v t) : WF v := by
  obtain ⟨w, b, w', rfl, hw, hw', hv⟩ := h
  exact ((json_text _).1 v b hv (le_refl _)).1

/-- newlines are translated completely -/
theorem univNewlines_no_cr : ∀ t : Str, '\r' ∉ univNewlines t := by
  intro t
  induction t using univNewlines.induct with
  | case1 => simp [univNewlines]
  | case2 t ih => rw [univNewlines]; simp [ih]
  | case3 c t h ih =>
    rw [univNewlines.eq_3 _ _ h]
    simp only [List.mem_cons, not_or]
    refine ⟨?_, ih⟩
    by_cases hc : c = '\r'
    · simp [hc]
    · simpa [hc] using Ne.symm hc

/-- a text without carriage returns stays as it is -/
theorem univNewlines_self {t : Str} (h : '\r' ∉ t) : univNewlines t = t := by
  induction t with
  | nil => rfl
  | cons c t ih =>
    have hc : c ≠ '\r' := fun hh => h (by simp [hh])
    rw [univNewlines]
    · rw [ih (fun hh => h (by simp [hh]))]; simp [hc]
    · rintro _ hh _; exact hc hh

end Oelint
