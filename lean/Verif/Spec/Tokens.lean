import Verif.Model.Regex
/-! What the items of a value are (C22, C23). -/
namespace Oelint.Spec
variable [Uni]

/-- the line-continuation mark that the parser puts in place of a backslash at the end of a line -/
def contMark : Char := '\x1b'

/-- the first character of `c :: t` separates items: white space, or a continuation mark that no `x` follows -/
def Separates (c : Char) (t : Str) : Prop := reSpace c = true ∨ (c = contMark ∧ t.head? ≠ some 'x')

/-- none of the characters of `w` separates, if `t` follows -/
def NoSeparator (w t : Str) : Prop := ∀ a c b, w = a ++ c :: b → ¬ Separates c (b ++ t)

/-- `ts` are the maximal runs of characters that do not separate -/
inductive Tokens : Str → List Str → Prop
  | nil : Tokens [] []
  | skip {c t ts} (h : Separates c t) (ht : Tokens t ts) : Tokens (c :: t) ts
  | token {w t ts} (hw : w ≠ []) (h : NoSeparator w t) (hm : ∀ c u, t = c :: u → Separates c u) (ht : Tokens t ts) :
      Tokens (w ++ t) (w :: ts)

/-- the text starts with blanks (perhaps none), an opening parenthesis, a text without closing parenthesis and newline,
and a closing parenthesis; `post` follows -/
def Constraint (s post : Str) : Prop :=
  ∃ ws body, s = ws ++ '(' :: (body ++ ')' :: post) ∧ (∀ c ∈ ws, reSpace c = true) ∧ ')' ∉ body ∧ '\n' ∉ body

/-- `r` is `s` without its constraints, from left to right -/
inductive Unversioned : Str → Str → Prop
  | nil : Unversioned [] []
  | drop {s post r} (h : Constraint s post) (hr : Unversioned post r) : Unversioned s r
  | keep {c t r} (h : ∀ post, ¬ Constraint (c :: t) post) (hr : Unversioned t r) : Unversioned (c :: t) (c :: r)

end Oelint.Spec
