import Verif.Model.Str
/-!
# What a statement of a recipe is: specification of the grouping of lines

Written without reference to the parser: properties of single lines in terms of their characters, and a declarative
description of the groups into which the lines of a file fall.
-/
namespace Oelint.Spec

/-- the line ends in a backslash, blanks, newline -/
def Continued (l : Str) : Prop := ∃ a ws, l = a ++ '\\' :: ws ++ ['\n'] ∧ ∀ c ∈ ws, reSpace c = true

/-- the line contains `() {` (with optional blanks between and inside): the header of a function -/
def FuncHeader (l : Str) : Prop :=
  ∃ a w1 w2 b, l = a ++ '(' :: w1 ++ ')' :: w2 ++ '{' :: b ∧ (∀ c ∈ w1, reSpace c = true) ∧ (∀ c ∈ w2, reSpace c = true)

/-- the line starts with `#` -/
def CommentLine (l : Str) : Prop := ∃ t, l = '#' :: t

/-- the first word of the line is `def`, and something follows -/
def DefLine (l : Str) : Prop :=
  ∃ w a x b, l = w ++ ['d', 'e', 'f', ' '] ++ a ++ x :: b ∧ (∀ c ∈ w, pySpace c = true) ∧ pySpace x = false

/-- the line starts with an ASCII letter, a digit or `#` -/
def NameStart (l : Str) : Prop :=
  ∃ x t, l = x :: t ∧ (('A' ≤ x ∧ x ≤ 'Z') ∨ ('a' ≤ x ∧ x ≤ 'z') ∨ ('0' ≤ x ∧ x ≤ '9') ∨ x = '#')

/-- closing minus opening braces -/
def excess (ls : List Str) : Int := (ls.flatten.count '}' : Int) - (ls.flatten.count '{' : Int)

/-- continuation lines and the line that ends them -/
def ContGroup (g : List Str) : Prop :=
  ∃ init last, g = init ++ [last] ∧ init ≠ [] ∧ (∀ l ∈ init, Continued l) ∧ ¬ Continued last

/-- a function header and its body, up to the line at which the closing braces outnumber the opening ones, or up to the
end of the file -/
def FuncGroup (g rest : List Str) : Prop :=
  ∃ h body, g = h :: body ∧ body ≠ [] ∧ ¬ Continued h ∧ FuncHeader h ∧
    (∀ p, p <+: body → p ≠ body → excess p ≤ 0) ∧ (0 < excess body ∨ rest = [])

/-- a maximal run of comment lines -/
def CommentGroup (g rest : List Str) : Prop :=
  ∃ h t, g = h :: t ∧ ¬ Continued h ∧ ¬ FuncHeader h ∧ CommentLine h ∧ (∀ l ∈ t, CommentLine l) ∧
    ∀ l ∈ rest.head?, ¬ CommentLine l

/-- a python function: everything up to the next line that starts with a letter, digit or `#` -/
def DefGroup (g rest : List Str) : Prop :=
  ∃ h t, g = h :: t ∧ ¬ Continued h ∧ ¬ FuncHeader h ∧ ¬ CommentLine h ∧ DefLine h ∧ (∀ l ∈ t, ¬ NameStart l) ∧
    ∀ l ∈ rest.head?, NameStart l

/-- any other line -/
def SingleGroup (g : List Str) : Prop :=
  ∃ h, g = [h] ∧ ¬ Continued h ∧ ¬ FuncHeader h ∧ ¬ CommentLine h ∧ ¬ DefLine h

/-- `g` is the group of lines that a file `g ++ rest` starts with -/
def IsGroup (g rest : List Str) : Prop :=
  ContGroup g ∨ FuncGroup g rest ∨ CommentGroup g rest ∨ DefGroup g rest ∨ SingleGroup g

/-- the lines of a file fall into groups -/
inductive Groups : List Str → List (List Str) → Prop
  | nil : Groups [] []
  | cons {g rest : List Str} {gs : List (List Str)} : IsGroup g rest → Groups rest gs → Groups (g ++ rest) (g :: gs)

/-- the lines of a text: they make up the text, every one but the last ends in its only newline, the last is not empty
(its newline, if any, is its last character) -/
def IsLines (text : Str) (ls : List Str) : Prop :=
  ls.flatten = text ∧ (∀ l ∈ ls, l ≠ []) ∧ (∀ l ∈ ls, '\n' ∉ l.dropLast) ∧ (∀ l ∈ ls.dropLast, l.getLast? = some '\n')

end Oelint.Spec
