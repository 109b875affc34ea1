import Verif.Spec.Forms
import Verif.Spec.Tokens
import Verif.Spec.Chunks
/-! Recipes as lists of statements (C76). `Stmt.text` is a statement as it is written, `Stmt.Ok` says what may be written in the
places of a statement. -/
namespace Oelint.Spec

/-- a statement with everything that is written, blanks included -/
inductive Stmt where
  | blank (ws : Str)
  | comment (txt : Str)
  | assign (name ws1 op ws2 val : Str)
  | flag (name flag ws1 op ws2 val : Str)
  | addtask (ws task clauses comment : Str) (before after : List Str)
  | deltask (ws task ws1 comment : Str)
  | exportValue (ws name ws1 ws2 val tail : Str)
  | exportName (ws name tail : Str)
  | function (flags name ws1 ws2 ws3 body tail : Str) (python fakeroot : Bool)
  | pythonDef (ws name ws1 rest : Str)
  | exportFunctions (ws names : Str)
  | includeAll (ws file : Str)
  | addFragments (ws a : Str) (x : Char) (b : Str) (y : Char) (c : Str)
  | addPylib (ws path : Str) (x : Char) (ns : Str)
  | inherit (stmt ws names : Str)
  | inheritGlobal (ws1 op ws2 : Str) (q : Char) (names : Str) (q' : Char) (tail : Str)

/-- the text of a statement, without the newline at its end -/
def Stmt.text : Stmt → Str
  | .blank ws => ws
  | .comment txt => '#' :: txt
  | .assign name ws1 op ws2 val => name ++ (ws1 ++ (op ++ (ws2 ++ val)))
  | .flag name fl ws1 op ws2 val => name ++ ('[' :: (fl ++ (']' :: (ws1 ++ (op ++ (ws2 ++ val))))))
  | .addtask ws task clauses cmt _ _ => c!"addtask" ++ (ws ++ (task ++ (clauses ++ cmt)))
  | .deltask ws task ws1 cmt => c!"deltask" ++ (ws ++ (task ++ (ws1 ++ cmt)))
  | .exportValue ws name ws1 ws2 val tail => c!"export" ++ (ws ++ (name ++ (ws1 ++ ('=' :: (ws2 ++ ('"' :: (val ++ ('"' :: tail))))))))
  | .exportName ws name tail => c!"export" ++ (ws ++ (name ++ tail))
  | .function flags name ws1 ws2 ws3 body tail _ _ =>
      flags ++ (name ++ (ws1 ++ ('(' :: (ws2 ++ (')' :: (ws3 ++ ('{' :: (body ++ ('}' :: tail)))))))))
  | .pythonDef ws name ws1 rest => c!"def" ++ (ws ++ (name ++ (ws1 ++ ('(' :: rest))))
  | .exportFunctions ws names => c!"EXPORT_FUNCTIONS" ++ (ws ++ names)
  | .includeAll ws file => c!"include_all" ++ (ws ++ file)
  | .addFragments ws a x b y c => c!"addfragments" ++ (ws ++ (a ++ (x :: (b ++ (y :: c)))))
  | .addPylib ws path x ns => c!"addpylib" ++ (ws ++ (c!"${LAYERDIR}/" ++ (path ++ (x :: ns))))
  | .inherit stmt ws names => stmt ++ (ws ++ names)
  | .inheritGlobal ws1 op ws2 q names q' tail => c!"INHERIT" ++ (ws1 ++ (op ++ (ws2 ++ (q :: (names ++ (q' :: tail))))))

/-- a word starts here: no blank and no opening parenthesis -/
def WordStart (s : Str) : Prop := s ≠ [] ∧ ∀ c ∈ s.head?, reSpace c = false ∧ c ≠ '('

/-- a word -/
def Word (s : Str) : Prop := s ≠ [] ∧ ∀ c ∈ s, reSpace c = false

/-- a quote -/
def Quote (c : Char) : Prop := c = '\'' ∨ c = '"'

/-- what may be written in the places of a statement -/
def Stmt.Ok : Stmt → Prop
  | .blank ws => Tabs ws
  | .comment _ => True
  | .assign name ws1 op ws2 val => Assignment (Stmt.assign name ws1 op ws2 val).text name ws1 op ws2 val
  | .flag name fl ws1 op ws2 val => FlagLine (Stmt.flag name fl ws1 op ws2 val).text name fl ws1 op ws2 val
  | .addtask ws task clauses cmt bs as => Gap ws ∧ TaskName task ∧ (∀ x ∈ scripts, ¬ x <+: task) ∧ Clauses clauses bs as ∧
      Comment cmt ∧ '(' ∉ clauses ++ cmt
  | .deltask ws task ws1 cmt => Gap ws ∧ TaskName task ∧ (∀ c ∈ ws1, c = ' ') ∧ Comment cmt ∧ '(' ∉ cmt
  | .exportValue ws name ws1 ws2 val tail => Gap ws ∧ name ≠ [] ∧ (∀ c ∈ name, NameChar c) ∧ Blanks ws1 ∧ Blanks ws2 ∧ PlainValue val ∧ '"' ∉ tail
  | .exportName ws name tail => Gap ws ∧ name ≠ [] ∧ (∀ c ∈ name, NameChar c) ∧ Blanks tail
  | .function flags name ws1 ws2 ws3 body tail py fr =>
      FuncText (Stmt.function flags name ws1 ws2 ws3 body tail py fr).text flags name ws1 ws2 ws3 body tail py fr
  | .pythonDef ws name ws1 rest => Gap ws ∧ (name ≠ [] ∧ ∀ c ∈ name, DefChar c) ∧ Tabs ws1 ∧ c!"):" <:+: rest
  | .exportFunctions ws names => Gap ws ∧ WordStart names
  | .includeAll ws file => Gap ws ∧ WordStart file
  | .addFragments ws a x b y c => Gap ws ∧ Word a ∧ a.head? ≠ some '(' ∧ Word b ∧ Word c ∧ reSpace x = true ∧ reSpace y = true
  | .addPylib ws path x ns => Gap ws ∧ path ≠ [] ∧ (x = ' ' ∨ x = '\t') ∧ ∀ c ∈ ns, reSpace c = false
  | .inherit stmt ws names => (stmt = c!"inherit" ∨ stmt = c!"inherit_defer") ∧ Gap ws ∧ WordStart names
  | .inheritGlobal ws1 op ws2 q _ q' tail => op ∈ operators ∧ Blanks ws1 ∧ Blanks ws2 ∧ Quote q ∧ Quote q' ∧ '\'' ∉ tail ∧ '"' ∉ tail

/-- `x` is `v` without the characters `p` at both ends -/
def Trimmed (p : Char → Prop) (v x : Str) : Prop :=
  ∃ l r, v = l ++ (x ++ r) ∧ (∀ c ∈ l, p c) ∧ (∀ c ∈ r, p c) ∧ (∀ c ∈ x.head?, ¬ p c) ∧ ∀ c ∈ x.getLast?, ¬ p c

/-- a text on one line that starts no group of lines -/
structure OneLine (t : Str) : Prop where
  chars : ∀ c ∈ t, c ≠ '\n' ∧ c ≠ '\r' ∧ c ≠ '\\'
  noHeader : ¬ FuncHeader (t ++ c!"\n")
  noComment : ¬ CommentLine (t ++ c!"\n")
  noDef : ¬ DefLine (t ++ c!"\n")

end Oelint.Spec
