import Verif.Model.Constants
/-! JSON texts of data bases of constants (C84). -/
namespace Oelint.Spec

/-- white space -/
def JWs (w : Str) : Prop := ∀ c ∈ w, c = ' ' ∨ c = '\t' ∨ c = '\n'

/-- characters and their escapes -/
def escapes : List (Char × Char) :=
  [('"', '"'), ('\\', '\\'), ('/', '/'), ('\x08', 'b'), ('\x0c', 'f'), ('\n', 'n'), ('\r', 'r'), ('\t', 't')]

/-- the text of a string behind its opening quote -/
inductive StrText : Str → Str → Prop
  | close : StrText [] ['"']
  | plain {c s t} (h : c ≠ '"' ∧ c ≠ '\\' ∧ 32 ≤ c.toNat) (hs : StrText s t) : StrText (c :: s) (c :: t)
  | escape {c e s t} (h : (c, e) ∈ escapes) (hs : StrText s t) : StrText (c :: s) ('\\' :: e :: t)

/-- the text of a list of strings behind its opening bracket -/
inductive ListText : List Str → Str → Prop
  | nil {w} (hw : JWs w) : ListText [] (w ++ [']'])
  | last {x t w w'} (hw : JWs w) (hx : StrText x t) (hw' : JWs w') : ListText [x] (w ++ '"' :: (t ++ (w' ++ [']'])))
  | cons {x y t w w' xs u} (hw : JWs w) (hx : StrText x t) (hw' : JWs w') (h : ListText (y :: xs) u) :
      ListText (x :: y :: xs) (w ++ '"' :: (t ++ (w' ++ ',' :: u)))

/-- `r` is the dictionary `d` with a pair in front: of several pairs with one key the last one counts, at the place of the first -/
def Put (k : Str) (v : J) (d r : KV) : Prop :=
  r.keys = k :: d.keys.filter (· ≠ k) ∧ r.get k = some ((d.get k).getD v) ∧ ∀ j, j ≠ k → r.get j = d.get j

mutual
/-- the text of a value -/
inductive ValText : J → Str → Prop
  | str {s t} (h : StrText s t) : ValText (.str s) ('"' :: t)
  | list {xs t} (h : ListText xs t) : ValText (.list xs) ('[' :: t)
  | dict {d t} (h : DictText d t) : ValText (.dict d) ('{' :: t)
/-- the text of a dictionary behind its opening brace -/
inductive DictText : KV → Str → Prop
  | nil {w} (hw : JWs w) : DictText .nil (w ++ ['}'])
  | last {k v a b w1 w2 w3 w4} (h1 : JWs w1) (hk : StrText k a) (h2 : JWs w2) (h3 : JWs w3) (hv : ValText v b) (h4 : JWs w4) :
      DictText (.cons k v .nil) (w1 ++ '"' :: (a ++ (w2 ++ ':' :: (w3 ++ (b ++ (w4 ++ ['}']))))))
  | cons {k v k' v' d r a b w1 w2 w3 w4 u} (h1 : JWs w1) (hk : StrText k a) (h2 : JWs w2) (h3 : JWs w3) (hv : ValText v b)
      (h4 : JWs w4) (h : DictText (.cons k' v' d) u) (hr : Put k v (.cons k' v' d) r) :
      DictText r (w1 ++ '"' :: (a ++ (w2 ++ ':' :: (w3 ++ (b ++ (w4 ++ ',' :: u))))))
end

/-- the text of a file with the value: white space around it, one kind of newline -/
def FileText (v : J) (t : Str) : Prop := ∃ w b w', t = w ++ (b ++ w') ∧ JWs w ∧ JWs w' ∧ ValText v b

end Oelint.Spec
