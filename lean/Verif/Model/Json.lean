import Verif.Model.Stash
/-!
# Loading the data base of constants

`Constants.__init__` and `Constants.__load_db`, `/repo/oelint_parser/constants.py:13-27`.  `json.load` is modelled for texts whose
values are dictionaries, lists of strings and strings; simplified: numbers, `true`, `false`, `null`, lists of other
values and the escape `\u` are treated like malformed texts.
-/
namespace Oelint

/-- white space of JSON -/
def jsonWs (c : Char) : Bool := c == ' ' || c == '\t' || c == '\n' || c == '\r'

/-- skip white space -/
def skipWs (s : Str) : Str := s.dropWhile jsonWs

/-- the character behind a backslash -/
def jsonEscape : Char → Option Char
  | '"' => some '"'
  | '\\' => some '\\'
  | '/' => some '/'
  | 'b' => some '\x08'
  | 'f' => some '\x0c'
  | 'n' => some '\n'
  | 'r' => some '\r'
  | 't' => some '\t'
  | _ => none

/-- a string, behind its opening quote, and what follows; control characters are rejected (`strict`) -/
def jsonStr : Str → Option (Str × Str)
  | [] => none
  | '"' :: r => some ([], r)
  | '\\' :: c :: r =>
    match jsonEscape c with
    | some e => (jsonStr r).map (fun x => (e :: x.1, x.2))
    | none => none
  | c :: r => if c.toNat < 32 then none else (jsonStr r).map (fun x => (c :: x.1, x.2))

/-- the elements of a list that is not empty, behind the opening bracket -/
def jsonElems : Nat → Str → Option (List Str × Str)
  | 0, _ => none
  | n + 1, s =>
    match skipWs s with
    | '"' :: r =>
      match jsonStr r with
      | some (x, r') =>
        match skipWs r' with
        | ']' :: r'' => some ([x], r'')
        | ',' :: r'' => (jsonElems n r'').map (fun y => (x :: y.1, y.2))
        | _ => none
      | none => none
    | _ => none

/-- the dictionary without a key -/
def KV.without (k : Str) : KV → KV
  | .nil => .nil
  | .cons k' v r => if k' == k then r.without k else .cons k' v (r.without k)

/-- a pair in front of the others: of several with the same key the last one counts -/
def KV.push (k : Str) (v : J) (r : KV) : KV := .cons k ((r.get k).getD v) (r.without k)

mutual
/-- a value and what follows -/
def jsonVal : Nat → Str → Option (J × Str)
  | 0, _ => none
  | n + 1, s =>
    match skipWs s with
    | '"' :: r => (jsonStr r).map (fun x => (.str x.1, x.2))
    | '[' :: r =>
      match skipWs r with
      | ']' :: r' => some (.list [], r')
      | _ => (jsonElems n r).map (fun x => (.list x.1, x.2))
    | '{' :: r =>
      match skipWs r with
      | '}' :: r' => some (.dict .nil, r')
      | _ => (jsonPairs n r).map (fun x => (.dict x.1, x.2))
    | _ => none
/-- the pairs of a dictionary that is not empty, behind the opening brace -/
def jsonPairs : Nat → Str → Option (KV × Str)
  | 0, _ => none
  | n + 1, s =>
    match skipWs s with
    | '"' :: r =>
      match jsonStr r with
      | some (k, r') =>
        match skipWs r' with
        | ':' :: r'' =>
          match jsonVal n r'' with
          | some (v, r3) =>
            match skipWs r3 with
            | '}' :: r4 => some (.cons k v .nil, r4)
            | ',' :: r4 => (jsonPairs n r4).map (fun y => (y.1.push k v, y.2))
            | _ => none
          | none => none
        | _ => none
      | none => none
    | _ => none
end

/-- `json.load`: the value of the whole text -/
def jsonLoad (t : Str) : Option J :=
  match jsonVal (t.length + 1) t with
  | some (v, r) => if (skipWs r).isEmpty then some v else none
  | none => none

/-- `Constants.__load_db`, `/repo/oelint_parser/constants.py:21-27`: a file that cannot be opened or is malformed gives the empty
dictionary. Simplified: every failure to read the file is taken to be an `OSError`; a file that cannot be
decoded raises `UnicodeDecodeError` in the code. -/
def loadDb : FileRes → J
  | .text t => (jsonLoad (univNewlines t)).getD J.empty
  | _ => J.empty

/-- `Constants.__init__`, `/repo/oelint_parser/constants.py:13-19`: a dictionary is used as it is, anything else is the path of a file to load -/
def newConstants (W : World) : KV ⊕ Str → J
  | .inl d => .dict d
  | .inr path => loadDb (W.file path)

end Oelint
