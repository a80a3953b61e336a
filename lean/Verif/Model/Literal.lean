import Verif.Model.Serialization

/-!
# Values as texts (soil/serialization.py:165-196, 218-273)

`serialize(v)` gives a text (`repr`) and the name of the type; `deserialize(type, text)` reads it again, with `ast.literal_eval` for
all builtin types. `repr` and `ast.literal_eval` are Python's own; they are modelled here for `None`, booleans, integers, infinity,
texts, lists, tuples and dictionaries.
-/

namespace Verif

/-- Values of builtin types. `inf` is `float("inf")`; other floating-point numbers, sets and bytes are not modelled. Texts contain no
lone surrogates, and no two keys of a dictionary are equal. -/
inductive PyLit where
  | none
  | bool (b : Bool)
  | int (i : Int)
  | inf
  | str (s : Str)
  | list (l : List PyLit)
  | tuple (l : List PyLit)
  | dict (l : List (PyLit × PyLit))
deriving Repr

/-- A hexadecimal digit. -/
def hexChar (n : Nat) : Char := if n < 10 then Char.ofNat (48 + n) else Char.ofNat (87 + n)

/-- `k` hexadecimal digits. -/
def hexText : Nat → Nat → Str
  | 0, _ => []
  | k + 1, n => hexText k (n / 16) ++ [hexChar (n % 16)]

/-- One character inside of quotes, as `unicode_repr` of CPython writes it; `printable` is `str.isprintable`. -/
def escChar (printable : Char → Bool) (q c : Char) : Str :=
  if c = q ∨ c = '\\' then ['\\', c]
  else if c = '\t' then ['\\', 't']
  else if c = '\n' then ['\\', 'n']
  else if c = '\r' then ['\\', 'r']
  else if printable c then [c]
  else if c.toNat < 256 then '\\' :: 'x' :: hexText 2 c.toNat
  else if c.toNat < 65536 then '\\' :: 'u' :: hexText 4 c.toNat
  else '\\' :: 'U' :: hexText 8 c.toNat

/-- The quotes: single ones, unless there are single ones and no double ones in the text. -/
def quoteFor (s : Str) : Char := if '\'' ∈ s ∧ '"' ∉ s then '"' else '\''

/-- `repr` of a text. -/
def reprStr (printable : Char → Bool) (s : Str) : Str :=
  quoteFor s :: s.flatMap (escChar printable (quoteFor s)) ++ [quoteFor s]

/-- `repr` of an integer. -/
def reprInt : Int → Str
  | .ofNat n => Nat.toDigits 10 n
  | .negSucc n => '-' :: Nat.toDigits 10 (n + 1)

mutual
/-- `repr(v)`. -/
def reprLit (p : Char → Bool) : PyLit → Str
  | .none => "None".toList
  | .bool true => "True".toList
  | .bool false => "False".toList
  | .int i => reprInt i
  | .inf => "inf".toList
  | .str s => reprStr p s
  | .list l => '[' :: reprSeq p l ++ [']']
  | .tuple l => '(' :: reprSeq p l ++ (if l.length = 1 then [',', ')'] else [')'])
  | .dict l => '{' :: reprPairs p l ++ ['}']

/-- Items, separated by commas. -/
def reprSeq (p : Char → Bool) : List PyLit → Str
  | [] => []
  | v :: l => reprLit p v ++ reprMore p l

/-- The items after the first one. -/
def reprMore (p : Char → Bool) : List PyLit → Str
  | [] => []
  | v :: l => ',' :: ' ' :: (reprLit p v ++ reprMore p l)

/-- The items of a dictionary. -/
def reprPairs (p : Char → Bool) : List (PyLit × PyLit) → Str
  | [] => []
  | kv :: l => reprPair p kv ++ reprMorePairs p l

/-- The items after the first one. -/
def reprMorePairs (p : Char → Bool) : List (PyLit × PyLit) → Str
  | [] => []
  | kv :: l => ',' :: ' ' :: (reprPair p kv ++ reprMorePairs p l)

/-- One item. -/
def reprPair (p : Char → Bool) : PyLit × PyLit → Str
  | (k, v) => reprLit p k ++ ':' :: ' ' :: reprLit p v
end

/-- The value of a hexadecimal digit. -/
def hexVal (c : Char) : Option Nat :=
  if 48 ≤ c.toNat ∧ c.toNat ≤ 57 then some (c.toNat - 48)
  else if 97 ≤ c.toNat ∧ c.toNat ≤ 102 then some (c.toNat - 87)
  else none

/-- The character with a hexadecimal number. -/
def hexRead (l : Str) : Option Char :=
  match l.mapM hexVal with
  | none => none
  | some ds =>
    let n := ds.foldl (fun a d => 16 * a + d) 0
    if n.isValidChar then some (Char.ofNat n) else none

/-- The rest of a text in quotes `q`: the text, and what comes after the quotes. -/
def readStr (q : Char) : Str → Option (Str × Str)
  | [] => none
  | '\\' :: 'x' :: a :: b :: r => match hexRead [a, b], readStr q r with
    | some c, some (s, t) => some (c :: s, t)
    | _, _ => none
  | '\\' :: 'u' :: a :: b :: c :: d :: r => match hexRead [a, b, c, d], readStr q r with
    | some c, some (s, t) => some (c :: s, t)
    | _, _ => none
  | '\\' :: 'U' :: a :: b :: c :: d :: e :: f :: g :: h :: r => match hexRead [a, b, c, d, e, f, g, h], readStr q r with
    | some c, some (s, t) => some (c :: s, t)
    | _, _ => none
  | '\\' :: 't' :: r => (readStr q r).map (fun x => ('\t' :: x.1, x.2))
  | '\\' :: 'n' :: r => (readStr q r).map (fun x => ('\n' :: x.1, x.2))
  | '\\' :: 'r' :: r => (readStr q r).map (fun x => ('\r' :: x.1, x.2))
  | '\\' :: c :: r =>
    if c = '\\' ∨ c = '\'' ∨ c = '"' then (readStr q r).map (fun x => (c :: x.1, x.2)) else none
  | c :: r => if c = q then some ([], r) else (readStr q r).map (fun x => (c :: x.1, x.2))

/-- A natural number, and what comes after it. -/
def readNat (s : Str) : Option (Nat × Str) :=
  if (s.takeWhile Char.isDigit).isEmpty then none
  else some (Nat.ofDigitChars 10 (s.takeWhile Char.isDigit) 0, s.dropWhile Char.isDigit)

mutual
/-- A value at the beginning of a text, and what comes after it. Only the spellings of `repr` are read: `ast.literal_eval` reads
others, too (more spaces, other numerals, …). `fuel` bounds the depth of the recursion. -/
def readLit : Nat → Str → Option (PyLit × Str)
  | 0, _ => none
  | fuel + 1, s => match s with
    | 'N' :: 'o' :: 'n' :: 'e' :: r => some (.none, r)
    | 'T' :: 'r' :: 'u' :: 'e' :: r => some (.bool true, r)
    | 'F' :: 'a' :: 'l' :: 's' :: 'e' :: r => some (.bool false, r)
    | '-' :: r => (readNat r).map (fun x => (.int (-(x.1 : Int)), x.2))
    | '\'' :: r => (readStr '\'' r).map (fun x => (.str x.1, x.2))
    | '"' :: r => (readStr '"' r).map (fun x => (.str x.1, x.2))
    | '[' :: ']' :: r => some (.list [], r)
    | '[' :: r => match readSeq fuel r with
      | some (l, ']' :: r) => some (.list l, r)
      | _ => none
    | '(' :: ')' :: r => some (.tuple [], r)
    | '(' :: r => match readSeq fuel r with
      | some (l, ',' :: ')' :: r) => some (.tuple l, r)
      | some ([v], ')' :: r) => some (v, r)
      | some (l, ')' :: r) => some (.tuple l, r)
      | _ => none
    | '{' :: '}' :: r => some (.dict [], r)
    | '{' :: r => match readPairs fuel r with
      | some (l, '}' :: r) => some (.dict l, r)
      | _ => none
    | s => (readNat s).map (fun x => (.int x.1, x.2))

/-- Values separated by commas, at least one. -/
def readSeq : Nat → Str → Option (List PyLit × Str)
  | 0, _ => none
  | fuel + 1, s => match readLit fuel s with
    | some (v, ',' :: ' ' :: r) => (readSeq fuel r).map (fun x => (v :: x.1, x.2))
    | some (v, r) => some ([v], r)
    | none => none

/-- Items of a dictionary, at least one. -/
def readPairs : Nat → Str → Option (List (PyLit × PyLit) × Str)
  | 0, _ => none
  | fuel + 1, s => match readLit fuel s with
    | some (k, ':' :: ' ' :: r) => match readLit fuel r with
      | some (v, ',' :: ' ' :: r) => (readPairs fuel r).map (fun x => ((k, v) :: x.1, x.2))
      | some (v, r) => some ([(k, v)], r)
      | none => none
    | _ => none
end

/-- `ast.literal_eval(text)`; `none`: `ValueError` or `SyntaxError`. -/
def literalEval (s : Str) : Option PyLit :=
  match readLit (s.length + 1) s with
  | some (v, []) => some v
  | _ => none

/-- The name of the type of a value. -/
def PyLit.typeName : PyLit → Str
  | .none => "NoneType".toList
  | .bool _ => "bool".toList
  | .int _ => "int".toList
  | .inf => "float".toList
  | .str _ => "str".toList
  | .list _ => "list".toList
  | .tuple _ => "tuple".toList
  | .dict _ => "dict".toList

/-- `name(v)` for a value of a builtin type (soil/serialization.py:165-173): all these types are found in `builtins`. -/
def litName : PyLit → Str
  | .none => "None".toList
  | v => v.typeName

/-- `serialize(v)` (soil/serialization.py:186-196). -/
def serializeLit (p : Char → Bool) (v : PyLit) : Str × Str :=
  (match litName v, v with
    | ['s', 't', 'r'], .str s => s
    | _, v => reprLit p v, litName v)

/-- `deserialize(type_, value)` for the name of a builtin type and a text (soil/serialization.py:218-228, 257-273). `none`: an exception. -/
def deserializeLit (type_ text : Str) : Option PyLit :=
  if type_ = "str".toList then some (.str text)
  else if type_ = "None".toList then some .none
  else literalEval text

/-! ### Classes of agents -/

/-- `deserializer(type_, known_modules)` (soil/serialization.py:218-254) for names of classes: `deserializeName` without the `eval` of
`deserialize`. `none`: `ValueError`. -/
def deserializerName (w : PyWorld) (known : List Str) (t : Str) : Option Des :=
  deserializeName { w with evalName := fun _ => none } known t

/-- `"soil.agents"`. -/
def soilAgents : Str := "soil.agents".toList

/-- `_serialize_type(agent_class, known_modules)` (soil/agents/__init__.py:368-374) for a class. `known` is the list given or, without
argument, the list that was made when the function was defined. Result: the name (`none`: `ImportError`), and what has become
of the list: `known_modules += [...]` changes it. -/
def serializeType (w : PyWorld) (known : List Str) (c : PyClass) : Option Str × List Str :=
  (className w (known ++ [soilAgents]) c, known ++ [soilAgents])

/-- Several calls, without argument. `dflt`: the list of the function. -/
def serializeTypes (w : PyWorld) : List PyClass → List Str → List (Option Str) × List Str
  | [], dflt => ([], dflt)
  | c :: cs, dflt =>
    let r := serializeType w dflt c
    let r2 := serializeTypes w cs r.2
    (r.1 :: r2.1, r2.2)

/-- `_deserialize_type(agent_class, known_modules)` (soil/agents/__init__.py:377-382) for a name. -/
def deserializeType (w : PyWorld) (known : List Str) (t : Str) : Option Des :=
  deserializerName w (known ++ [soilAgents, "soil.agents.custom".toList]) t

end Verif
