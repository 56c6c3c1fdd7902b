import Verif.Model.Zkdvrf
import Verif.Model.Serialise

/-!
Model of the text of the data files: UTF-8 (`read_to_string`, Rust standard library; `fs.writeFile(..,
'utf8')`, node) and JSON (`serde_json::to_string`/`from_str` in bin/client.rs and bin/mock.rs;
`JSON.stringify`/`JSON.parse` in services/node.ts:212, 302-312 and services/admin.ts).  All of these
are external; the definitions follow RFC 3629 and RFC 8259 with the choices of `serde_json` (compact
output, nesting limit 128, single Unicode surrogates refused).
-/

namespace Verif

/-! ### UTF-8 -/

/-- UTF-8 encoding of a character (Rust `char::encode_utf8`, external). -/
def utf8Char (c : Char) : List Byte :=
  let n := c.toNat
  if n < 0x80 then [Fin.ofNat 256 n]
  else if n < 0x800 then [Fin.ofNat 256 (0xC0 + n / 64), Fin.ofNat 256 (0x80 + n % 64)]
  else if n < 0x10000 then
    [Fin.ofNat 256 (0xE0 + n / 4096), Fin.ofNat 256 (0x80 + n / 64 % 64), Fin.ofNat 256 (0x80 + n % 64)]
  else
    [Fin.ofNat 256 (0xF0 + n / 262144), Fin.ofNat 256 (0x80 + n / 4096 % 64),
      Fin.ofNat 256 (0x80 + n / 64 % 64), Fin.ofNat 256 (0x80 + n % 64)]

/-- The bytes of a string (`as_bytes()`, external; e.g. bin/client.rs:174). -/
def utf8 (s : List Char) : List Byte := s.flatMap utf8Char

/-- A continuation byte: its six bits. -/
def contByte (b : Byte) : Option ℕ := if 0x80 ≤ b.val ∧ b.val < 0xC0 then some (b.val - 0x80) else none

/-- A code point: neither too short for its encoding nor a surrogate nor too large. -/
def codePoint (least n : ℕ) : Option Char :=
  if least ≤ n ∧ n < 0x110000 ∧ ¬ (0xD800 ≤ n ∧ n < 0xE000) then some (Char.ofNat n) else none

/-- UTF-8 decoding of a whole file (`read_to_string`, external; e.g. bin/client.rs:415): `none` is the error
for invalid UTF-8. -/
def utf8Decode : List Byte → Option (List Char)
  | [] => some []
  | a :: rest =>
    if a.val < 0x80 then do
      let s ← utf8Decode rest
      return Char.ofNat a.val :: s
    else if 0xC0 ≤ a.val ∧ a.val < 0xE0 then
      match rest with
      | b :: rest => do
        let x ← contByte b
        let c ← codePoint 0x80 ((a.val - 0xC0) * 64 + x)
        let s ← utf8Decode rest
        return c :: s
      | _ => none
    else if 0xE0 ≤ a.val ∧ a.val < 0xF0 then
      match rest with
      | b :: b' :: rest => do
        let x ← contByte b
        let y ← contByte b'
        let c ← codePoint 0x800 ((a.val - 0xE0) * 4096 + x * 64 + y)
        let s ← utf8Decode rest
        return c :: s
      | _ => none
    else if 0xF0 ≤ a.val ∧ a.val < 0xF8 then
      match rest with
      | b :: b' :: b'' :: rest => do
        let x ← contByte b
        let y ← contByte b'
        let z ← contByte b''
        let c ← codePoint 0x10000 ((a.val - 0xF0) * 262144 + x * 4096 + y * 64 + z)
        let s ← utf8Decode rest
        return c :: s
      | _ => none
    else none

/-! ### JSON values and their text -/

/-- A JSON value.  A number is kept as its text; the fields of an object are kept in the order of the
text. -/
inductive Json where
  | null
  | bool (b : Bool)
  | num (token : List Char)
  | str (s : List Char)
  | arr (l : List Json)
  | obj (l : List (List Char × Json))

namespace Json

/-- The text of a character inside a string (`serde_json` and `JSON.stringify`, external). -/
def escape (c : Char) : List Char :=
  if c = '"' then ['\\', '"']
  else if c = '\\' then ['\\', '\\']
  else if c.toNat = 8 then ['\\', 'b']
  else if c.toNat = 9 then ['\\', 't']
  else if c.toNat = 10 then ['\\', 'n']
  else if c.toNat = 12 then ['\\', 'f']
  else if c.toNat = 13 then ['\\', 'r']
  else if c.toNat < 32 then ['\\', 'u', '0', '0', hexDigit (c.toNat / 16), hexDigit (c.toNat % 16)]
  else [c]

/-- A string with its quotes. -/
def quote (s : List Char) : List Char := '"' :: (s.flatMap escape ++ ['"'])

mutual
/-- `serde_json::to_string`, `JSON.stringify` (external): compact text without spaces. -/
def print : Json → List Char
  | null => ['n', 'u', 'l', 'l']
  | bool true => ['t', 'r', 'u', 'e']
  | bool false => ['f', 'a', 'l', 's', 'e']
  | num t => t
  | str s => quote s
  | arr [] => ['[', ']']
  | arr (v :: l) => '[' :: (print v ++ printElems l)
  | obj [] => ['{', '}']
  | obj ((k, v) :: l) => '{' :: (quote k ++ (':' :: (print v ++ printFields l)))
/-- The rest of an array after an element. -/
def printElems : List Json → List Char
  | [] => [']']
  | v :: l => ',' :: (print v ++ printElems l)
/-- The rest of an object after a field. -/
def printFields : List (List Char × Json) → List Char
  | [] => ['}']
  | (k, v) :: l => ',' :: (quote k ++ (':' :: (print v ++ printFields l)))
end

/-- JSON white space. -/
def isSpace (c : Char) : Bool := c = ' ' || c = '\n' || c = '\t' || c = '\r'

/-- Skips white space. -/
def skip (s : List Char) : List Char := s.dropWhile isSpace

/-- Decimal digit. -/
def isDigit (c : Char) : Bool := decide (48 ≤ c.toNat ∧ c.toNat ≤ 57)

/-- Four hexadecimal digits of an escape. -/
def hex4 (a b c d : Char) : Option ℕ := do
  let w ← hexVal a
  let x ← hexVal b
  let y ← hexVal c
  let z ← hexVal d
  return w * 4096 + x * 256 + y * 16 + z

/-- The character of a one-letter escape. -/
def unescape (e : Char) : Option Char :=
  if e = '"' then some '"'
  else if e = '\\' then some '\\'
  else if e = '/' then some '/'
  else if e = 'b' then some (Char.ofNat 8)
  else if e = 'f' then some (Char.ofNat 12)
  else if e = 'n' then some (Char.ofNat 10)
  else if e = 'r' then some (Char.ofNat 13)
  else if e = 't' then some (Char.ofNat 9)
  else none

/-- The body of a string, after the opening quote: its characters and the text after the closing
quote (`serde_json`, external). -/
def parseStr : List Char → Option (List Char × List Char)
  | [] => none
  | ch :: rest =>
    if ch = '"' then some ([], rest)
    else if ch = '\\' then
      match rest with
      | [] => none
      | e :: rest =>
        if e = 'u' then
          match rest with
          | a :: b :: c :: d :: rest => do
            let n ← hex4 a b c d
            if 0xD800 ≤ n ∧ n < 0xDC00 then
              match rest with
              | bs :: u :: a' :: b' :: c' :: d' :: rest =>
                if bs = '\\' ∧ u = 'u' then do
                  let m ← hex4 a' b' c' d'
                  if 0xDC00 ≤ m ∧ m < 0xE000 then do
                    let s ← parseStr rest
                    return (Char.ofNat (0x10000 + (n - 0xD800) * 1024 + (m - 0xDC00)) :: s.1, s.2)
                  else none
                else none
              | _ => none
            else if 0xDC00 ≤ n ∧ n < 0xE000 then none
            else do
              let s ← parseStr rest
              return (Char.ofNat n :: s.1, s.2)
          | _ => none
        else do
          let c ← unescape e
          let s ← parseStr rest
          return (c :: s.1, s.2)
    else if ch.toNat < 32 then none
    else do
      let s ← parseStr rest
      return (ch :: s.1, s.2)

/-- The digits at the start of a text and the rest. -/
def digits (s : List Char) : List Char × List Char := (s.takeWhile isDigit, s.dropWhile isDigit)

/-- An optional minus sign. -/
def parseSign (s : List Char) : List Char × List Char :=
  match s with
  | [] => ([], [])
  | c :: rest => if c = '-' then (['-'], rest) else ([], c :: rest)

/-- An optional fraction. -/
def parseFrac (s : List Char) : Option (List Char × List Char) :=
  match s with
  | [] => some ([], [])
  | c :: rest =>
    if c = '.' then
      if (digits rest).1 = [] then none else some ('.' :: (digits rest).1, (digits rest).2)
    else some ([], c :: rest)

/-- The sign of an exponent. -/
def parseExpSign (s : List Char) : List Char × List Char :=
  match s with
  | [] => ([], [])
  | c :: rest => if c = '-' ∨ c = '+' then ([c], rest) else ([], c :: rest)

/-- An optional exponent. -/
def parseExp (s : List Char) : Option (List Char × List Char) :=
  match s with
  | [] => some ([], [])
  | c :: rest =>
    if c = 'e' ∨ c = 'E' then
      let g := parseExpSign rest
      if (digits g.2).1 = [] then none else some (c :: (g.1 ++ (digits g.2).1), (digits g.2).2)
    else some ([], c :: rest)

/-- A number without leading zeros (`serde_json`, external): its text and the rest. -/
def parseNum (s : List Char) : Option (List Char × List Char) :=
  let g := parseSign s
  let i := digits g.2
  if i.1 = [] ∨ (i.1.head? = some '0' ∧ i.1 ≠ ['0']) then none
  else do
    let f ← parseFrac i.2
    let e ← parseExp f.2
    return (g.1 ++ i.1 ++ f.1 ++ e.1, e.2)

/-- The literal `lit` at the start of a text: the rest. -/
def literal (lit s : List Char) : Option (List Char) :=
  if lit.isPrefixOf s then some (s.drop lit.length) else none

mutual
/-- A value at the start of a text and the rest (`serde_json`, external).  `depth` is the nesting still allowed;
the first argument bounds the recursion and is large enough in `parse`. -/
def value : ℕ → ℕ → List Char → Option (Json × List Char)
  | 0, _, _ => none
  | n + 1, depth, s =>
    match skip s with
    | [] => none
    | c :: rest =>
      if c = '"' then (parseStr rest).map (fun p => (str p.1, p.2))
      else if c = '[' then
        if depth ≤ 1 then none
        else
          match skip rest with
          | [] => none
          | c' :: rest' =>
            if c' = ']' then some (arr [], rest')
            else (elems n (depth - 1) rest).map (fun p => (arr p.1, p.2))
      else if c = '{' then
        if depth ≤ 1 then none
        else
          match skip rest with
          | [] => none
          | c' :: rest' =>
            if c' = '}' then some (obj [], rest')
            else (members n (depth - 1) rest).map (fun p => (obj p.1, p.2))
      else if c = 'n' then (literal ['n', 'u', 'l', 'l'] (c :: rest)).map (fun r => (null, r))
      else if c = 't' then (literal ['t', 'r', 'u', 'e'] (c :: rest)).map (fun r => (bool true, r))
      else if c = 'f' then (literal ['f', 'a', 'l', 's', 'e'] (c :: rest)).map (fun r => (bool false, r))
      else (parseNum (c :: rest)).map (fun p => (num p.1, p.2))
/-- The elements of an array, up to the closing bracket. -/
def elems : ℕ → ℕ → List Char → Option (List Json × List Char)
  | 0, _, _ => none
  | n + 1, depth, s =>
    match value n depth s with
    | none => none
    | some (v, r) =>
      match skip r with
      | [] => none
      | c :: rest =>
        if c = ',' then (elems n depth rest).map (fun p => (v :: p.1, p.2))
        else if c = ']' then some ([v], rest)
        else none
/-- The fields of an object, up to the closing brace. -/
def members : ℕ → ℕ → List Char → Option (List (List Char × Json) × List Char)
  | 0, _, _ => none
  | n + 1, depth, s =>
    match skip s with
    | [] => none
    | c :: rest =>
      if c = '"' then
        match parseStr rest with
        | none => none
        | some (k, r) =>
          match skip r with
          | [] => none
          | c' :: rest' =>
            if c' = ':' then
              match value n depth rest' with
              | none => none
              | some (v, r') =>
                match skip r' with
                | [] => none
                | c'' :: rest'' =>
                  if c'' = ',' then (members n depth rest'').map (fun p => ((k, v) :: p.1, p.2))
                  else if c'' = '}' then some ([(k, v)], rest'')
                  else none
            else none
      else none
end

/-- `serde_json::from_str` up to the typed value (external; e.g. bin/client.rs:416): one value with white space
around it. -/
def parse (s : List Char) : Option Json :=
  match value (2 * s.length + 2) 128 s with
  | none => none
  | some (v, r) => if skip r = [] then some v else none

end Json

/-! ### Typed values (serde) -/

/-- Decimal text of a number (`serde_json` for `usize` and `u8`; `format!("{index}")`,
bin/client.rs:171, 205, 210). -/
def decimalText (n : ℕ) : List Char := (decimal n).map (fun b => Char.ofNat b.val)

/-- The number written by digits. -/
def ofDigits (t : List Char) : ℕ := t.foldl (fun n c => 10 * n + (c.toNat - 48)) 0

/-- How a Rust type is written as JSON and read back (`Serialize`, `Deserialize`, derived by serde). -/
class Serde (α : Type) where
  enc : α → Json
  dec : Json → Option α

namespace Serde
open Json

/-- Reading an unsigned integer below `bound`: digits only (a sign, fraction or exponent is a type
error). -/
def decNat (bound : ℕ) : Json → Option ℕ
  | num t => if t ≠ [] ∧ t.all isDigit ∧ ofDigits t < bound then some (ofDigits t) else none
  | _ => none

/-- The fields of a derived structure: an object with each name exactly once and any other fields, or
an array of exactly these values. -/
def decStruct (names : List String) : Json → Option (List Json)
  | obj l =>
    if names.all (fun n => decide ((l.filter (fun f => decide (f.1 = n.toList))).length ≤ 1)) then
      names.mapM (fun n => (l.find? (fun f => decide (f.1 = n.toList))).map (·.2))
    else none
  | arr l => if l.length = names.length then some l else none
  | _ => none

/-- A derived structure is written as an object with its fields in order of declaration. -/
def encStruct (fields : List (String × Json)) : Json := obj (fields.map (fun f => (f.1.toList, f.2)))

/-- `usize` on a 64-bit machine. -/
instance : Serde ℕ := ⟨fun n => num (decimalText n), decNat (2 ^ 64)⟩

/-- `u8`. -/
instance : Serde Byte :=
  ⟨fun b => num (decimalText b.val), fun j => (decNat 256 j).map (Fin.ofNat 256)⟩

/-- `String`. -/
instance : Serde (List Char) :=
  ⟨Json.str, fun | Json.str s => some s | _ => none⟩

/-- `Vec<T>`. -/
instance (priority := low) {α : Type} [Serde α] : Serde (List α) :=
  ⟨fun l => arr (l.map enc), fun | arr l => l.mapM dec | _ => none⟩

/-- `Point`, bin/serialise.rs:36-40. -/
instance : Serde PointSerde where
  enc p := encStruct [("x", enc p.x), ("y", enc p.y)]
  dec j := do
    match ← decStruct ["x", "y"] j with
    | [x, y] => return ⟨← dec x, ← dec y⟩
    | _ => none

/-- `[String; 2]`. -/
def decPair : Json → Option (List Char × List Char)
  | arr [a, b] => do return (← dec a, ← dec b)
  | _ => none

/-- `Point2`, bin/serialise.rs:102-106. -/
instance : Serde Point2Serde where
  enc p := encStruct [("x", arr [enc p.x0, enc p.x1]), ("y", arr [enc p.y0, enc p.y1])]
  dec j := do
    match ← decStruct ["x", "y"] j with
    | [x, y] => do
      let a ← decPair x
      let b ← decPair y
      return ⟨a.1, a.2, b.1, b.2⟩
    | _ => none

/-- `MemberKey`, bin/serialise.rs:152-156. -/
instance : Serde MemberKeySerde where
  enc k := encStruct [("sk", enc k.sk), ("pk", enc k.pk)]
  dec j := do
    match ← decStruct ["sk", "pk"] j with
    | [sk, pk] => return ⟨← dec sk, ← dec pk⟩
    | _ => none

/-- `DkgMemberPublicParams`, bin/serialise.rs:191-199. -/
instance : Serde PublicParamsSerde where
  enc k := encStruct [("public_shares", enc k.publicShares), ("ciphers", enc k.ciphers), ("gr", enc k.gr),
    ("ga", enc k.ga), ("g2a", enc k.g2a)]
  dec j := do
    match ← decStruct ["public_shares", "ciphers", "gr", "ga", "g2a"] j with
    | [a, b, c, d, e] => return ⟨← dec a, ← dec b, ← dec c, ← dec d, ← dec e⟩
    | _ => none

/-- `DkgConfig`, src/dkg.rs:31-35. -/
instance : Serde DkgConfig where
  enc k := encStruct [("threshold", enc k.threshold), ("number_of_members", enc k.numberOfMembers)]
  dec j := do
    match ← decStruct ["threshold", "number_of_members"] j with
    | [a, b] => return ⟨← dec a, ← dec b⟩
    | _ => none

/-- `DkgMemberParams`, bin/serialise.rs:254-262. -/
instance : Serde MemberParamsSerde where
  enc k := encStruct [("dkg_config", enc k.cfg), ("coeffs", enc k.coeffs), ("shares", enc k.shares),
    ("r", enc k.rnd), ("public_keys", enc k.publicKeys), ("public_params", enc k.publicParams)]
  dec j := do
    match ← decStruct ["dkg_config", "coeffs", "shares", "r", "public_keys", "public_params"] j with
    | [a, b, c, d, e, f] => return ⟨← dec a, ← dec b, ← dec c, ← dec d, ← dec e, ← dec f⟩
    | _ => none

/-- `DkgGlobalPubParams`, bin/serialise.rs:338-343. -/
instance : Serde GlobalParamsSerde where
  enc k := encStruct [("ga", enc k.ga), ("g2a", enc k.g2a), ("verify_keys", enc k.verifyKeys)]
  dec j := do
    match ← decStruct ["ga", "g2a", "verify_keys"] j with
    | [a, b, c] => return ⟨← dec a, ← dec b, ← dec c⟩
    | _ => none

/-- `DkgShareKey`, bin/serialise.rs:381-386. -/
instance : Serde ShareKeySerde where
  enc k := encStruct [("index", enc k.index), ("sk", enc k.sk), ("vk", enc k.vk)]
  dec j := do
    match ← decStruct ["index", "sk", "vk"] j with
    | [a, b, c] => return ⟨← dec a, ← dec b, ← dec c⟩
    | _ => none

/-- `PartialEval` with `PartialEvalProof`, bin/serialise.rs:425-429, 464-469. -/
instance : Serde PartialEvalSerde where
  enc k := encStruct [("index", enc k.index), ("value", enc k.value),
    ("proof", encStruct [("z", enc k.z), ("c", enc k.c)])]
  dec j := do
    match ← decStruct ["index", "value", "proof"] j with
    | [a, b, p] => do
      match ← decStruct ["z", "c"] p with
      | [z, c] => return ⟨← dec a, ← dec b, ← dec z, ← dec c⟩
      | _ => none
    | _ => none

/-- `PseudoRandom`, bin/serialise.rs:507-511. -/
instance : Serde PseudoRandomSerde where
  enc k := encStruct [("proof", enc k.proof), ("value", enc k.value)]
  dec j := do
    match ← decStruct ["proof", "value"] j with
    | [a, b] => return ⟨← dec a, ← dec b⟩
    | _ => none

/-- `write(path, serde_json::to_string(&v)?.as_bytes())`: the bytes of the file; e.g.
bin/client.rs:173-174. -/
def toFile {α : Type} [Serde α] (a : α) : List Byte := utf8 (print (enc a))

/-- `read_to_string(path)?` and `serde_json::from_str(&bytes)?` on the bytes of a file; e.g.
bin/client.rs:415-416. -/
def ofFile {α : Type} [Serde α] (bs : List Byte) : Option α := do
  let s ← utf8Decode bs
  let j ← parse s
  dec j

end Serde

end Verif
