import Verif.Model.Port
import Verif.Model.Math
import Verif.Model.CType
import Verif.Model.Symbol
/-
The reader: /repo/src/reader.c.  Characters are written as their codes.

`k` is the fuel of the list and table primitives, `fuel` the one of the reader's own recursion; `s`, `w` the memory and the
input.  What the reader prints on stderr is not modelled.  `g_buf` has `MAX_STRING` bytes.
-/
namespace Mes
open Res

/-- `reader_read_line_comment`: /repo/src/reader.c:43-53. -/
def readLineComment (k : Nat) : (fuel : Nat) → (s : St) → (w : In) → (c : Int) → Res (Int × St × In)
  | 0, _, _, _ => loop
  | fuel + 1, s, w, c =>
    if c ≠ eof then
      if c = 10 then ok (c, s, w)
      else do
        let (c, s, w) ← readchar s w k
        readLineComment k fuel s w c
    else err .systemError

/-- `reader_identifier_p`: /repo/src/reader.c:59-63. -/
def identifierP (c : Int) : Bool :=
  decide (32 < c) && decide (c ≤ 126) && decide (c ≠ 34) && decide (c ≠ 59) && decide (c ≠ 40) && decide (c ≠ 41)
    && decide (c ≠ eof)

/-- `reader_end_of_word_p`: /repo/src/reader.c:65-69. -/
def endOfWordP (c : Int) : Bool :=
  decide (c = 34) || decide (c = 59) || decide (c = 40) || decide (c = 41) || C.isspace c || decide (c = eof)

/-- The loop over the digits in `reader_read_identifier_or_number`: /repo/src/reader.c:86-93; `buf` is what is in `g_buf`,
the result the number, the buffer and the first character behind. -/
def readDigits (k : Nat) : (fuel : Nat) → (s : St) → (w : In) → (c n : Int) → (buf : List Byte) →
    Res (Int × List Byte × Int × St × In)
  | 0, _, _, _, _, _ => loop
  | fuel + 1, s, w, c, n, buf =>
    if C.isdigit c then do
      ubUnless (buf.length < s.maxString)
      let n ← ckLong (n * 10)
      let n ← ckLong (n + c)
      let n ← ckLong (n - 48)
      let buf := buf ++ [toByte c]
      let (c, s, w) ← readchar s w k
      readDigits k fuel s w c n buf
    else ok (n, buf, c, s, w)

/-- The loop over the rest of an identifier: /repo/src/reader.c:102-107. -/
def readWord (k : Nat) : (fuel : Nat) → (s : St) → (w : In) → (c : Int) → (buf : List Byte) →
    Res (List Byte × Int × St × In)
  | 0, _, _, _, _ => loop
  | fuel + 1, s, w, c, buf =>
    if endOfWordP c then ok (buf, c, s, w)
    else do
      ubUnless (buf.length < s.maxString)
      let buf := buf ++ [toByte c]
      let (c, s, w) ← readchar s w k
      readWord k fuel s w c buf

/-- `if (c == '+') if (isdigit (peekchar ()) != 0) c = readchar ();`: /repo/src/reader.c:77-79. -/
def readPlus (k : Nat) (s : St) (w : In) (c : Int) : Res (Int × St × In) :=
  if c = 43 then do
    let (p, s, w) ← peekchar s w k
    if C.isdigit p then readchar s w k else ok (c, s, w)
  else ok (c, s, w)

/-- The same for the minus sign, giving `negative_p` too: /repo/src/reader.c:80-85. -/
def readMinus (k : Nat) (s : St) (w : In) (c : Int) : Res (Bool × Int × St × In) :=
  if c = 45 then do
    let (p, s, w) ← peekchar s w k
    if C.isdigit p then do
      let (c, s, w) ← readchar s w k
      ok (true, c, s, w)
    else ok (false, c, s, w)
  else ok (false, c, s, w)

/-- `reader_read_identifier_or_number`: /repo/src/reader.c:71-111. -/
def readIdentifierOrNumber (k fuel : Nat) (s : St) (w : In) (c : Int) : Res (Int × St × In) := do
  let (c, s, w) ← readPlus k s w c
  let (neg, c, s, w) ← readMinus k s w c
  let (n, buf, c, s, w) ← readDigits k fuel s w c 0 []
  if endOfWordP c then do
    let (_, s, w) ← unreadchar s w k c
    let (x, s) ← makeNumber s (if neg then 0 - n else n)
    ok (x, s, w)
  else do
    let (buf, c, s, w) ← readWord k fuel s w c buf
    let (_, s, w) ← unreadchar s w k c
    ubUnless (buf.length < s.maxString)
    let (x, s) ← cstringToSymbol s k (buf.takeWhile (· ≠ 0))
    ok (x, s, w)

/-- `reader_read_block_comment`: /repo/src/reader.c:199-209; `t` is the character that was behind the `#`. -/
def readBlockComment (k : Nat) (t : Int) : (fuel : Nat) → (s : St) → (w : In) → (c : Int) → Res (St × In)
  | 0, _, _, _ => loop
  | fuel + 1, s, w, c =>
    if c = t then do
      let (p, s, w) ← peekchar s w k
      if p = 35 then do
        let (_, s, w) ← readchar s w k
        ok (s, w)
      else do
        let (c, s, w) ← readchar s w k
        readBlockComment k t fuel s w c
    else do
      let (c, s, w) ← readchar s w k
      readBlockComment k t fuel s w c

/-- `reader_eat_whitespace`: /repo/src/reader.c:156-174; one step of the `while` loop counts as a call. -/
def eatWhitespace (k : Nat) : (fuel : Nat) → (s : St) → (w : In) → (c : Int) → Res (Int × St × In)
  | 0, _, _, _ => loop
  | fuel + 1, s, w, c =>
    if C.isspace c then do
      let (c, s, w) ← readchar s w k
      eatWhitespace k fuel s w c
    else if c = 59 then do
      let (c, s, w) ← readLineComment k fuel s w c
      eatWhitespace k fuel s w c
    else if c = 35 then do
      let (p, s, w) ← peekchar s w k
      if p = 33 ∨ p = 124 then do
        let (t, s, w) ← readchar s w k
        let (c, s, w) ← readchar s w k
        let (s, w) ← readBlockComment k t fuel s w c
        let (c, s, w) ← readchar s w k
        eatWhitespace k fuel s w c
      else ok (c, s, w)
    else ok (c, s, w)

/-- The loops of `reader_read_binary` (/repo/src/reader.c:372-378; shift 1) and `reader_read_octal` (396-402; shift 3): `c`
has been peeked, the digits are those below `base`. -/
def readRadix (k : Nat) (base : Int) : (fuel : Nat) → (s : St) → (w : In) → (c n : Int) → Res (Int × St × In)
  | 0, _, _, _, _ => loop
  | fuel + 1, s, w, c, n =>
    if 48 ≤ c ∧ c < 48 + base then do
      let n ← ckLong (n * base)
      let n ← ckLong (n + c)
      let n ← ckLong (n - 48)
      let (_, s, w) ← readchar s w k
      let (c, s, w) ← peekchar s w k
      readRadix k base fuel s w c n
    else ok (n, s, w)

/-- The loop of `reader_read_hex`: /repo/src/reader.c:420-431. -/
def readHexDigits (k : Nat) : (fuel : Nat) → (s : St) → (w : In) → (c n : Int) → Res (Int × St × In)
  | 0, _, _, _, _ => loop
  | fuel + 1, s, w, c, n =>
    if (48 ≤ c ∧ c ≤ 57) ∨ (65 ≤ c ∧ c ≤ 70) ∨ (97 ≤ c ∧ c ≤ 102) then do
      let n ← ckLong (n * 16)
      let n ← ckLong (n + c)
      let n ← if 97 ≤ c then ckLong (n - 97 + 10) else if 65 ≤ c then ckLong (n - 65 + 10) else ckLong (n - 48)
      let (_, s, w) ← readchar s w k
      let (c, s, w) ← peekchar s w k
      readHexDigits k fuel s w c n
    else ok (n, s, w)

/-- The sign in `reader_read_binary`, `reader_read_octal`, `reader_read_hex`: /repo/src/reader.c:364-371; gives
`negative_p` and the next character. -/
def readSign (k : Nat) (s : St) (w : In) : Res (Bool × Int × St × In) := do
  let (c, s, w) ← peekchar s w k
  if c = 45 then do
    let (_, s, w) ← readchar s w k
    let (c, s, w) ← peekchar s w k
    ok (true, c, s, w)
  else ok (false, c, s, w)

/-- `reader_read_binary` (/repo/src/reader.c:360-382) for `base = 2`, `reader_read_octal` (384-406) for `base = 8`. -/
def readBinaryOctal (k fuel : Nat) (base : Int) (s : St) (w : In) : Res (Int × St × In) := do
  let (neg, c, s, w) ← readSign k s w
  let (n, s, w) ← readRadix k base fuel s w c 0
  let (x, s) ← makeNumber s (if neg then 0 - n else n)
  ok (x, s, w)

/-- `reader_read_hex`: /repo/src/reader.c:408-435. -/
def readHex (k fuel : Nat) (s : St) (w : In) : Res (Int × St × In) := do
  let (neg, c, s, w) ← readSign k s w
  let (n, s, w) ← readHexDigits k fuel s w c 0
  let (x, s) ← makeNumber s (if neg then 0 - n else n)
  ok (x, s, w)

/-- The octal loop of `reader_read_character`: /repo/src/reader.c:283-288. -/
def readOctalChar (k : Nat) : (fuel : Nat) → (s : St) → (w : In) → (c p : Int) → Res (Int × St × In)
  | 0, _, _, _, _ => loop
  | fuel + 1, s, w, c, p =>
    if 48 ≤ p ∧ p ≤ 55 then do
      ubUnless (c * 8 ≤ 2147483647)
      let (d, s, w) ← readchar s w k
      ubUnless (c * 8 + d ≤ 2147483647)
      let (p, s, w) ← peekchar s w k
      readOctalChar k fuel s w (c * 8 + d - 48) p
    else ok (c, s, w)

/-- A letter of the name of a character: /repo/src/reader.c:298, 303. -/
def charNameP (c : Int) : Bool := (decide (97 ≤ c) && decide (c ≤ 122)) || decide (c = 42)

/-- The loop over the name of a character: /repo/src/reader.c:303-309; `__reader_read_char_buf` has 10 bytes
(/repo/src/mes.c:168). -/
def readCharName (k : Nat) : (fuel : Nat) → (s : St) → (w : In) → (p : Int) → (buf : List Byte) →
    Res (List Byte × St × In)
  | 0, _, _, _, _ => loop
  | fuel + 1, s, w, p, buf =>
    if charNameP p then do
      let (c, s, w) ← readchar s w k
      ubUnless (buf.length < 10)
      let (p, s, w) ← peekchar s w k
      readCharName k fuel s w p (buf ++ [toByte c])
    else do
      ubUnless (buf.length < 10)
      ok (buf, s, w)

/-- Names of characters: /repo/src/reader.c:310-348. -/
def charNames : List (List Byte × Int) :=
  [(ascii ['*', 'e', 'o', 'f', '*'], eof), (ascii ['n', 'u', 'l'], 0), (ascii ['a', 'l', 'a', 'r', 'm'], 7),
   (ascii ['b', 'a', 'c', 'k', 's', 'p', 'a', 'c', 'e'], 8), (ascii ['t', 'a', 'b'], 9),
   (ascii ['l', 'i', 'n', 'e', 'f', 'e', 'e', 'd'], 10), (ascii ['n', 'e', 'w', 'l', 'i', 'n', 'e'], 10),
   (ascii ['v', 't', 'a', 'b'], 11), (ascii ['p', 'a', 'g', 'e'], 12), (ascii ['r', 'e', 't', 'u', 'r', 'n'], 13),
   (ascii ['e', 's', 'c'], 27), (ascii ['s', 'p', 'a', 'c', 'e'], 32), (ascii ['b', 'e', 'l'], 7),
   (ascii ['b', 's'], 8), (ascii ['h', 't'], 9), (ascii ['v', 't'], 11), (ascii ['c', 'r'], 13)]

/-- `reader_read_character`: /repo/src/reader.c:274-358. -/
def readCharacter (k fuel : Nat) (s : St) (w : In) : Res (Int × St × In) := do
  let (c, s, w) ← readchar s w k
  let (p, s, w) ← peekchar s w k
  if 48 ≤ c ∧ c ≤ 55 ∧ 48 ≤ p ∧ p ≤ 55 then do
    let (c, s, w) ← readOctalChar k fuel s w (c - 48) p
    let (x, s) ← makeChar s c
    ok (x, s, w)
  else if c = 120 ∧ ((48 ≤ p ∧ p ≤ 57) ∨ (97 ≤ p ∧ p ≤ 102) ∨ (70 ≤ p ∧ p ≤ 70)) then do
    let (n, s, w) ← readHex k fuel s w
    let v ← s.cdr n
    let (x, s) ← makeChar s (toInt32 v)
    ok (x, s, w)
  else if charNameP c ∧ charNameP p then do
    let (buf, s, w) ← readCharName k fuel s w p [toByte c]
    match charNames.lookup buf with
    | some c => do
      let (x, s) ← makeChar s c
      ok (x, s, w)
    | none => err .systemError
  else do
    let (x, s) ← makeChar s c
    ok (x, s, w)

/-- What a backslash escape of a string stands for: /repo/src/reader.c:453-476. -/
def escapes : List (Int × Int) :=
  [(92, 92), (34, 34), (48, 0), (97, 7), (98, 8), (116, 9), (110, 10), (118, 11), (102, 12), (114, 13), (101, 27)]

/-- The part of `reader_read_string` behind a backslash, where `c` is the next character: /repo/src/reader.c:453-481. -/
def readEscape (k fuel : Nat) (s : St) (w : In) (c : Int) : Res (Int × St × In) :=
  match escapes.lookup c with
  | some e => ok (e, s, w)
  | none =>
    if c = 120 then do
      let (n, s, w) ← readHex k fuel s w
      let v ← s.cdr n
      ok (toInt32 v, s, w)
    else ok (c, s, w)

/-- The loop of `reader_read_string`: /repo/src/reader.c:443-486; gives what is in `g_buf`. -/
def readStringLoop (k : Nat) : (fuel : Nat) → (s : St) → (w : In) → (buf : List Byte) → Res (List Byte × St × In)
  | 0, _, _, _ => loop
  | fuel + 1, s, w, buf =>
    if s.maxString < buf.length then err .systemError
    else do
      let (c, s, w) ← readchar s w k
      if c = 34 then ok (buf, s, w)
      else if c = 92 then do
        let (c, s, w) ← readchar s w k
        let (c, s, w) ← readEscape k fuel s w c
        ubUnless (buf.length < s.maxString)
        readStringLoop k fuel s w (buf ++ [toByte c])
      else do
        ubUnless (buf.length < s.maxString)
        readStringLoop k fuel s w (buf ++ [toByte c])

/-- `reader_read_string`: /repo/src/reader.c:437-489. -/
def readString (k fuel : Nat) (s : St) (w : In) : Res (Int × St × In) := do
  let (buf, s, w) ← readStringLoop k fuel s w []
  ubUnless (buf.length < s.maxString)
  let (x, s) ← makeString s buf
  ok (x, s, w)

/-- The message made for every keyword: /repo/src/reader.c:245. -/
def keywordMessage : List Byte := ascii ("keyword perifx ':' not followed by a symbol: ".toList)

/-- The keyword case of `reader_read_hash`: /repo/src/reader.c:242-249. -/
def readKeyword (k fuel : Nat) (s : St) (w : In) : Res (Int × St × In) := do
  let (c, s, w) ← readchar s w k
  let (x, s, w) ← readIdentifierOrNumber k fuel s w c
  let (_, s) ← makeString s keywordMessage
  let t ← s.tag x
  if t = .number then err .systemError
  else do
    let (r, s) ← symbolToKeyword s x
    ok (r, s, w)

/-- `cons (name, cons (x, cell_nil))`, as in /repo/src/reader.c:136. -/
def wrap (s : St) (name x : Int) : Res (Int × St) := do
  let (l, s) ← cons s x c_nil
  cons s name l

mutual
/-- `reader_read_sexp_`: /repo/src/reader.c:113-154; a jump to `reset_reader` counts as a call. -/
def readSexp (k : Nat) : (fuel : Nat) → (s : St) → (w : In) → (c : Int) → Res (Int × St × In)
  | 0, _, _, _ => loop
  | fuel + 1, s, w, c =>
    if c = eof then ok (c_nil, s, w)
    else if c = 59 then do
      let (c, s, w) ← readLineComment k fuel s w c
      readSexp k fuel s w c
    else if c = 32 ∨ c = 9 ∨ c = 10 ∨ c = 12 then do
      let (c, s, w) ← readchar s w k
      readSexp k fuel s w c
    else if c = 40 then do
      let (c, s, w) ← readchar s w k
      readList k fuel s w c
    else if c = 41 then ok (c_nil, s, w)
    else if c = 35 then do
      let (c, s, w) ← readchar s w k
      readHash k fuel s w c
    else if c = 96 then readQuoted k fuel s w c_symbol_quasiquote
    else if c = 44 then do
      let (p, s, w) ← peekchar s w k
      if p = 64 then do
        let (_, s, w) ← readchar s w k
        readQuoted k fuel s w c_symbol_unquote_splicing
      else readQuoted k fuel s w c_symbol_unquote
    else if c = 39 then readQuoted k fuel s w c_symbol_quote
    else if c = 34 then readString k fuel s w
    else if c = 46 then do
      let (p, s, w) ← peekchar s w k
      if identifierP p then readIdentifierOrNumber k fuel s w c else ok (c_dot, s, w)
    else readIdentifierOrNumber k fuel s w c
/-- `cons (name, cons (reader_read_sexp_ (readchar (), a), cell_nil))`: /repo/src/reader.c:136, 142, 144, 147, 233, 236,
239, 241. -/
def readQuoted (k : Nat) : (fuel : Nat) → (s : St) → (w : In) → (name : Int) → Res (Int × St × In)
  | 0, _, _, _ => loop
  | fuel + 1, s, w, name => do
    let (c, s, w) ← readchar s w k
    let (x, s, w) ← readSexp k fuel s w c
    let (r, s) ← wrap s name x
    ok (r, s, w)
/-- `reader_read_list`: /repo/src/reader.c:176-191. -/
def readList (k : Nat) : (fuel : Nat) → (s : St) → (w : In) → (c : Int) → Res (Int × St × In)
  | 0, _, _, _ => loop
  | fuel + 1, s, w, c => do
    let (c, s, w) ← eatWhitespace k fuel s w c
    if c = 41 then ok (c_nil, s, w)
    else if c = eof then err .notAPair
    else do
      let (x, s, w) ← readSexp k fuel s w c
      if x = c_dot then do
        let (c, s, w) ← readchar s w k
        let (l, s, w) ← readList k fuel s w c
        let a ← s.car l
        ok (a, s, w)
      else do
        let (c, s, w) ← readchar s w k
        let (l, s, w) ← readList k fuel s w c
        let (r, s) ← cons s x l
        ok (r, s, w)
/-- `reader_read_hash`: /repo/src/reader.c:211-266. -/
def readHash (k : Nat) : (fuel : Nat) → (s : St) → (w : In) → (c : Int) → Res (Int × St × In)
  | 0, _, _, _ => loop
  | fuel + 1, s, w, c =>
    if c = 33 ∨ c = 124 then do
      let (c', s, w) ← readchar s w k
      let (s, w) ← readBlockComment k c fuel s w c'
      let (c, s, w) ← readchar s w k
      readSexp k fuel s w c
    else if c = 102 then ok (c_f, s, w)
    else if c = 116 then ok (c_t, s, w)
    else if c = 44 then do
      let (p, s, w) ← peekchar s w k
      if p = 64 then do
        let (_, s, w) ← readchar s w k
        readQuoted k fuel s w c_symbol_unsyntax_splicing
      else readQuoted k fuel s w c_symbol_unsyntax
    else if c = 39 then readQuoted k fuel s w c_symbol_syntax
    else if c = 96 then readQuoted k fuel s w c_symbol_quasisyntax
    else if c = 58 then readKeyword k fuel s w
    else if c = 98 then readBinaryOctal k fuel 2 s w
    else if c = 111 then readBinaryOctal k fuel 8 s w
    else if c = 120 then readHex k fuel s w
    else if c = 92 then readCharacter k fuel s w
    else if c = 40 then do
      let (c, s, w) ← readchar s w k
      let (l, s, w) ← readList k fuel s w c
      let (v, s) ← listToVector s k l
      ok (v, s, w)
    else if c = 59 then do
      let (c, s, w) ← readchar s w k
      let (_, s, w) ← readSexp k fuel s w c
      let (c, s, w) ← readchar s w k
      readSexp k fuel s w c
    else do
      let (c, s, w) ← readchar s w k
      readSexp k fuel s w c
end

/-- `read_env`: /repo/src/reader.c:193-197. -/
def readEnv (k fuel : Nat) (s : St) (w : In) : Res (Int × St × In) := do
  let (c, s, w) ← readchar s w k
  readSexp k fuel s w c

/-- `read_input_file_env_` with the call that precedes it: /repo/src/reader.c:29-41; `more` bounds the number of data. -/
def readAll (k fuel : Nat) : (more : Nat) → (s : St) → (w : In) → Res (Int × St × In)
  | 0, _, _ => loop
  | more + 1, s, w => do
    let (e, s, w) ← readEnv k fuel s w
    if e = c_nil then ok (e, s, w)
    else do
      let (l, s, w) ← readAll k fuel more s w
      let (r, s) ← cons s e l
      ok (r, s, w)

end Mes
