import Verif.Model.Data
import Verif.Model.CNum
import Verif.Model.Symbol
/-
The printer: /repo/src/display.c.  A function gives the bytes it writes to the file descriptor; the write system call is
taken to write all of them.

Not modelled: structs, whose printing runs a Scheme procedure (/repo/src/display.c:214-235); the model gives `ub` for them.
`g_depth` is passed along.
-/
namespace Mes
open Res

/-- The bytes of a C string literal. -/
def lit (cs : String) : List Byte := ascii cs.toList

/-- `fdwrite_char`: /repo/src/display.c:28-58; the argument is converted to `char`. -/
def fdwriteChar (v : Int) : List Byte :=
  let b := toByte v
  if b = 0 then lit "\\nul"
  else if b = 7 then lit "\\alarm"
  else if b = 8 then lit "\\backspace"
  else if b = 9 then lit "\\tab"
  else if b = 10 then lit "\\newline"
  else if b = 11 then lit "\\vtab"
  else if b = 12 then lit "\\page"
  else if b = 13 then lit "\\return"
  else if b = 32 then lit "\\space"
  else if 32 ≤ sc b ∧ sc b ≤ 127 then [92, b]
  else [b]

/-- `fdwrite_string_char`: /repo/src/display.c:60-91. -/
def fdwriteStringChar (b : Byte) : List Byte :=
  if b = 0 then lit "\\0"
  else if b = 7 then lit "\\a"
  else if b = 8 then lit "\\b"
  else if b = 9 then lit "\\t"
  else if b = 11 then lit "\\v"
  else if b = 10 then lit "\\n"
  else if b = 12 then lit "\\f"
  else if b = 13 then lit "\\r"
  else if b = 27 then lit "\\e"
  else if b = 92 then lit "\\\\"
  else if b = 34 then lit "\\\""
  else [b]

/-- `fdwrite_string (cell_bytes (x->string), x->length, fd)`: /repo/src/display.c:93-99.  `length` is converted to `int`;
texts have fewer than 2^31 bytes. -/
def fdwriteString (s : St) (x : Int) : Res (List Byte) := do
  let bs ← textOf s x
  ok (bs.flatMap fdwriteStringChar)

/-- `fdputs (itoa (n), fd)`; `itoa` takes an `int`. -/
def writeInt (n : Int) : Res (List Byte) := C.itoa 64 (toInt32 n)

mutual
/-- `display_helper` without the separator: /repo/src/display.c:103-258; `depth` is `g_depth`, and its new value is part of
the result. -/
def displayHelper (s : St) (wr : Bool) : (fuel : Nat) → (depth : Int) → (x : Int) → (cont : Bool) →
    Res (List Byte × Int)
  | 0, _, _, _ => loop
  | fuel + 1, depth, x, cont =>
    if depth = 0 then ok ([], depth)
    else do
      let depth := depth - 1
      let c ← s.rd x
      match c.tag with
      | .char => if wr then ok (35 :: fdwriteChar c.cdr, depth) else ok ([toByte c.cdr], depth)
      | .closure => do
        let circ ← s.car c.cdr
        let d ← s.cdr circ
        let name ← s.car d
        let e ← s.cdr c.cdr
        let args ← s.car e
        let n ← s.car name
        let (t1, depth) ← displayHelper s false fuel depth n false
        let (t2, depth) ← displayHelper s false fuel depth args false
        ok (lit "#<closure " ++ t1 ++ [32] ++ t2 ++ [62], depth)
      | .macro => do
        let (t, depth) ← displayHelper s false fuel depth c.cdr cont
        ok (lit "#<macro " ++ t ++ [62], depth)
      | .variable => do
        let a ← s.car c.car
        let (t, depth) ← displayHelper s false fuel depth a cont
        ok (lit "#<variable " ++ t ++ [62], depth)
      | .number => do
        let t ← writeInt c.cdr
        ok (t, depth)
      | .pair => do
        let circ ← if c.car = c_circular then do
            let d ← s.car c.cdr
            ok (decide (d ≠ c_closure))
          else ok false
        let (t, depth) ← if circ then do
            let (t, depth) ← displayCirc s wr fuel depth 10 c.cdr
            ok (lit "(*circ* . " ++ t ++ lit " ...)", depth)
          else do
            let (t1, depth) ← displayHelper s wr fuel 5 c.car false
            if c.cdr ≠ 0 then do
              let d ← s.rd c.cdr
              if d.tag = .pair then do
                let (t2, depth) ← displayHelper s wr fuel depth c.cdr true
                ok (t1 ++ [32] ++ t2, depth)
              else if c.cdr ≠ c_nil then do
                let (t2, depth) ← displayHelper s wr fuel 5 c.cdr false
                ok (t1 ++ lit " . " ++ t2, depth)
              else ok (t1, depth)
            else ok (t1, depth)
        ok (if cont then t else [40] ++ t ++ [41], depth)
      | .port => do
        let n ← writeInt c.car
        let t ← fdwriteString s c.cdr
        ok (lit "#<port " ++ n ++ [32, 34] ++ t ++ [34, 62], depth)
      | .keyword => do
        let t ← fdwriteString s x
        ok (lit "#:" ++ t, depth)
      | .string =>
        if wr then do
          let t ← fdwriteString s x
          ok ([34] ++ t ++ [34], depth)
        else do
          let bs ← s.bytes c.cdr
          ok (bs.takeWhile (· ≠ 0), depth)
      | .special | .symbol => do
        let t ← fdwriteString s x
        ok (t, depth)
      | .ref => displayHelper s wr fuel 5 c.car false
      | .struct => ub
      | .vector => do
        let (t, depth) ← displayVector s wr fuel depth c.car.toNat c.cdr true
        ok (lit "#(" ++ t ++ [41], depth)
      | t => do
        let n ← C.itoa 64 t.toInt
        let a ← C.itoa 64 x
        ok ([60] ++ n ++ [58] ++ a ++ [62], depth)
/-- The loop over the elements of a vector: /repo/src/display.c:241-246; `n` elements are left. -/
def displayVector (s : St) (wr : Bool) : (fuel : Nat) → (depth : Int) → (n : Nat) → (v : Int) → (first : Bool) →
    Res (List Byte × Int)
  | 0, _, _, _, _ => loop
  | _ + 1, depth, 0, _, _ => ok ([], depth)
  | fuel + 1, _, n + 1, v, first => do
    let (t, depth) ← displayHelper s wr fuel 5 v false
    let (ts, depth) ← displayVector s wr fuel depth n (v + 1) false
    ok ((if first then [] else [32]) ++ t ++ ts, depth)
/-- The loop over a circular environment: /repo/src/display.c:156-164. -/
def displayCirc (s : St) (wr : Bool) : (fuel : Nat) → (depth : Int) → (i : Nat) → (x : Int) → Res (List Byte × Int)
  | 0, _, _, _ => loop
  | _ + 1, depth, 0, _ => ok ([], depth)
  | fuel + 1, depth, i + 1, x =>
    if x ≠ c_nil then do
      let a ← s.car x
      let b ← s.car a
      let (t, depth) ← displayHelper s wr fuel 5 b false
      let d ← s.cdr x
      let (ts, depth) ← displayCirc s wr fuel depth i d
      ok (t ++ [32] ++ ts, depth)
    else ok ([], depth)
end

/-- `write_` (/repo/src/display.c:281-286), `write_error_` (288-293) and `write_port_` (295-300): what they print. -/
def writeP (s : St) (fuel : Nat) (x : Int) : Res (List Byte) := do
  let (t, _) ← displayHelper s true fuel 5 x false
  ok t

/-- `display_` (/repo/src/display.c:260-265), `display_error_` (267-272) and `display_port_` (274-279): what they print. -/
def displayP (s : St) (fuel : Nat) (x : Int) : Res (List Byte) := do
  let (t, _) ← displayHelper s false fuel 5 x false
  ok t

end Mes
