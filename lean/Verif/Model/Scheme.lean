import Verif.Model.Math
/-
Some Scheme functions of /repo/mes/module/mes/scm.mes and of the compiler MesCC (/repo/module/mescc), transcribed into
functions on numbers and texts.

The arithmetic is the one of /repo/src/math.c: the functions `quo`, `modu`, `shift` below are `divide`, `modulo` and `ash` of
Model/Math without the memory (theorems `C53_quotient`, `C55_modulo` and `C55_shift` say so), sums, differences and products are
undefined when they do not fit a `long`.

Simplified: a string is the list of its characters, which are all below 128 here, so that `string->list` and `list->string` do
nothing; a procedure call does not run out of memory.
-/
namespace Mes.Scm
open Res

/-- `(/ n v)`: /repo/src/math.c:145-186 with two arguments. -/
def quo (n v : Int) : Res Int := do
  let (sign, u) ← if n < 0 then do
      let m ← ckLong (-n)
      ok (true, m)
    else ok (false, n)
  let sign := (sign && decide (v > 0)) || (!sign && decide (v < 0))
  let w := toSize v
  if v = 0 then err .divideByZero
  else
    let u := if u = 0 then u else if w ≠ 1 then u / w else u
    let n := ofSize u
    if sign then ckLong (-n) else ok n

/-- `(modulo n v)`: /repo/src/math.c:188-213. -/
def modu (fuel : Nat) (n v : Int) : Res Int := do
  if v = 0 then err .divideByZero
  else do
    let (sign, w) ← if v < 0 then do
        let m ← ckLong (-v)
        ok (true, m)
      else ok (false, v)
    let n ← modLoop w fuel n
    let u := toSize n
    let u := if u ≠ 0 then u % w else u
    let n := ofSize u
    if sign then ckLong (-n) else ok n

/-- `(ash n count)`: /repo/src/math.c:291-305. -/
def shift (n count : Int) : Res Int := do
  if count < 0 then do
    let k ← ckLong (-count)
    ubUnless (k < 64)
    ok (n / 2 ^ k.toNat)
  else do
    ubUnless (count < 64)
    ok (ofSize (toSize (n * 2 ^ count.toNat)))

/-- `>=` of two numbers: /repo/mes/module/mes/scm.mes:322-324. -/
def ge (a b : Int) : Bool := decide (a > b) || decide (a = b)

/-- `<=` of two numbers: /repo/mes/module/mes/scm.mes:318-320. -/
def le (a b : Int) : Bool := decide (a < b) || decide (a = b)

/-- `abs`: /repo/mes/module/mes/scm.mes:350-351. -/
def abs (x : Int) : Res Int := if ge x 0 then ok x else ckLong (-x)

/-- `remainder`: /repo/mes/module/mes/scm.mes:326-327. -/
def remainder (x y : Int) : Res Int := do
  let q ← quo x y
  let p ← ckLong (q * y)
  ckLong (x - p)

/-! ### Numbers and texts -/

/-- The loop of `number->string`: /repo/mes/module/mes/scm.mes:264-270. -/
def digitLoop (radix : Int) : (fuel : Nat) → (n : Int) → (lst : List UInt8) → Res (List UInt8)
  | 0, _, _ => loop
  | fuel + 1, n, lst => do
    let r ← remainder n radix
    let i ← abs r
    let c ← ckLong (i + (if i < 10 then 48 else 97 - 10))
    let lst := UInt8.ofNat c.toNat :: lst
    let n ← quo n radix
    if 0 = n then ok lst else digitLoop radix fuel n lst

/-- `number->string`: /repo/mes/module/mes/scm.mes:261-270. -/
def numberToString (fuel : Nat) (n radix : Int) : Res (List UInt8) := do
  let sign := if n < 0 then [45] else []
  let m ← abs n
  let lst ← digitLoop radix fuel m []
  ok (sign ++ lst)

/-- The code of a character. -/
def ord (c : UInt8) : Int := c.toNat

mutual
/-- `string->number`: /repo/mes/module/mes/scm.mes:228-257; `none` is `#f`. -/
def stringToNumber : (fuel : Nat) → (s : List UInt8) → (rest : Option Int) → Res (Option Int)
  | 0, _, _ => loop
  | fuel + 1, s, rest =>
    if 2 ≤ s.length ∧ s.take 2 = [35, 120] then stringToNumber fuel (s.drop 2) (some 16)
    else match s with
      | [] => ok none
      | c :: cs =>
        let radix := rest.getD 10
        let sign : Int := if c = 45 then -1 else 1
        numberLoop radix sign fuel (if sign = -1 then cs else c :: cs) 0

/-- Its loop: /repo/mes/module/mes/scm.mes:235-257. -/
def numberLoop (radix sign : Int) : (fuel : Nat) → (lst : List UInt8) → (n : Int) → Res (Option Int)
  | 0, _, _ => loop
  | fuel + 1, lst, n =>
    match lst with
    | [] => do
      let r ← ckLong (sign * n)
      ok (some r)
    | c :: cs =>
      let i := ord c
      if ge i 48 && le i 57 then do
        let p ← ckLong (n * radix)
        let n ← ckLong (p + (i - 48))
        numberLoop radix sign fuel cs n
      else if decide (radix = 16) && ge i 97 && le i 102 then do
        let p ← ckLong (n * radix)
        let n ← ckLong (p + (i - (97 - 10)))
        numberLoop radix sign fuel cs n
      else if decide (radix = 16) && ge i 65 && le i 70 then do
        let p ← ckLong (n * radix)
        let n ← ckLong (p + (i - (65 - 10)))
        numberLoop radix sign fuel cs n
      else if i = 46 then
        match cs with
        | [] => ok (some n)
        | _ :: _ => do
          let fraction ← stringToNumber fuel cs none
          ok (match fraction with | none => none | some _ => some n)
      else ok none
end

/-! ### MesCC -/

/-- `(modulo (ash value -k) #x100)`. -/
def byteAt (fuel : Nat) (value k : Int) : Res Int := do
  let v ← shift value (-k)
  modu fuel v 256

/-- `int->bv8`: /repo/module/mescc/as.scm:50-53 and /repo/module/mescc/bytevectors.scm:67-71. -/
def intToBv8 (fuel : Nat) (value : Int) : Res (List Int) := do
  let b ← modu fuel value 256
  ok [b]

/-- `int->bv16`: /repo/module/mescc/as.scm:45-48 and /repo/module/mescc/bytevectors.scm:58-65. -/
def intToBv16 (fuel : Nat) (value : Int) : Res (List Int) := do
  let b0 ← modu fuel value 256
  let b1 ← byteAt fuel value 8
  ok [b0, b1]

/-- `int->bv32`: /repo/module/mescc/as.scm:40-43 and /repo/module/mescc/bytevectors.scm:47-56. -/
def intToBv32 (fuel : Nat) (value : Int) : Res (List Int) := do
  let b0 ← modu fuel value 256
  let b1 ← byteAt fuel value 8
  let b2 ← byteAt fuel value 16
  let b3 ← byteAt fuel value 24
  ok [b0, b1, b2, b3]

/-- `int->bv64`: /repo/module/mescc/as.scm:35-38 and /repo/module/mescc/bytevectors.scm:32-45. -/
def intToBv64 (fuel : Nat) (value : Int) : Res (List Int) := do
  let b0 ← modu fuel value 256
  let b1 ← byteAt fuel value 8
  let b2 ← byteAt fuel value 16
  let b3 ← byteAt fuel value 24
  let b4 ← byteAt fuel value 32
  let b5 ← byteAt fuel value 40
  let b6 ← byteAt fuel value 48
  let b7 ← byteAt fuel value 56
  ok [b0, b1, b2, b3, b4, b5, b6, b7]

/-- `text->M1` of a number: /repo/module/mescc/M1.scm:138-142 (`hex?` is `#t`). -/
def textToM1 (fuel : Nat) (o : Int) : Res (List UInt8) := do
  let o ← if o < 128 then ok o else ckLong (o - 256)
  let t ← numberToString fuel o 16
  ok ([33, 48, 120] ++ (if ge o 0 && decide (o < 16) then [48] else []) ++ t)

/-- `hex2:immediate1`: /repo/module/mescc/M1.scm:79-81. -/
def immediate1 (fuel : Nat) (o : Int) : Res (List UInt8) := do
  let t ← numberToString fuel o 16
  ok ([33, 48, 120] ++ t)

/-- `hex2:immediate2`: /repo/module/mescc/M1.scm:83-85. -/
def immediate2 (fuel : Nat) (o : Int) : Res (List UInt8) := do
  let t ← numberToString fuel o 16
  ok ([64, 48, 120] ++ t)

/-- `hex2:immediate4`: /repo/module/mescc/M1.scm:87-89; `hex2:immediate` (75-77) is the same. -/
def immediate4 (fuel : Nat) (o : Int) : Res (List UInt8) := do
  let t ← numberToString fuel o 16
  ok ([37, 48, 120] ++ t)

/-- The upper half in `hex2:immediate8`: /repo/module/mescc/M1.scm:96-97. -/
def upperHalf (fuel : Nat) (o : Int) : Res (List UInt8) :=
  if o < 0 then ok [45, 49] else do
    let hi ← quo o 0x100000000
    numberToString fuel hi 16

/-- `hex2:immediate8`: /repo/module/mescc/M1.scm:93-101, when Mes was not compiled by `mesc`. -/
def immediate8 (fuel : Nat) (o : Int) : Res (List UInt8) := do
  let lo ← modu fuel o 0x100000000
  let t ← numberToString fuel lo 16
  let h ← upperHalf fuel o
  ok ([37, 48, 120] ++ t ++ [32, 37, 48, 120] ++ h)

end Mes.Scm
