import Verif.Model.Data
/-
Model of /repo/src/math.c: the arithmetic primitives on heap numbers.  `long` has 64 bits; signed overflow is `ub`.
Argument lists are walked with a fuel argument, as in Model/Data.lean.
-/
namespace Mes
open Res

/-- The value fits a `long`. -/
def InLong (n : Int) : Prop := -9223372036854775808 ≤ n ∧ n ≤ 9223372036854775807

instance (n : Int) : Decidable (InLong n) := by unfold InLong; infer_instance

/-- The result of a signed C operation: undefined if it does not fit. -/
def ckLong (n : Int) : Res Int := if InLong n then ok n else ub

/-- Conversion to `size_t`. -/
def toSize (n : Int) : Int := n % 18446744073709551616

/-- Conversion of a `size_t` to `long` (gcc, MesCC: modulo 2^64). -/
def ofSize (u : Int) : Int := (u + 9223372036854775808) % 18446744073709551616 - 9223372036854775808

/-- `assert_number` (/repo/src/math.c:30-38) followed by reading `x->value`. -/
def numberArg (s : St) (x : Int) : Res Int := do
  let c ← s.rd x
  if c.tag ≠ .number then err .notANumber else ok c.cdr

/-- Loop of `greater_p`: /repo/src/math.c:50-59. -/
def greaterLoop (s : St) : (fuel : Nat) → (n x : Int) → Res Int
  | 0, _, _ => loop
  | fuel + 1, n, x =>
    if x = c_nil then ok c_t
    else do
      let a ← s.car x
      let _ ← numberArg s a
      let i ← carP s x
      let v ← s.cdr i
      if v ≥ n then ok c_f
      else do
        let d ← cdrP s x
        greaterLoop s fuel v d

/-- `greater_p`: /repo/src/math.c:40-61. -/
def greaterP (s : St) (fuel : Nat) (x : Int) : Res Int :=
  if x = c_nil then ok c_t
  else do
    let a ← s.car x
    let n ← numberArg s a
    let d ← s.cdr x
    greaterLoop s fuel n d

/-- Loop of `less_p`: /repo/src/math.c:73-82. -/
def lessLoop (s : St) : (fuel : Nat) → (n x : Int) → Res Int
  | 0, _, _ => loop
  | fuel + 1, n, x =>
    if x = c_nil then ok c_t
    else do
      let a ← s.car x
      let _ ← numberArg s a
      let i ← carP s x
      let v ← s.cdr i
      if v ≤ n then ok c_f
      else do
        let d ← cdrP s x
        lessLoop s fuel v d

/-- `less_p`: /repo/src/math.c:63-84. -/
def lessP (s : St) (fuel : Nat) (x : Int) : Res Int :=
  if x = c_nil then ok c_t
  else do
    let a ← s.car x
    let n ← numberArg s a
    let d ← s.cdr x
    lessLoop s fuel n d

/-- Loop of `is_p`: /repo/src/math.c:96-103; the type of the arguments is not checked. -/
def isLoop (s : St) (n : Int) : (fuel : Nat) → (x : Int) → Res Int
  | 0, _ => loop
  | fuel + 1, x =>
    if x = c_nil then ok c_t
    else do
      let i ← carP s x
      let v ← s.cdr i
      if v ≠ n then ok c_f
      else do
        let d ← cdrP s x
        isLoop s n fuel d

/-- `is_p`: /repo/src/math.c:86-105. -/
def isP (s : St) (fuel : Nat) (x : Int) : Res Int :=
  if x = c_nil then ok c_t
  else do
    let a ← s.car x
    let n ← numberArg s a
    let d ← cdrP s x
    isLoop s n fuel d

/-- The loop `while (x != cell_nil) { i = car (x); assert_number (i); v = i->value; n = n OP v; x = cdr (x); }` of
`minus` (/repo/src/math.c:117-124), `plus` (134-141), `multiply` (221-228), `logand` (238-245), `logior` (255-262) and
`logxor` (280-287). -/
def foldNumbers (s : St) (op : Int → Int → Res Int) : (fuel : Nat) → (n x : Int) → Res Int
  | 0, _, _ => loop
  | fuel + 1, n, x =>
    if x = c_nil then ok n
    else do
      let i ← carP s x
      let v ← numberArg s i
      let n ← op n v
      let d ← cdrP s x
      foldNumbers s op fuel n d

/-- `minus`: /repo/src/math.c:107-126. -/
def minus (s : St) (fuel : Nat) (x : Int) : Res (Int × St) := do
  let a ← s.car x
  let n ← numberArg s a
  let x ← cdrP s x
  let n ← if x = c_nil then ckLong (-n) else ok n
  let n ← foldNumbers s (fun n v => ckLong (n - v)) fuel n x
  makeNumber s n

/-- `plus`: /repo/src/math.c:128-143. -/
def plus (s : St) (fuel : Nat) (x : Int) : Res (Int × St) := do
  let n ← foldNumbers s (fun n v => ckLong (n + v)) fuel 0 x
  makeNumber s n

/-- `multiply`: /repo/src/math.c:215-230. -/
def multiply (s : St) (fuel : Nat) (x : Int) : Res (Int × St) := do
  let n ← foldNumbers s (fun n v => ckLong (n * v)) fuel 1 x
  makeNumber s n

/-- Loop of `divide`: /repo/src/math.c:167-181; `u` is a `size_t`. -/
def divideLoop (s : St) : (fuel : Nat) → (sign : Bool) → (u x : Int) → Res (Bool × Int)
  | 0, _, _, _ => loop
  | fuel + 1, sign, u, x =>
    if x = c_nil then ok (sign, u)
    else do
      let i ← carP s x
      let v ← numberArg s i
      let sign := (sign && decide (v > 0)) || (!sign && decide (v < 0))
      let w := toSize v
      if v = 0 then err .divideByZero
      else if u = 0 then ok (sign, u)
      else do
        let u := if w ≠ 1 then u / w else u
        let d ← cdrP s x
        divideLoop s fuel sign u d

/-- `divide`: /repo/src/math.c:145-186. -/
def divide (s : St) (fuel : Nat) (x : Int) : Res (Int × St) := do
  let (n, x) ← if x ≠ c_nil then do
      let i ← carP s x
      let v ← numberArg s i
      let d ← cdrP s x
      ok (v, d)
    else ok (1, x)
  let (sign, u) ← if n < 0 then do
      let m ← ckLong (-n)
      ok (true, m)
    else ok (false, n)
  let (sign, u) ← divideLoop s fuel sign u x
  let n := ofSize u
  let n ← if sign then ckLong (-n) else ok n
  makeNumber s n

/-- Loop of `modulo`: /repo/src/math.c:205-206: `n + w` is computed as a `size_t` and stored in a `long`. -/
def modLoop (w : Int) : (fuel : Nat) → (n : Int) → Res Int
  | 0, _ => loop
  | fuel + 1, n => if n < 0 then modLoop w fuel (ofSize (toSize (toSize n + w))) else ok n

/-- `modulo`: /repo/src/math.c:188-213. -/
def modulo (s : St) (fuel : Nat) (a b : Int) : Res (Int × St) := do
  let n ← numberArg s a
  let v ← numberArg s b
  if v = 0 then err .divideByZero
  else do
    let (sign, w) ← if v < 0 then do
        let m ← ckLong (-v)
        ok (true, m)
      else ok (false, v)
    let n ← modLoop w fuel n
    let u := toSize n
    let u := if u ≠ 0 then u % w else u
    let n := ofSize u
    let n ← if sign then ckLong (-n) else ok n
    makeNumber s n

/-- `&` on `long`. -/
def andLong (a b : Int) : Int := (BitVec.ofInt 64 a &&& BitVec.ofInt 64 b).toInt
/-- `|` on `long`. -/
def orLong (a b : Int) : Int := (BitVec.ofInt 64 a ||| BitVec.ofInt 64 b).toInt
/-- `^` on `long`. -/
def xorLong (a b : Int) : Int := (BitVec.ofInt 64 a ^^^ BitVec.ofInt 64 b).toInt
/-- `~` on `long`. -/
def notLong (a : Int) : Int := (~~~ BitVec.ofInt 64 a).toInt

/-- `logand`: /repo/src/math.c:232-247. -/
def logand (s : St) (fuel : Nat) (x : Int) : Res (Int × St) := do
  let n ← foldNumbers s (fun n v => ok (andLong n v)) fuel (-1) x
  makeNumber s n

/-- `logior`: /repo/src/math.c:249-264. -/
def logior (s : St) (fuel : Nat) (x : Int) : Res (Int × St) := do
  let n ← foldNumbers s (fun n v => ok (orLong n v)) fuel 0 x
  makeNumber s n

/-- `logxor`: /repo/src/math.c:274-289. -/
def logxor (s : St) (fuel : Nat) (x : Int) : Res (Int × St) := do
  let n ← foldNumbers s (fun n v => ok (xorLong n v)) fuel 0 x
  makeNumber s n

/-- `lognot`: /repo/src/math.c:266-272. -/
def lognot (s : St) (x : Int) : Res (Int × St) := do
  let n ← numberArg s x
  makeNumber s (notLong n)

/-- `ash`: /repo/src/math.c:291-305.  A shift by 64 or more is undefined (ISO C 6.5.7).  As in gcc, `<<` on a `long`
drops the bits shifted out, also for negative numbers, and `>>` is arithmetic. -/
def ash (s : St) (n count : Int) : Res (Int × St) := do
  let cn ← numberArg s n
  let cc ← numberArg s count
  if cc < 0 then do
    let k ← ckLong (-cc)
    ubUnless (k < 64)
    makeNumber s (cn / 2 ^ k.toNat)
  else do
    ubUnless (cc < 64)
    makeNumber s (ofSize (toSize (cn * 2 ^ cc.toNat)))

end Mes
