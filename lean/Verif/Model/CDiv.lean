import Verif.Model.Res
/-
Model of the software division of /repo/lib/mes/div.c.  `unsigned long` has `w` bits (32 or 64); values are naturals
below 2^w and every left shift is taken modulo 2^w.
-/
namespace Mes.C
open Res

/-- `__mesabi_log2i`: /repo/lib/mes/div.c:68-89.  The loop halves `n`; the fuel is `n` itself. -/
def log2iLoop : (fuel : Nat) → (n D i : Nat) → Nat
  | 0, _, _, i => i
  | fuel + 1, n, D, i =>
    if n ≥ 2 then
      let n := n / 2
      let D1 := D >>> n
      if D1 > 0 then log2iLoop fuel n D1 (i + n) else log2iLoop fuel n D i
    else i

/-- `__mesabi_log2i`: /repo/lib/mes/div.c:68-89. -/
def log2i (w D : Nat) : Nat := log2iLoop w w D 0

/-- Loop of `__mesabi_uldiv1`: /repo/lib/mes/div.c:151-159. -/
def uldivLoop (w : Nat) : (j D quotient R : Nat) → Nat × Nat
  | 0, _, quotient, R => (quotient, R)
  | j + 1, D, quotient, R =>
    let quotient := (quotient <<< 1) % 2 ^ w
    if R ≥ D then uldivLoop w j (D >>> 1) (quotient ||| 1) (R - D)
    else uldivLoop w j (D >>> 1) quotient R

/-- `__mesabi_uldiv1`: /repo/lib/mes/div.c:143-162. -/
def uldiv1 (w N D : Nat) : Nat × Nat :=
  let j := w - log2i w D
  uldivLoop w j ((D <<< (j - 1)) % 2 ^ w) 0 N

/-- `__mesabi_uldiv`: /repo/lib/mes/div.c:190-226, returning quotient and remainder.  Division by zero raises SIGFPE or
writes through NULL (/repo/lib/mes/div.c:40-49). -/
def uldiv (w a b : Nat) : Res (Nat × Nat) :=
  if b = 64 then ok (a >>> 6, a &&& 63)
  else if b = 32 then ok (a >>> 5, a &&& 31)
  else if b = 16 then ok (a >>> 4, a &&& 15)
  else if b = 8 then ok (a >>> 3, a &&& 7)
  else if b = 4 then ok (a >>> 2, a &&& 3)
  else if b = 2 then ok (a >>> 1, a &&& 1)
  else if b = 1 then ok (a, 0)
  else if b = 0 then abort
  else ok (uldiv1 w a b)

/-- Smallest `long`. -/
def longMin (w : Nat) : Int := -(2 ^ (w - 1) : Nat)

/-- A `long` result: overflow is undefined. -/
def long (w : Nat) (x : Int) : Res Int := if longMin w ≤ x ∧ x ≤ -(longMin w) - 1 then ok x else ub

/-- Repeated subtraction for `a = LONG_MIN`: /repo/lib/mes/div.c:264-270, `for (x = 0; a <= -b; a += b) ++x`. -/
def ldivMinLoop (b : Int) : (fuel : Nat) → (x a : Int) → Res (Int × Int)
  | 0, _, _ => loop
  | fuel + 1, x, a => if a ≤ -b then ldivMinLoop b fuel (x + 1) (a + b) else ok (x, a)

/-- `__mesabi_ldiv`: /repo/lib/mes/div.c:231-274, returning quotient and remainder. -/
def ldiv (w : Nat) (a b : Int) : Res (Int × Int) :=
  let negate : Bool := (decide (a < 0)) ^^ (decide (b < 0))
  if b = longMin w then abort
  else if a ≠ longMin w then do
    let ua := if a < 0 then -a else a
    let ub' := if b < 0 then -b else b
    let (q, r) ← uldiv w ua.toNat ub'.toNat
    let q ← long w (if negate then -(q : Int) else q)
    ok (q, if a < 0 then -(r : Int) else r)
  else
    let b := if b < 0 then -b else b
    if b = 1 then do
      let q ← long w (if !negate then -a else a)
      ok (q, 0)
    else if b = 0 then abort
    else do
      let (x, r) ← ldivMinLoop b (2 ^ w) 0 a
      ok (if negate then -x else x, r)

/-- `__mesabi_idiv`, `__mesabi_imod`: /repo/lib/mes/div.c:276-290. -/
def idiv (w : Nat) (a b : Int) : Res Int := do let (q, _) ← ldiv w a b; ok q
def imod (w : Nat) (a b : Int) : Res Int := do let (_, r) ← ldiv w a b; ok r

/-- `__mesabi_udiv`, `__mesabi_umod`: /repo/lib/mes/div.c:292-305. -/
def udiv (w a b : Nat) : Res Nat := do let (q, _) ← uldiv w a b; ok q
def umod (w a b : Nat) : Res Nat := do let (_, r) ← uldiv w a b; ok r

end Mes.C
