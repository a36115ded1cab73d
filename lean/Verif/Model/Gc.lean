import Verif.Model.Heap
/-
Model of the garbage collector: /repo/src/gc.c:323-730.

The collector reads and writes addresses that are not allocated: everything inside the block that was malloc'ed for cells
is accessible, an access outside is undefined.  `g_debug` is 0 and `MES_DUMP` is not set, so nothing is printed.  The clock is
not modelled.

`gc_up_arena` (/repo/src/gc.c:340-374) is not modelled: its only call (613-631) is guarded by
`cast_voidp_to_charp (g_cells) == g_arena + M2_CELL_SIZE`, where `g_cells` is `sizeof (struct scm)` = 24 bytes behind
`g_arena` and `M2_CELL_SIZE` is 1 (33, 105), so that it is never reached except when compiled by M2-Planet.
-/
namespace Mes
open Res

namespace St

/-- Read a cell of the block. -/
def rdRaw (s : St) (a : Int) : Res Cell := if 1 ≤ a ∧ a < s.limit then ok (s.cell a) else ub
/-- Write a cell of the block. -/
def putRaw (s : St) (a : Int) (c : Cell) : Res St := if 1 ≤ a ∧ a < s.limit then ok (s.upd a c) else ub

end St

/-- `gc_init_news`: /repo/src/gc.c:323-338; gives `g_news`. -/
def gcInitNews (s : St) : Res (Int × St) := do
  let a ← s.rdRaw 1
  let s ← s.putRaw s.free { tag := .vector, car := a.car, cdr := s.free + 1 }
  let z ← s.rdRaw (s.free + 1)
  let s ← s.putRaw (s.free + 1) { z with tag := .char, cdr := 110 }
  ok (s.free + 1, s)

/-- The loop over the elements of a vector or struct in `gc_copy`: /repo/src/gc.c:497-501; `n` elements are left, the
next one at `v`. -/
def gcCopyElements : (n : Nat) → (s : St) → (v : Int) → Res St
  | 0, s, _ => ok s
  | n + 1, s, v => do
    let c ← s.rdRaw v
    let s ← s.putRaw s.free { c with bytes := [] }
    gcCopyElements n { s with free := s.free + 1 } (v + 1)

/-- The middle of `gc_copy`, for the new cell at `new`: /repo/src/gc.c:493-526. -/
def gcCopyRest (s : St) (new : Int) (c : Cell) : Res St :=
  if c.tag = .struct ∨ c.tag = .vector then do
    let s ← s.putRaw new { c with cdr := s.free, bytes := [] }
    gcCopyElements c.car.toNat s c.cdr
  else if c.tag = .bytes then do
    ubUnless (0 ≤ c.car ∧ c.car.toNat ≤ c.bytes.length)
    let s := { s with free := s.free + (bytesCells c.car.toNat - 1) }
    ubUnless (s.free ≤ s.limit)
    s.putRaw new { c with bytes := c.bytes.take c.car.toNat }
  else ok s

/-- `gc_copy`: /repo/src/gc.c:486-530. -/
def gcCopy (s : St) (old : Int) : Res (Int × St) := do
  let c ← s.rdRaw old
  if c.tag = .brokenHeart then ok (c.car, s)
  else do
    let new := s.free
    let s ← s.putRaw new { c with bytes := [] }
    let s ← gcCopyRest { s with free := s.free + 1 } new c
    let o ← s.rdRaw old
    let s ← s.putRaw old { o with tag := .brokenHeart, car := new }
    ok (new, s)

/-- `scan->car = gc_copy (scan->car)` for the types where the first word is an address: /repo/src/gc.c:559-568. -/
def gcScanCar (s : St) (scan : Int) (t : Tag) : Res St :=
  if t = .macro ∨ t = .pair ∨ t = .ref ∨ t = .variable then do
    let c ← s.rdRaw scan
    let (x, s) ← gcCopy s c.car
    let c ← s.rdRaw scan
    s.putRaw scan { c with car := x }
  else ok s

/-- The same for the second word: /repo/src/gc.c:570-587. -/
def gcScanCdr (s : St) (scan : Int) (t : Tag) : Res St :=
  if t = .closure ∨ t = .continuation ∨ t = .keyword ∨ t = .macro ∨ t = .pair ∨ t = .port ∨ t = .special ∨ t = .string
      ∨ t = .symbol ∨ t = .values then do
    let c ← s.rdRaw scan
    let (x, s) ← gcCopy s c.cdr
    let c ← s.rdRaw scan
    s.putRaw scan { c with cdr := x }
  else ok s

/-- The loop of `gc_loop`: /repo/src/gc.c:553-592. -/
def gcLoop : (fuel : Nat) → (s : St) → (scan : Int) → Res St
  | 0, _, _ => loop
  | fuel + 1, s, scan =>
    if scan < s.free then do
      let c ← s.rdRaw scan
      if c.tag = .brokenHeart then abort
      else do
        let s ← gcScanCar s scan c.tag
        let s ← gcScanCdr s scan c.tag
        if c.tag = .bytes then do
          let c ← s.rdRaw scan
          gcLoop fuel s (scan + bytesCells c.car.toNat)
        else gcLoop fuel s (scan + 1)
    else ok s

/-- One cell as `gc_cellcpy` stores it, `dist` cells further down: /repo/src/gc.c:396-427. -/
def gcShift (dist : Int) (c : Cell) : Cell where
  tag := c.tag
  car := if c.tag = .macro ∨ c.tag = .pair ∨ c.tag = .ref ∨ c.tag = .variable then c.car - dist else c.car
  cdr := if c.tag = .bytes ∨ c.tag = .closure ∨ c.tag = .continuation ∨ c.tag = .keyword ∨ c.tag = .macro ∨ c.tag = .pair
      ∨ c.tag = .port ∨ c.tag = .special ∨ c.tag = .string ∨ c.tag = .struct ∨ c.tag = .symbol ∨ c.tag = .values
      ∨ c.tag = .vector then c.cdr - dist else c.cdr
  bytes := if c.tag = .bytes then c.bytes.take c.car.toNat else []

/-- `gc_cellcpy`: /repo/src/gc.c:383-458.  `memcpy` between overlapping objects is undefined; the check here is for the
whole cells. -/
def gcCellcpy : (fuel : Nat) → (s : St) → (dest src n : Int) → Res St
  | 0, _, _, _, _ => loop
  | fuel + 1, s, dest, src, n =>
    if n = 0 then ok s
    else do
      let c ← s.rdRaw src
      if c.tag = .brokenHeart then abort
      else if c.tag = .bytes then do
        ubUnless (0 ≤ c.car ∧ c.car.toNat ≤ c.bytes.length ∧ bytesCells c.car.toNat ≤ src - dest)
        let s ← s.putRaw dest (gcShift (src - dest) c)
        let i := bytesCells c.car.toNat
        gcCellcpy fuel s (dest + i) (src + i) (n - i)
      else do
        let s ← s.putRaw dest (gcShift (src - dest) c)
        gcCellcpy fuel s (dest + 1) (src + 1) (n - 1)

/-- `gc_flip`: /repo/src/gc.c:460-484. -/
def gcFlip (s : St) (fuel : Nat) (news : Int) : Res St := do
  let s := if s.free - news > s.jam then { s with jam := (s.free - news) + (s.free - news) / 2 } else s
  let s ← gcCellcpy fuel s g_cells news (s.free - news)
  let dist := news - g_cells
  ok { s with
    free := s.free - dist
    symbols := s.symbols - dist
    macros := s.macros - dist
    ports := s.ports - dist
    m0 := s.m0 - dist
    stack := fun i => if s.sp ≤ i ∧ i < s.stackSize then s.stack i - dist else s.stack i }

/-- `for (s = cell_nil; s < g_symbol_max; …) gc_copy (s)`: /repo/src/gc.c:641-642; `n` cells are left. -/
def gcCopyFixed : (n : Nat) → (s : St) → (a : Int) → Res St
  | 0, s, _ => ok s
  | n + 1, s, a => do
    let (_, s) ← gcCopy s a
    gcCopyFixed n s (a + 1)

/-- The loop over the stack: /repo/src/gc.c:649-651; `n` entries are left. -/
def gcCopyStack : (n : Nat) → (s : St) → (i : Int) → Res St
  | 0, s, _ => ok s
  | n + 1, s, i => do
    let (x, s) ← gcCopy s (s.stack i)
    gcCopyStack n { s with stack := fun j => if j = i then x else s.stack j } (i + 1)

/-- `gc_`: /repo/src/gc.c:604-654. -/
def gc_ (s : St) (fuel : Nat) : Res St := do
  let (news, s) ← gcInitNews s
  let s := { s with free := news + 1 }
  let newNil := s.free
  let s ← gcCopyFixed (c_symbol_max - c_nil).toNat s c_nil
  let (x, s) ← gcCopy s s.symbols
  let s := { s with symbols := x }
  let (x, s) ← gcCopy s s.macros
  let s := { s with macros := x }
  let (x, s) ← gcCopy s s.ports
  let s := { s with ports := x }
  let (x, s) ← gcCopy s s.m0
  let s := { s with m0 := x }
  let s ← gcCopyStack (s.stackSize - s.sp).toNat s s.sp
  let s ← gcLoop fuel s newNil
  gcFlip s fuel news

/-- `GC_FRAME_SIZE`: /repo/include/mes/constants.h. -/
abbrev gcFrameSize : Int := 5

/-- Write an entry of `g_stack_array`. -/
def St.setStack (s : St) (i v : Int) : Res St :=
  if 0 ≤ i ∧ i < s.stackSize then ok { s with stack := fun j => if j = i then v else s.stack j } else ub
/-- Read an entry of `g_stack_array`. -/
def St.getStack (s : St) (i : Int) : Res Int := if 0 ≤ i ∧ i < s.stackSize then ok (s.stack i) else ub

/-- `gc_push_frame`: /repo/src/gc.c:694-705. -/
def gcPushFrame (s : St) : Res St := do
  assert (gcFrameSize ≤ s.sp)
  let s ← s.setStack (s.sp - 1) c_f
  let s ← s.setStack (s.sp - 2) s.r0
  let s ← s.setStack (s.sp - 3) s.r1
  let s ← s.setStack (s.sp - 4) s.r2
  let s ← s.setStack (s.sp - 5) s.r3
  ok { s with sp := s.sp - gcFrameSize }

/-- `gc_peek_frame`: /repo/src/gc.c:707-715. -/
def gcPeekFrame (s : St) : Res St := do
  let r3 ← s.getStack s.sp
  let r2 ← s.getStack (s.sp + 1)
  let r1 ← s.getStack (s.sp + 2)
  let r0 ← s.getStack (s.sp + 3)
  let _ ← s.getStack (s.sp + 4)
  ok { s with r0 := r0, r1 := r1, r2 := r2, r3 := r3 }

/-- `gc_pop_frame`: /repo/src/gc.c:717-722. -/
def gcPopFrame (s : St) : Res St := do
  let s ← gcPeekFrame s
  ok { s with sp := s.sp + gcFrameSize }

/-- `gc`: /repo/src/gc.c:656-692. -/
def gc (s : St) (fuel : Nat) : Res St := do
  let s ← gcPushFrame s
  let s ← gc_ s fuel
  gcPopFrame s

/-- `gc_check`: /repo/src/gc.c:595-602. -/
def gcCheck (s : St) (fuel : Nat) : Res St :=
  if s.arena ≤ s.free - g_cells + s.safety then gc s fuel else ok s

end Mes
