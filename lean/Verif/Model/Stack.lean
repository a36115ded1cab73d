import Verif.Model.Gc
import Verif.Model.Symbol
/- Backtraces: /repo/src/stack.c.  The printing of a frame is left out. -/
namespace Mes
open Res

/-- "frame-printer" -/
def framePrinterName : List Byte := [102, 114, 97, 109, 101, 45, 112, 114, 105, 110, 116, 101, 114]
/-- "frames" -/
def framesName : List Byte := [102, 114, 97, 109, 101, 115]

/-- `make_frame_type`: /repo/src/stack.c:38-46. -/
def makeFrameType (s : St) (fuel : Nat) : Res (Int × St) := do
  let (fields, s) ← cons s c_symbol_procedure c_nil
  let (fields, s) ← cons s fields c_nil
  let (fields, s) ← cons s c_symbol_frame fields
  makeStruct s fuel c_symbol_record_type fields c_unspecified

/-- The procedure of a frame, or a null pointer: /repo/src/stack.c:52-58. -/
def frameProcedure (s : St) (index : Int) : Res Int :=
  if index ≠ 0 then s.getStack (s.stackSize - index * gcFrameSize + 4) else ok 0

/-- `make_frame`: /repo/src/stack.c:48-65; the address 0 is the null pointer. -/
def makeFrame (s : St) (fuel : Nat) (index : Int) : Res (Int × St) := do
  let (type, s) ← makeFrameType s fuel
  let procedure ← frameProcedure s index
  let procedure := if procedure = 0 then c_f else procedure
  let (values, s) ← cons s procedure c_nil
  let (values, s) ← cons s c_symbol_frame values
  let (printer, s) ← cstringToSymbol s fuel framePrinterName
  makeStruct s fuel type values printer

/-- `make_stack_type`: /repo/src/stack.c:67-75. -/
def makeStackType (s : St) (fuel : Nat) : Res (Int × St) := do
  let (name, s) ← cstringToSymbol s fuel framesName
  let (fields, s) ← cons s name c_nil
  let (fields, s) ← cons s fields c_nil
  let (fields, s) ← cons s c_symbol_stack fields
  makeStruct s fuel c_symbol_record_type fields c_unspecified

/-- Loop of `make_stack`: /repo/src/stack.c:85-89; `n` frames are left. -/
def fillFrames (fuel : Nat) : (n : Nat) → (s : St) → (frames i : Int) → Res St
  | 0, s, _, _ => ok s
  | n + 1, s, frames, i => do
    let (frame, s) ← makeFrame s fuel i
    let (_, s) ← vectorSet s frames i frame
    fillFrames fuel n s frames (i + 1)

/-- `make_stack`: /repo/src/stack.c:77-94. -/
def makeStack (s : St) (fuel : Nat) : Res (Int × St) := do
  let (type, s) ← makeStackType s fuel
  let size := (s.stackSize - s.sp).tdiv gcFrameSize
  let (frames, s) ← makeVector s size c_unspecified
  let s ← fillFrames fuel size.toNat s frames 0
  let (values, s) ← cons s frames c_nil
  let (values, s) ← cons s c_symbol_stack values
  makeStruct s fuel type values c_unspecified

/-- `stack_length`: /repo/src/stack.c:96-101. -/
def stackLength (s : St) (stack : Int) : Res (Int × St) := do
  let (frames, s) ← structRef s stack 3
  vectorLength s frames

/-- `stack_ref`: /repo/src/stack.c:103-108, with `vector_ref`: /repo/src/vector.c:82-87, and the index as a number. -/
def stackRef (s : St) (stack index : Int) : Res (Int × St) := do
  let (frames, s) ← structRef s stack 3
  vectorRef s frames index

end Mes
