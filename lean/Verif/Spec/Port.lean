import Verif.Model.Port
import Verif.Spec.Text
/-
Text that is still to be read from the current input port.
-/
namespace Mes.Spec

/-- The current input port is an open file in which the bytes `bs` are still to come; with `clear` nothing has been pushed
back. -/
structure FileInput (w : In) (bs : List Byte) (clear : Bool) : Prop where
  fd : 0 ≤ w.stdin ∧ w.stdin ≤ 512
  text : (w.unget w.stdin < 0 ∧ w.file w.stdin = bs) ∨
    (clear = false ∧ ∃ b : Byte, w.unget w.stdin = code b ∧ bs = b :: w.file w.stdin)

/-- The list of ports at `x` has the port at `p`, which is the first one with the number `n`, behind fewer than `k` others. -/
inductive PortIn (s : St) (n : Int) : (k : Nat) → (x p : Int) → Prop
  | here {k : Nat} {x : Int} (hx : s.Valid x) (ht : (s.cell x).tag = .pair) (hp : s.Valid (s.cell x).car)
      (hn : (s.cell (s.cell x).car).car = n) : PortIn s n (k + 1) x (s.cell x).car
  | next {k : Nat} {x p : Int} (hx : s.Valid x) (ht : (s.cell x).tag = .pair) (hp : s.Valid (s.cell x).car)
      (hpt : (s.cell (s.cell x).car).tag = .port) (hn : (s.cell (s.cell x).car).car ≠ n)
      (h : PortIn s n k (s.cell x).cdr p) : PortIn s n (k + 1) x p

/-- The current input port is the string port at `p`, in which the ASCII text `bs` is still to come; it never had more than
`m` bytes. -/
structure StringInput (s : St) (w : In) (k : Nat) (m : Nat) (p : Int) (bs : List Byte) : Prop where
  stdin : w.stdin < 0
  port : PortIn s w.stdin k s.ports p
  tag : (s.cell p).tag = .port
  text : IsString s (s.cell p).cdr bs
  ascii : ∀ b ∈ bs, b.toNat < 128
  length : bs.length ≤ m ∧ m ≤ s.maxString

/-- The text `bs` is still to come from the current input port: an open file, or the string port at `p`.  Taking a
character from a string port takes `stringCells m` cells of memory at most, and the search for the port `k` steps. -/
inductive Input (m k : Nat) (p : Int) (s : St) (w : In) (bs : List Byte) (clear : Bool) : Prop
  | file (hp : p = 0) (h : FileInput w bs clear) : Input m k p s w bs clear
  | string (h : StringInput s w k m p bs) : Input m k p s w bs clear

end Mes.Spec
