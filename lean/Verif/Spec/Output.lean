import Verif.Model.COut
import Verif.Spec.Stream
/- What the output functions are for. -/
namespace Mes.Spec
open C

/-- The bytes that a call is to write. -/
inductive Says (m : List UInt8) : OutCall → List UInt8 → Prop where
  | char (c : Int) : Says m (.char c) [UInt8.ofNat (c % 256).toNat]
  | text {s : Nat} {t : List UInt8} : CStr m s t → Says m (.text s) t
  | line {s : Nat} {t : List UInt8} : CStr m s t → Says m (.line s) (t ++ [10])
  | block {data size count : Nat} {t : List UInt8} : At m data t → t.length = size * count → data + t.length ≤ m.length → Says m (.block data size count) t

/-- The value that ISO C prescribes for a call that succeeds. -/
def Succeeds : OutCall → Int → Prop
  | .char c, r => r = c % 256
  | .text _, r => 0 ≤ r
  | .line _, r => 0 ≤ r
  | .block _ size count, r => r = if size = 0 then 0 else (count : Int)

/-- The value of a call in this library when everything is written. -/
def OutCall.value : OutCall → Int
  | .block _ size count => if size = 0 then 0 else (count : Int)
  | _ => 0

/-- The system takes writes of up to `n` bytes as a whole. -/
def Accepts (g : Chunks) (n : Nat) : Prop := ∀ t, ∃ c, g t = some c ∧ n ≤ c

/-- A program: calls and what they are to write, pieces of at most `n` bytes. -/
inductive SaysAll (m : List UInt8) (n : Nat) : List OutCall → List UInt8 → Prop where
  | nil : SaysAll m n [] []
  | cons {c : OutCall} {cs : List OutCall} {t ts : List UInt8} : Says m c t → t.length ≤ n → SaysAll m n cs ts → SaysAll m n (c :: cs) (t ++ ts)

end Mes.Spec
