import Verif.Model.COpen
import Verif.Spec.Bytes
/- What ISO C says about the modes of `fopen`. -/
namespace Mes.Spec
open C

/-- "r", "w" and "a". -/
inductive OpenMode where
  | read | write | append
deriving DecidableEq

def OpenMode.letter : OpenMode → UInt8
  | .read => 114
  | .write => 119
  | .append => 97

/-- What may follow: nothing, "b", "+", "+b" and "b+". -/
def openSuffixes : List (List UInt8) := [[], [98], [43], [43, 98], [98, 43]]

/-- The effect on a file. -/
def isoOpen (mode : OpenMode) (suffix : List UInt8) (file : Option (List UInt8)) : Option OpenFile :=
  let plus := suffix.contains 43
  match mode with
  | .read => file.map fun c => ⟨c, true, plus, false⟩
  | .write => some ⟨[], plus, true, false⟩
  | .append => some ⟨file.getD [], plus, true, true⟩

end Mes.Spec
