import Verif.Spec.Bytes
/- What POSIX says about the search for a program in the directories of PATH. -/
namespace Mes.Spec

/-- The text of a list of directories: with colons between them. -/
def pathText : List (List UInt8) → List UInt8
  | [] => []
  | [d] => d
  | d :: ds => d ++ 58 :: pathText ds

/-- The name of a file in a directory.  The empty text is the current directory. -/
def inDirectory (d f : List UInt8) : List UInt8 := if d = [] then f else d ++ 47 :: f

/-- The first directory in which the program is executable gives its name. -/
def firstProgram (exec : List UInt8 → Bool) (ds : List (List UInt8)) (f : List UInt8) : Option (List UInt8) :=
  (ds.map (inDirectory · f)).find? exec

/-- The name of a directory in PATH. -/
def DirName (d : List UInt8) : Prop := ∀ b ∈ d, b ≠ 58 ∧ b ≠ 0

/-- The memory is the same outside `n` bytes at `a`. -/
def SameOutside (a n : Nat) (m m' : List UInt8) : Prop :=
  m'.length = m.length ∧ ∀ i, i < a ∨ a + n ≤ i → m'[i]? = m[i]?

end Mes.Spec
