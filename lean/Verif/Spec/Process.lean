import Verif.Spec.Bytes
/- What POSIX says about the arguments of a program, about the functions that are called at the end, and about temporary names. -/
namespace Mes.Spec

/-- The arguments at `ps` are the texts `ss`; none of them is the null pointer. -/
inductive ArgTexts (m : List UInt8) : List Nat → List (List UInt8) → Prop
  | nil : ArgTexts m [] []
  | cons {p : Nat} {s : List UInt8} {ps : List Nat} {ss : List (List UInt8)} : p ≠ 0 → CStr m p s → ArgTexts m ps ss → ArgTexts m (p :: ps) (s :: ss)

/-- The calls at the end of a process: always the function that was registered last and has not been called; `adds f` is registered while `f` runs. -/
inductive EndCalls (adds : Nat → List Nat) : (registered calls : List Nat) → Prop
  | done : EndCalls adds [] []
  | call {fs : List Nat} {f : Nat} {calls : List Nat} : EndCalls adds (fs ++ adds f) calls → EndCalls adds (fs ++ [f]) (f :: calls)

/-- A text of six letters. -/
def SixLetters (l : List UInt8) : Prop := l.length = 6 ∧ ∀ b ∈ l, 97 ≤ b.toNat ∧ b.toNat ≤ 122

end Mes.Spec
