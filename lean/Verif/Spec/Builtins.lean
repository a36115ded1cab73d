import Verif.Spec.Eval
import Verif.Spec.Math
/-
What the builtins compute, as a relation on values.
-/
namespace Mes.Spec

/-- A truth value. -/
def Value.bool (b : Prop) [Decidable b] : Value := .obj (if b then c_t else c_f)

/-- Values that can be told apart by `eq?`: numbers, characters, and the predefined objects such as `#t` and `()`. -/
inductive Atomic : Value → Prop
  | int (n : Int) : Atomic (.int n)
  | char (n : Int) : Atomic (.char n)
  | fixed {a : Int} (h1 : c_nil ≤ a) (h2 : a < c_symbol_max) : Atomic (.obj a)

open Classical in
/-- `Computes arity id args result`; the number of a builtin is its line in /repo/src/builtins.c. -/
inductive Computes : Int → Int → List Value → Value → Prop
  | car {a b : Value} : Computes 1 141 [.pair a b] a
  | cdr {a b : Value} : Computes 1 142 [.pair a b] b
  | list {vs : List Value} : Computes (-1) 143 vs (listVal vs)
  | null {v : Value} : Computes 1 144 [v] (.bool (v = .obj c_nil))
  | eq {v w : Value} (hv : Atomic v) (hw : Atomic w) : Computes 2 145 [v, w] (.bool (v = w))
  | acons {k v a : Value} : Computes 3 147 [k, v, a] (.pair (.pair k v) a)
  | length {vs : List Value} : Computes 1 148 [listVal vs] (.int vs.length)
  | append {vs ws : List Value} : Computes 2 150 [listVal vs, listVal ws] (listVal (vs ++ ws))
  | cons {a b : Value} : Computes 2 171 [a, b] (.pair a b)
  | isPair {v : Value} : Computes 1 192 [v] (.bool (∃ a b, v = .pair a b))
  | code {n : Int} : Computes 1 193 [.char n] (.int n)
  | char {n : Int} (h1 : 0 ≤ n) (h2 : n < 2 ^ 31) : Computes 1 194 [.int n] (.char n)
  | greater {ns : List Int} : Computes (-1) 196 (ns.map .int) (.bool (Neighbours (· > ·) ns))
  | less {ns : List Int} : Computes (-1) 197 (ns.map .int) (.bool (Neighbours (· < ·) ns))
  | equal {ns : List Int} : Computes (-1) 198 (ns.map .int) (.bool (Neighbours (· = ·) ns))
  | negate {n : Int} (h : Word (-n)) : Computes (-1) 199 [.int n] (.int (-n))
  | minus {n m : Int} {ns : List Int} (h : ∀ k, Word (n - ((m :: ns).take k).sum)) :
      Computes (-1) 199 ((n :: m :: ns).map .int) (.int (n - (m :: ns).sum))
  | plus {ns : List Int} (h : ∀ k, Word (ns.take k).sum) : Computes (-1) 200 (ns.map .int) (.int ns.sum)
  | multiply {ns : List Int} (h : ∀ k, Word (product (ns.take k))) : Computes (-1) 203 (ns.map .int) (.int (product ns))

end Mes.Spec
