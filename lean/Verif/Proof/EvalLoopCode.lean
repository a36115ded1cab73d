import Verif.Proof.EvalSample
/-
The code of a loop for the examples about tail calls.
-/
namespace Mes
open Res Spec

variable {mes : Bool}

/-- `(begin (set! x (lambda (n a) (if (= n 0) a (x (- n 1) (+ a n))))) (x m 0))` -/
def loopCode (m : Int) : List Cell :=
  [pair c_symbol_begin 199, pair 201 200, pair 227 c_nil, pair c_symbol_set_x 202, pair y_x 203, pair 204 c_nil,
   pair c_symbol_lambda 205, pair 207 206, pair 209 c_nil, pair y_n 208, pair y_a c_nil, pair c_symbol_if 210,
   pair 213 211, pair y_a 212, pair 217 c_nil, pair y_eq 214, pair y_n 215, pair 216 c_nil, num 0,
   pair y_x 218, pair 220 219, pair 224 c_nil, pair y_minus 221, pair y_n 222, pair 223 c_nil, num 1,
   pair y_plus 225, pair y_a 226, pair y_n c_nil, pair y_x 228, pair 230 229, pair 216 c_nil, num m]

def loopTest : Expr := .app (.var y_eq) [.var y_n, .const (.int 0)]
def loopNext : Expr := .app (.var y_x) [.app (.var y_minus) [.var y_n, .const (.int 1)], .app (.var y_plus) [.var y_a, .var y_n]]
def loopBody : Expr := .ite loopTest (.var y_a) loopNext
def loopSet : Expr := .set y_x (.lam [y_n, y_a] none [loopBody])
def loopExpr (m : Int) : Expr := .begin [loopSet, .app (.var y_x) [.const (.int m), .const (.int 0)]]

theorem loop_body (m : Int) : IsCode (prog (loopCode m) 198) progGhost mes progNames 209 loopBody := by
  have hx := prog_var mes (loopCode m) 198 (x := y_x) (by decide)
  have hn := prog_var mes (loopCode m) 198 (x := y_n) (by decide)
  have ha := prog_var mes (loopCode m) 198 (x := y_a) (by decide)
  have hp := prog_var mes (loopCode m) 198 (x := y_plus) (by decide)
  have hm := prog_var mes (loopCode m) 198 (x := y_minus) (by decide)
  have he := prog_var mes (loopCode m) 198 (x := y_eq) (by decide)
  have P : ∀ a : Int, 198 ≤ a ∧ a < 198 + (33 : Nat) → ((prog (loopCode m) 198).cell a).tag = .pair → FixedPair (prog (loopCode m) 198) progGhost.chg a :=
    fun a => prog_pair 33 rfl
  have C : ∀ a k : Int, 198 ≤ a ∧ a < 198 + (33 : Nat) → (prog (loopCode m) 198).cell a = num k →
    IsCode (prog (loopCode m) 198) progGhost mes progNames a (.const (.int k)) := fun a k => prog_num mes 33 rfl
  have h0 := C 216 0 (by decide) rfl
  have h1 := C 223 1 (by decide) rfl
  have sym : (1 : Int) ≠ c_symbol_primitive_load := by decide
  have lit : (0 : Int) ≠ c_symbol_primitive_load := by decide
  have test : IsCode (prog (loopCode m) 198) progGhost mes progNames 213 loopTest :=
    .app (P 213 (by decide) rfl) (show ¬ SpecialForm y_eq by decide) he
      (.cons (P 214 (by decide) rfl) hn sym (.cons (P 215 (by decide) rfl) h0 lit .nil)) (fun _ => trivial)
  have dec : IsCode (prog (loopCode m) 198) progGhost mes progNames 220 (.app (.var y_minus) [.var y_n, .const (.int 1)]) :=
    .app (P 220 (by decide) rfl) (show ¬ SpecialForm y_minus by decide) hm
      (.cons (P 221 (by decide) rfl) hn sym (.cons (P 222 (by decide) rfl) h1 lit .nil)) (fun _ => trivial)
  have add : IsCode (prog (loopCode m) 198) progGhost mes progNames 224 (.app (.var y_plus) [.var y_a, .var y_n]) :=
    .app (P 224 (by decide) rfl) (show ¬ SpecialForm y_plus by decide) hp
      (.cons (P 225 (by decide) rfl) ha sym (.cons (P 226 (by decide) rfl) hn sym .nil)) (fun _ => trivial)
  have next : IsCode (prog (loopCode m) 198) progGhost mes progNames 217 loopNext :=
    .app (P 217 (by decide) rfl) (show ¬ SpecialForm y_x by decide) hx
      (.cons (P 218 (by decide) rfl) dec (show y_minus ≠ c_symbol_primitive_load by decide)
        (.cons (P 219 (by decide) rfl) add (show y_plus ≠ c_symbol_primitive_load by decide) .nil)) (fun _ => trivial)
  exact .ite (P 209 (by decide) rfl) rfl (P 210 (by decide) rfl) test (P 211 (by decide) rfl) ha (P 212 (by decide) rfl) next

theorem loop_code (m : Int) : IsCode (prog (loopCode m) 198) progGhost mes progNames 198 (loopExpr m) := by
  have hx := prog_var mes (loopCode m) 198 (x := y_x) (by decide)
  have P : ∀ a : Int, 198 ≤ a ∧ a < 198 + (33 : Nat) → ((prog (loopCode m) 198).cell a).tag = .pair → FixedPair (prog (loopCode m) 198) progGhost.chg a :=
    fun a => prog_pair 33 rfl
  have C : ∀ a k : Int, 198 ≤ a ∧ a < 198 + (33 : Nat) → (prog (loopCode m) 198).cell a = num k →
    IsCode (prog (loopCode m) 198) progGhost mes progNames a (.const (.int k)) := fun a k => prog_num mes 33 rfl
  have h0 := C 216 0 (by decide) rfl
  have hm' := C 230 m (by decide) rfl
  have lit : (0 : Int) ≠ c_symbol_primitive_load := by decide
  have lam : IsCode (prog (loopCode m) 198) progGhost mes progNames 204 (.lam [y_n, y_a] none [loopBody]) :=
    .lam (P 204 (by decide) rfl) rfl (P 205 (by decide) rfl)
      (.cons (P 207 (by decide) rfl) (prog_name _ _ (x := y_n) (by decide)).text.valid rfl
        (.cons (P 208 (by decide) rfl) (prog_name _ _ (x := y_a) (by decide)).text.valid rfl .nil))
      (prog_body _ _ (.cons (P 206 (by decide) rfl) (loop_body m) (show c_symbol_if ≠ c_symbol_primitive_load by decide) .nil)) nofun
  have set : IsCode (prog (loopCode m) 198) progGhost mes progNames 201 loopSet :=
    .set (P 201 (by decide) rfl) rfl (P 202 (by decide) rfl) (.name (x := y_x) (prog_name _ _ (by decide)) (show c_symbol_max ≤ y_x by decide))
      (P 203 (by decide) rfl) lam
  have call : IsCode (prog (loopCode m) 198) progGhost mes progNames 227 (.app (.var y_x) [.const (.int m), .const (.int 0)]) :=
    .app (P 227 (by decide) rfl) (show ¬ SpecialForm y_x by decide) hx
      (.cons (P 228 (by decide) rfl) hm' lit (.cons (P 229 (by decide) rfl) h0 lit .nil)) (fun _ => trivial)
  exact .begin (P 198 (by decide) rfl) rfl (.cons (P 199 (by decide) rfl) set (show c_symbol_set_x ≠ c_symbol_primitive_load by decide)
    (.cons (P 200 (by decide) rfl) call (show y_x ≠ c_symbol_primitive_load by decide) .nil)) nofun

end Mes
