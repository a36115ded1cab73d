import Verif.Proof.EvalRun
import Verif.Proof.EvalPrim
import Verif.Proof.EvalSample
import Verif.Proof.Tail
import Verif.Proof.EvalLoop
/-
Properties C30, C31, C33, C34: the evaluator (/repo/src/eval-apply.c:331-978) follows the semantics of the core language
(Spec/Eval).

The theorems are about a call of `eval_apply` for an expression or top level form in memory (`AtCode`, `AtForm`).  `Ready s k d`
says that there is room for `k` cells without a garbage collection and for `d` frames; the number `k` that is needed depends only on
the program.
-/
namespace Mes.Props
open Res Spec

variable {mes : Bool} {d : Nat} {ρ : Locals} {σ σ' σ₁ σ₂ σ₃ : Store} {v : Value}

/-! ### C30 -/

/-- C30: evaluation gives the value of the standard semantics. -/
def C30_full : Prop :=
  ∀ d σ f v σ', EvalForm false Computes d σ f v σ' → ∀ W s N, AtForm s W true N σ f → OnlyGives builtins s (Result s true v σ')

/-- `((begin (set! x (+ x 1)) +) x)` -/
def doubleCode : List Cell :=
  [pair 200 199, pair y_x c_nil, pair c_symbol_begin 201, pair 203 202, pair y_plus c_nil, pair c_symbol_set_x 204,
   pair y_x 205, pair 206 c_nil, pair y_plus 207, pair y_x 208, pair 209 c_nil, num 1]

def doubleOperator : Expr := .begin [.set y_x (.app (.var y_plus) [.var y_x, .const (.int 1)]), .var y_plus]
def doubleExpr : Expr := .app doubleOperator [.var y_x]

theorem double_code : IsCode (prog doubleCode 198) progGhost true progNames 198 doubleExpr := by
  have hone : IsCode (prog doubleCode 198) progGhost true progNames 209 (.const (.int 1)) :=
    .const (.int ⟨by decide, rfl, rfl⟩ (by decide)) (by decide) (by decide)
  have hx := prog_var true doubleCode 198 (x := y_x) (by decide)
  have hp := prog_var true doubleCode 198 (x := y_plus) (by decide)
  have hinc : IsCode (prog doubleCode 198) progGhost true progNames 206 (.app (.var y_plus) [.var y_x, .const (.int 1)]) :=
    .app (by fixed_pair) (by decide) hp (.cons (by fixed_pair) hx (by decide) (.cons (by fixed_pair) hone (by decide) .nil)) nofun
  have hset : IsCode (prog doubleCode 198) progGhost true progNames 203 (.set y_x (.app (.var y_plus) [.var y_x, .const (.int 1)])) :=
    .set (by fixed_pair) rfl (by fixed_pair) (.name (x := y_x) (prog_name _ _ (by decide)) (by decide)) (by fixed_pair) hinc
  have hop : IsCode (prog doubleCode 198) progGhost true progNames 200 doubleOperator :=
    .begin (by fixed_pair) rfl (.cons (by fixed_pair) hset (by decide) (.cons (by fixed_pair) hp (by decide) .nil)) nofun
  exact .app (by fixed_pair) (by decide) hop (.cons (by fixed_pair) hx (by decide) .nil) nofun

/-- The store after `x` was incremented. -/
def incStore (σ : Store) (n : Int) : Store := { σ with vals := σ.vals.set 3 (.int n) }

theorem word_small {n : Int} (h : -1000 < n ∧ n < 1000) : Word n := by unfold Word; omega

/-- `(set! x (+ x 1))` when `x` is 7. -/
theorem double_inc (d : Nat) : Eval mes Computes (d + 4) (fun _ => none) progStore (.set y_x (.app (.var y_plus) [.var y_x, .const (.int 1)]))
    (.obj c_unspecified) (incStore progStore 8) := by
  refine .set (l := 3) (v := .int 8) (σ' := progStore) ?_ rfl
  refine .app (fun _ => trivial) (.cons (.var (l := 3) rfl rfl) (.cons (.const _) .nil)) (.var (l := 2) rfl rfl) (.prim ?_)
  refine Computes.plus (ns := [7, 1]) fun k => ?_
  match k with
  | 0 => exact word_small (by decide)
  | 1 => exact word_small (by decide)
  | k + 2 => exact word_small (by simp)

/-- The operator, evaluated once after the operand: the value is 7. -/
theorem double_standard : Eval false Computes 6 (fun _ => none) progStore doubleExpr (.int 7) (incStore progStore 8) := by
  refine .app nofun (.cons (.var (l := 3) rfl rfl) .nil) (.begin (.cons (double_inc 0) (.one (.var (l := 2) rfl rfl)))) (.prim ?_)
  refine Computes.plus (ns := [7]) fun k => ?_
  match k with
  | 0 => exact word_small (by decide)
  | k + 1 => exact word_small (by simp)

/-- The evaluator returns 8. -/
theorem double_returns : ∃ s', Returns builtins (prog doubleCode 198) s' ∧ (s'.cell s'.r1).cdr = 8 := by
  obtain ⟨s', h1, h2⟩ := returns_of_computes (n := 200) (F := 100) (s := prog doubleCode 198) (P := fun s => decide ((s.cell s.r1).cdr = 8))
    builtins_fuel (by decide +kernel)
  exact ⟨s', h1, of_decide_eq_true h2⟩

/-- C30 does not hold: an operator that is not a variable or a lambda expression is evaluated twice, once before the operands
(/repo/src/eval-apply.c:690-697) and once after them (527-528).  `((begin (set! x (+ x 1)) +) x)` with `x` = 7 is 8 and not
7. -/
theorem C30_false : ¬ C30_full := by
  intro h
  obtain ⟨s', h1, h2⟩ := double_returns
  have h3 := (h 6 _ _ _ _ (.expr double_standard) _ _ _ (prog_form (.expr double_code))).1 s' h1
  obtain ⟨-, W', -, h4⟩ := h3
  cases h4 with
  | int h4 => rw [h4.value] at h2; cases h2

/-- C30 for every top level form: the evaluator returns the value, with the stack as it was and the variables changed as the
semantics says.  For `mes = false` this is the standard semantics, and operators are variables or lambda expressions; for `mes =
true` there is no restriction, and in the semantics such an operator is evaluated twice.  The expression of a definition is a lambda
expression or does not contain the defined variable (see C39).  For garbage collections during the evaluation see C57. -/
theorem C30_partial {f : Toplevel} (h : EvalForm mes Computes d σ f v σ') :
    ∃ k, ∀ W s N, Ready s k d → AtForm s W mes N σ f → Evaluates builtins s (Result s mes v σ') := by
  obtain ⟨k, hk⟩ := top (mv := False) implements_builtins (fun q => q.elim) h
  refine ⟨k, fun W s N hr ha => ?_⟩
  obtain ⟨W', s', x, gp, mp, h1, h2, -, h4, -, h6⟩ := hk W s N hr ha.world ha.form ha.scope ha.top 0 none none
  exact evaluates_of ha.called rfl h1 h2 ⟨h2, W', h4, h6⟩

/-- The same for expressions with local variables, and for any builtins. -/
theorem C30_expr_partial {K : Calls} {δ : Int → Int → List Value → Value → Prop} (hK : Implements K.builtin mes δ) {e : Expr}
    (h : Eval mes δ d ρ σ e v σ') :
    ∃ k, ∀ W s N, Ready s k d → AtCode s W mes N ρ σ e → Evaluates K s (Result s mes v σ') := by
  obtain ⟨⟨k, hk⟩, -⟩ := sim (mv := False) hK (fun q => q.elim) h
  refine ⟨k, fun W s N hr ha => ?_⟩
  obtain ⟨W', s', x, h1, h2, -, h4, -, h6⟩ := hk W s N hr ha.world ha.code ha.scope 0 none none
  exact evaluates_of ha.called rfl h1 h2 ⟨h2, W', h4, h6⟩

/-- An expression that raises an error in the semantics raises this error. -/
theorem C30_error_partial {f : Toplevel} {T : Int → Prop} {key : Key} (h : FailForm mes Computes Rejects T d σ f key) :
    ∃ k, ∀ W s N, Ready s k d → AtForm s W mes N σ f → Strings s W T → Errs builtins s key := by
  obtain ⟨k, hk⟩ := top_fail (mv := False) implements_builtins raises_builtins (fun q => q.elim) (fun q => q.elim) h
  exact ⟨k, fun W s N hr ha hT => errs_of ha.called rfl (hk W s N hr ha.world hT ha.form ha.scope ha.top)⟩

/-- The hypotheses hold for the program above, in its own semantics, with any amount of free memory. -/
example : EvalForm true Computes 6 progStore (.expr doubleExpr) (.int 8) (incStore (incStore progStore 8) 9) ∧
    ∀ k, ∃ s, Ready s k 100 ∧ AtCode s progGhost true progNames (fun _ => none) progStore doubleExpr := by
  refine ⟨.expr ?_, fun k => ⟨_, big_ready doubleCode 198 k, big_at _ double_code⟩⟩
  refine .app2 rfl nofun (.begin (.cons (double_inc 0) (.one (.var (l := 2) rfl rfl)))) (.cons (.var (l := 3) rfl rfl) .nil)
    (.begin (.cons (w := .obj c_unspecified) (σ₁ := incStore (incStore progStore 8) 9) ?_ (.one (.var (l := 2) rfl rfl)))) (.prim ?_)
  · refine .set (l := 3) (v := .int 9) (σ' := incStore progStore 8) ?_ rfl
    refine .app (fun _ => trivial) (.cons (.var (l := 3) rfl rfl) (.cons (.const _) .nil)) (.var (l := 2) rfl rfl) (.prim ?_)
    refine Computes.plus (ns := [8, 1]) fun k => ?_
    match k with
    | 0 => exact word_small (by decide)
    | 1 => exact word_small (by decide)
    | k + 2 => exact word_small (by simp)
  · refine Computes.plus (ns := [8]) fun k => ?_
    match k with
    | 0 => exact word_small (by decide)
    | k + 1 => exact word_small (by simp)

/-! ### C31 -/

/-- C31: the number of frames that are needed for a chain of tail calls, of any length `n`, is that of a single one: `d` for what is
evaluated before the tail call, and `d + 1` for the expression at the end.  For garbage collections during the evaluation see C57. -/
theorem C31_partial {n : Nat} {c c' : Config} (h : Tails mes Computes d n c c') (h' : Eval mes Computes (d + 1) c'.ρ c'.σ c'.e v σ') :
    ∃ k, ∀ W s N, Ready s k (d + 1) → AtCode s W mes N c.ρ c.σ c.e → Evaluates builtins s (Result s mes v σ') :=
  C30_expr_partial implements_builtins (h.eval h')

/-- The loop `(begin (set! x (lambda (n a) (if (= n 0) a (x (- n 1) (+ a n))))) (x m 0))` runs in six frames, for any number `m`
of rounds. -/
theorem C31_loop (m : Nat) (hm : m < 2 ^ 31) :
    ∃ k σ', ∀ W s N, Ready s k 6 → AtCode s W mes N (fun _ => none) progStore (loopExpr m) →
      Evaluates builtins s (Result s mes (.int (m * (m + 1) / 2)) σ') := by
  obtain ⟨c', h1, h2⟩ := loop_tails (mes := mes) m hm
  obtain ⟨k, hk⟩ := C31_partial h1 h2
  exact ⟨k, _, hk⟩

/-- The hypotheses hold, with any amount of free memory. -/
example (m : Nat) (hm : m < 2 ^ 31) :
    (∃ c', Tails mes Computes 5 (2 * m + 3) ⟨fun _ => none, progStore, loopExpr m⟩ c' ∧
      Eval mes Computes 6 c'.ρ c'.σ c'.e (.int (m * (m + 1) / 2)) c'.σ) ∧
    ∀ k, ∃ s, Ready s k 100 ∧ AtCode s progGhost mes progNames (fun _ => none) progStore (loopExpr m) :=
  ⟨loop_tails m hm, fun k => ⟨_, big_ready (loopCode m) 198 k, big_at _ (loop_code m)⟩⟩

/-! ### C33 -/

/-- C33: the operands are evaluated once, from left to right, and the operator once. -/
def C33_full : Prop :=
  ∀ d ρ σ f args vs fv v σ₁ σ₂ σ₃, EvalArgs false Computes d ρ σ args vs σ₁ → Eval false Computes d ρ σ₁ f fv σ₂ →
    Call false Computes (d + 1) σ₂ fv vs v σ₃ → ∀ W s N, AtCode s W true N ρ σ (.app f args) → OnlyGives builtins s (Result s true v σ₃)

/-- C33 does not hold for the operator: in `((begin (set! x (+ x 1)) +) x)` it is evaluated twice. -/
theorem C33_false : ¬ C33_full := by
  intro h
  obtain ⟨s', h1, h2⟩ := double_returns
  cases double_standard with
  | app hs ha hf hc =>
    obtain ⟨-, W', -, h4⟩ := (h _ _ _ _ _ _ _ _ _ _ _ ha hf hc _ _ _ (prog_at double_code)).1 s' h1
    cases h4 with
    | int h4 => rw [h4.value] at h2; cases h2
  | app2 hm => cases hm

/-- C33 for operators that are variables or lambda expressions: every operand is evaluated once, from left to right, and then the
procedure is called. -/
theorem C33_partial {K : Calls} {δ : Int → Int → List Value → Value → Prop} (hK : Implements K.builtin mes δ) {f : Expr} {args : List Expr}
    {vs : List Value} {fv : Value} (hd : Direct f) (ha : EvalArgs mes δ d ρ σ args vs σ₁) (hf : Eval mes δ d ρ σ₁ f fv σ₂)
    (hc : Call mes δ (d + 1) σ₂ fv vs v σ₃) :
    ∃ k, ∀ W s N, Ready s k (d + 1) → AtCode s W mes N ρ σ (.app f args) → Evaluates K s (Result s mes v σ₃) :=
  C30_expr_partial hK (.app (fun _ => hd) ha hf hc)

/-- Any other operator is evaluated before the operands, and again after them; only the second value counts. -/
theorem C33_twice_partial {K : Calls} {δ : Int → Int → List Value → Value → Prop} (hK : Implements K.builtin true δ) {f : Expr}
    {args : List Expr} {vs : List Value} {w fv : Value} {σ₀ : Store} (hd : ¬ Direct f) (h0 : Eval true δ d ρ σ f w σ₀)
    (ha : EvalArgs true δ d ρ σ₀ args vs σ₁) (hf : Eval true δ d ρ σ₁ f fv σ₂) (hc : Call true δ (d + 1) σ₂ fv vs v σ₃) :
    ∃ k, ∀ W s N, Ready s k (d + 1) → AtCode s W true N ρ σ (.app f args) → Evaluates K s (Result s true v σ₃) :=
  C30_expr_partial hK (.app2 rfl hd h0 ha hf hc)

/-- The hypotheses hold for `(+ x 1)` and for `((begin (set! x (+ x 1)) +) x)`. -/
example : Direct (.var y_plus) ∧ EvalArgs mes Computes 2 (fun _ => none) progStore [.var y_x, .const (.int 1)] [.int 7, .int 1] progStore ∧
    Eval mes Computes 2 (fun _ => none) progStore (.var y_plus) (.prim (-1) 200) progStore ∧
    Call mes Computes 3 progStore (.prim (-1) 200) [.int 7, .int 1] (.int 8) progStore ∧ ¬ Direct doubleOperator ∧
    AtCode (prog doubleCode 198) progGhost true progNames (fun _ => none) progStore (.app doubleOperator [.var y_x]) :=
  ⟨trivial, .cons (.var (l := 3) rfl rfl) (.cons (.const _) .nil), .var (l := 2) rfl rfl,
    .prim (plus_two (word_small (by decide)) (word_small (by decide))), nofun, prog_at double_code⟩

/-! ### C34 -/

/-- C34: `if` evaluates its test, and then exactly one of its branches. -/
theorem C34_if {K : Calls} {δ : Int → Int → List Value → Value → Prop} (hK : Implements K.builtin mes δ) {c t e : Expr} {w : Value}
    (hc : Eval mes δ d ρ σ c w σ₁) (hf : w = .obj c_f → Eval mes δ (d + 1) ρ σ₁ e v σ') (ht : w ≠ .obj c_f → Eval mes δ (d + 1) ρ σ₁ t v σ') :
    ∃ k, ∀ W s N, Ready s k (d + 1) → AtCode s W mes N ρ σ (.ite c t e) → Evaluates K s (Result s mes v σ') := by
  by_cases h : w = .obj c_f
  · subst h; exact C30_expr_partial hK (.iteFalse hc (hf rfl))
  · exact C30_expr_partial hK (.iteTrue hc h (ht h))

/-- The same without alternative. -/
theorem C34_if_only {K : Calls} {δ : Int → Int → List Value → Value → Prop} (hK : Implements K.builtin mes δ) {c t : Expr} {w : Value}
    (hc : Eval mes δ d ρ σ c w σ₁) (hf : w = .obj c_f → v = .obj c_unspecified ∧ σ' = σ₁) (ht : w ≠ .obj c_f → Eval mes δ (d + 1) ρ σ₁ t v σ') :
    ∃ k, ∀ W s N, Ready s k (d + 1) → AtCode s W mes N ρ σ (.ifOnly c t) → Evaluates K s (Result s mes v σ') := by
  by_cases h : w = .obj c_f
  · subst h
    obtain ⟨rfl, rfl⟩ := hf rfl
    exact C30_expr_partial hK (.ifFalse hc)
  · exact C30_expr_partial hK (.ifTrue hc h (ht h))

/-- In every state in which `(if c t e)` is to be evaluated: the test is evaluated, and the frame on the stack says that `ifExpr`
follows, with the list `(c t e)` in `R2`. -/
theorem C34_test {K : Calls} {s : St} (fuel : Nat) (x : Int) (gp mp : Option Bool) (hv : s.Valid s.r1) (ht : (s.cell s.r1).tag = .pair)
    (hi : (s.cell s.r1).car = c_symbol_if) (hl : s.Valid (s.cell s.r1).cdr) (hs : 5 ≤ s.sp ∧ s.sp ≤ s.stackSize) :
    ∃ s', run K fuel 2 ⟨.eval, s, x, gp, mp⟩ = ok ⟨.eval, s', x, gp, mp⟩ ∧ s'.r1 = (s.cell (s.cell s.r1).cdr).car ∧ s'.r0 = s.r0 ∧
      s'.cell = s.cell ∧ s'.sp = s.sp - 5 ∧ s'.stack s'.sp = c_vm_if_expr ∧ s'.stack (s'.sp + 1) = (s.cell s.r1).cdr ∧
      s'.stack (s'.sp + 3) = s.r0 ∧ ∀ i, s.sp ≤ i → s'.stack i = s.stack i := by
  refine ⟨({ s with r1 := (s.cell s.r1).cdr } : St).pushed (s.cell (s.cell s.r1).cdr).car (s.cell s.r1).cdr s.r0 c_vm_if_expr, ?_, rfl, rfl, rfl, rfl, ?_, ?_, ?_, ?_⟩
  · simp only [run, step, St.rd_ok hv, ok_bind, ht, hi]
    have hl' : ({ s with r1 := (s.cell s.r1).cdr } : St).Valid (s.cell s.r1).cdr := hl
    simp only [show c_symbol_if ≠ c_symbol_pmatch_car by decide, show c_symbol_if ≠ c_symbol_pmatch_cdr by decide, show c_symbol_if ≠ c_symbol_quote by decide,
      show c_symbol_if ≠ c_symbol_begin by decide, show c_symbol_if ≠ c_symbol_lambda by decide, ↓reduceIte, ok_bind, St.rd_ok hl']
    rw [pushCc_ok (s := { s with r1 := (s.cell s.r1).cdr }) hs.1 hs.2]
    rfl
  · simp [St.pushed]
  · simp [St.pushed]; omega
  · simp [St.pushed]; omega
  · intro i hi
    simp only [St.pushed]
    rw [if_neg (by omega), if_neg (by omega), if_neg (by omega), if_neg (by omega), if_neg (by omega)]

/-- In every state at `ifExpr`, with the value of the test in `R1`: the consequent is evaluated unless this is `#f`, else the
alternative if there is one. -/
theorem C34_branch {K : Calls} {s : St} (fuel : Nat) (x : Int) (gp mp : Option Bool) (h0 : s.Valid s.r2) (h1 : s.Valid (s.cell s.r2).cdr)
    (h2 : s.Valid (s.cell (s.cell s.r2).cdr).cdr) :
    step K fuel ⟨.ifExpr, s, x, gp, mp⟩ =
      if s.r1 ≠ c_f then ok ⟨.eval, { s with r1 := (s.cell (s.cell s.r2).cdr).car }, x, gp, mp⟩
      else if (s.cell (s.cell s.r2).cdr).cdr ≠ c_nil then
        ok ⟨.eval, { s with r1 := (s.cell (s.cell (s.cell s.r2).cdr).cdr).car }, x, gp, mp⟩
      else ok ⟨.vmReturn, { s with r1 := c_unspecified }, x, gp, mp⟩ := by
  simp only [step, St.cdr_ok h0, ok_bind, St.rd_ok h1, St.car_ok h2]

/-- Only the value `#f` is the object `c_f`: numbers, characters, `()`, lists and procedures are not. -/
theorem C34_false_only {s : St} {W : Ghost} {a : Int} (hw : World s W mes σ) (h : IsVal s W mes a v) : a = c_f ↔ v = .obj c_f :=
  h.false_iff hw

/-- `(if x 1)`: the hypotheses of the theorems hold, and `x` is not false. -/
def ifCode : List Cell := [pair c_symbol_if 199, pair y_x 200, pair 201 c_nil, num 1]

example : AtCode (prog ifCode 198) progGhost mes progNames (fun _ => none) progStore (.ifOnly (.var y_x) (.const (.int 1))) ∧
    Eval mes Computes 0 (fun _ => none) progStore (.var y_x) (.int 7) progStore ∧ Value.int 7 ≠ .obj c_f ∧
    (prog ifCode 198).Valid 198 ∧ ((prog ifCode 198).cell 198).tag = .pair ∧ ((prog ifCode 198).cell 198).car = c_symbol_if ∧
    (prog ifCode 198).Valid ((prog ifCode 198).cell 198).cdr :=
  ⟨prog_at (.ifOnly (by fixed_pair) rfl (by fixed_pair) (prog_var _ _ _ (by decide)) (by fixed_pair) (prog_num mes 4 rfl (by decide) rfl) rfl),
    .var (l := 3) rfl rfl, nofun, by decide, rfl, rfl, by decide⟩

end Mes.Props
