import Verif.Props.Eval
/-
Properties C35, C36, C37: procedures, their arguments, and the variables of their bodies (/repo/src/eval-apply.c:34-103, 443-544).
-/
namespace Mes.Props
open Res Spec

variable {mes : Bool} {d : Nat} {ρ ρ' : Locals} {σ σ' σ₀ σ₁ σ₂ : Store} {v w : Value} {K : Calls}
  {δ : Int → Int → List Value → Value → Prop} {ε : Int → Int → List Value → Key → Prop} {T : Int → Prop} {f : Expr} {args : List Expr}
  {fs : List Int} {r : Option Int} {b : List Expr} {vs ps : List Value} {key : Key}

/-- An application whose operator and operands have values, but the call fails. -/
theorem failed_call (hK : Implements K.builtin mes δ) (hE : Raises K.builtin mes ε) (h0 : Eval mes δ d ρ σ f w σ₀)
    (ha : EvalArgs mes δ d ρ σ₀ args vs σ₁) (hf : Eval mes δ d ρ σ₁ f v σ₂) (hc : FailCall mes δ ε T (d + 1) σ₂ (IsLam f) v vs key) :
    ∃ k, ∀ W s N, Ready s k (d + 1) → AtCode s W mes N ρ σ (.app f args) → Strings s W T → Errs K s key := by
  obtain ⟨⟨k, hk⟩, -⟩ := sim_fail (mv := False) hK hE (fun q => q.elim) (fun q => q.elim) (.call h0 ha hf hc)
  exact ⟨k, fun W s N hr h hT => errs_of h.called rfl (hk W s N hr h.world hT h.code h.scope)⟩

theorem no_strings {s : St} {W : Ghost} : Strings s W fun _ => False := fun _ h => h.elim

/-! ### C35 -/

/-- C35: the wrong number of arguments is an error. -/
def C35_full : Prop :=
  ∀ d ρ σ f args w vs fs b ρ' σ₀ σ₁ σ₂, Eval true Computes d ρ σ f w σ₀ → EvalArgs true Computes d ρ σ₀ args vs σ₁ →
    Eval true Computes d ρ σ₁ f (.clo fs none b ρ') σ₂ → vs.length ≠ fs.length →
    ∀ W s N, AtCode s W true N ρ σ (.app f args) → OnlyRaises builtins s .wrongNumberOfArgs

/-- `((lambda (n) n))` -/
def fewCode : List Cell := [pair 199 c_nil, pair c_symbol_lambda 200, pair 202 201, pair y_n c_nil, pair y_n c_nil]
def fewExpr : Expr := .app (.lam [y_n] none [.var y_n]) []

theorem few_code : IsCode (prog fewCode 198) progGhost mes progNames 198 fewExpr := by
  have hn := prog_var mes fewCode 198 (x := y_n) (by decide)
  refine .app (by fixed_pair) (by decide) (.lam (by fixed_pair) rfl (by fixed_pair) ?_ (prog_body _ _ (.cons (by fixed_pair) hn (by decide) .nil)) nofun) .nil
    (fun _ => trivial)
  exact .cons (by fixed_pair) (prog_name _ _ (x := y_n) (by decide)).text.valid rfl .nil

theorem few_errs : Errs builtins (prog fewCode 198) .notAPair :=
  errs_of_raises (n := 100) (F := 100) builtins_fuel (by decide +kernel)

/-- C35 does not hold for a lambda expression in place of the operator: the parameters are bound before their number is checked
(/repo/src/eval-apply.c:516-517), so that `((lambda (n) n))` fails with not-a-pair. -/
theorem C35_false : ¬ C35_full := by
  intro h
  have := (h 0 _ _ _ _ _ _ _ _ _ _ _ _ (.lam [y_n] none [.var y_n]) .nil (.lam ..) (by decide) _ _ _ (prog_at few_code)).2 _ few_errs
  cases this

/-- C35 for procedures that are not lambda expressions in place of the operator, or too many arguments. -/
theorem C35_partial (hK : Implements K.builtin mes δ) (hE : Raises K.builtin mes ε) (h0 : Eval mes δ d ρ σ f w σ₀)
    (ha : EvalArgs mes δ d ρ σ₀ args vs σ₁) (hf : Eval mes δ d ρ σ₁ f (.clo fs none b ρ') σ₂) (hn : vs.length ≠ fs.length)
    (hl : IsLam f → fs.length < vs.length) :
    ∃ k, ∀ W s N, Ready s k (d + 1) → AtCode s W mes N ρ σ (.app f args) → Errs K s .wrongNumberOfArgs := by
  obtain ⟨k, hk⟩ := failed_call (T := fun _ => False) hK hE h0 ha hf (.count hn hl)
  exact ⟨k, fun W s N hr h => hk W s N hr h no_strings⟩

/-- Too few arguments for a lambda expression, or for a procedure with a rest parameter: not-a-pair. -/
theorem C35_few_partial (hK : Implements K.builtin mes δ) (hE : Raises K.builtin mes ε) (h0 : Eval mes δ d ρ σ f w σ₀)
    (ha : EvalArgs mes δ d ρ σ₀ args vs σ₁) (hf : Eval mes δ d ρ σ₁ f (.clo fs r b ρ') σ₂) (hn : vs.length < fs.length)
    (hl : IsLam f ∨ r ≠ none) :
    ∃ k, ∀ W s N, Ready s k (d + 1) → AtCode s W mes N ρ σ (.app f args) → Errs K s .notAPair := by
  have hc : FailCall mes δ ε (fun _ => False) (d + 1) σ₂ (IsLam f) (.clo fs r b ρ') vs .notAPair := by
    cases r with
    | some y => exact .fewRest hn
    | none => exact .few hn (hl.resolve_right (fun h => h rfl))
  obtain ⟨k, hk⟩ := failed_call hK hE h0 ha hf hc
  exact ⟨k, fun W s N hr h => hk W s N hr h no_strings⟩

/-- A procedure with enough arguments is called, and a rest parameter gets the list of the remaining ones. -/
theorem C35_rest_partial {y : Int} (hK : Implements K.builtin mes δ) (hn : fs.length ≤ vs.length)
    (hb : EvalSeq mes δ d (bindAll (fs ++ [y]) σ.vals.length ρ)
      { σ with vals := σ.vals ++ (vs.take fs.length ++ [listVal (vs.drop fs.length)]) } b v σ') :
    ∃ k, ∀ W s, Ready s k d → AtCall s W mes σ (.clo fs (some y) b ρ) vs → Evaluates K s (Result s mes v σ') := by
  obtain ⟨k, hk⟩ := simCall (mv := False) hK (fun q => q.elim) (Call.clo (r := some y) (by simp only [paramVals]; rw [if_pos hn]) hb)
  refine ⟨k, fun W s hr h => ?_⟩
  obtain ⟨W', s', x, h1, h2, -, h4, -, h6⟩ := hk W s hr h.world h.pair h.proc h.args 0 none none
  exact evaluates_of h.called rfl h1 h2 ⟨h2, W', h4, h6⟩

/-- The same for a fixed number of parameters. -/
theorem C35_fixed_partial (hK : Implements K.builtin mes δ) (hn : vs.length = fs.length)
    (hb : EvalSeq mes δ d (bindAll fs σ.vals.length ρ) { σ with vals := σ.vals ++ vs } b v σ') :
    ∃ k, ∀ W s, Ready s k d → AtCall s W mes σ (.clo fs none b ρ) vs → Evaluates K s (Result s mes v σ') := by
  obtain ⟨k, hk⟩ := simCall (mv := False) hK (fun q => q.elim) (Call.clo (r := none) (by simp only [paramVals]; rw [if_pos hn]) (by simpa using hb))
  refine ⟨k, fun W s hr h => ?_⟩
  obtain ⟨W', s', x, h1, h2, -, h4, -, h6⟩ := hk W s hr h.world h.pair h.proc h.args 0 none none
  exact evaluates_of h.called rfl h1 h2 ⟨h2, W', h4, h6⟩

/-- Builtins with a fixed number of parameters check it too. -/
theorem C35_builtin_partial {n id : Int} (hn : n ≠ vs.length) (hn' : n ≠ -1) :
    ∀ W s, Ready s 1 d → AtCall s W mes σ (.prim n id) vs → Errs K s .wrongNumberOfArgs :=
  fun W s hr h => errs_of h.called rfl (callFails_arity (T := fun _ => False) hn hn' W s hr h.world no_strings h.pair h.proc h.args)

/-- The same for a call from C. -/
theorem C35_apply_partial (hn : vs.length ≠ fs.length) :
    ∀ W s, Ready s 0 d → AtCall s W mes σ (.clo fs none b ρ) vs → Errs K s .wrongNumberOfArgs :=
  fun W s hr h => errs_of h.called rfl (callFails_count (T := fun _ => False) hn W s hr h.world no_strings h.pair h.proc h.args)

/-- `core:apply` calls the procedure `f` with the elements of the list `vs` as arguments. -/
theorem C35_spread_partial {w : Value} {rest : List Value} (hK : Implements K.builtin mes δ) (h : Call mes δ d σ w vs v σ') :
    ∃ k, ∀ W s, Ready s k (d + 1) → AtCall s W mes σ (.obj c_vm_apply) (w :: listVal vs :: rest) → Evaluates K s (Result s mes v σ') := by
  obtain ⟨k, hk⟩ := simCall (mv := False) hK (fun q => q.elim) (Call.apply (rest := rest) h)
  refine ⟨k, fun W s hr h => ?_⟩
  obtain ⟨W', s', x, h1, h2, -, h4, -, h6⟩ := hk W s hr h.world h.pair h.proc h.args 0 none none
  exact evaluates_of h.called rfl h1 h2 ⟨h2, W', h4, h6⟩

/-- So the number of elements is checked, too. -/
theorem C35_spread_count_partial {rest : List Value} (hn : vs.length ≠ fs.length) :
    ∀ W s, Ready s 1 (d + 1) → AtCall s W mes σ (.obj c_vm_apply) (.clo fs none b ρ :: listVal vs :: rest) → Errs K s .wrongNumberOfArgs :=
  fun W s hr h => errs_of h.called rfl
    (callFails_apply (callFails_count (T := fun _ => False) hn) W s hr h.world no_strings h.pair h.proc h.args)

/-- `(core:apply length '((())))` -/
def spreadCode : List Cell :=
  [pair c_vm_apply 206, { tag := .struct, car := 6, cdr := 200 }, refCell c_f, refCell c_f, refCell c_symbol_builtin, refCell c_f, num 1, num 148,
   pair 199 207, pair 208 c_nil, pair 209 c_nil, pair c_nil c_nil]

example : AtCall { prog spreadCode 198 with r3 := c_vm_apply } progGhost mes progStore (.obj c_vm_apply) [.prim 1 148, listVal [listVal [.obj c_nil]]] ∧
    Call mes Computes 0 progStore (.prim 1 148) [listVal [.obj c_nil]] (.int ([Value.obj c_nil] : List Value).length) progStore := by
  have gr : Grow (prog spreadCode 198) { prog spreadCode 198 with r3 := c_vm_apply } := ⟨Int.le_refl _, fun _ _ => rfl⟩
  refine ⟨⟨⟨rfl, rfl⟩, (prog_world mes _ 198).grow gr rfl, ⟨by decide, by decide, rfl, by decide⟩, .obj ⟨by decide, by decide⟩ (by decide) (by decide), ?_⟩, .prim .length⟩
  refine .cons ⟨by decide, by decide, rfl, by decide⟩ (.prim ?_) (.cons ⟨by decide, by decide, rfl, by decide⟩
    (.pair ⟨by decide, by decide, rfl, by decide⟩ (.pair ⟨by decide, by decide, rfl, by decide⟩ (.obj ⟨by decide, by decide⟩ (by decide) (by decide)) (.obj ⟨by decide, by decide⟩ (by decide) (by decide))) (.obj ⟨by decide, by decide⟩ (by decide) (by decide))) .nil)
  exact ⟨by decide, rfl, rfl, by decide, by decide, rfl, rfl, by decide, ⟨by decide, rfl, rfl⟩, by decide, ⟨by decide, rfl, rfl⟩, by decide⟩

/-- The application of the procedure `(lambda (n) n)` to the arguments at `a`. -/
def procCode (formals a : Int) : List Cell :=
  [pair 199 a, { tag := .closure, car := c_f, cdr := 200 }, pair 201 203, pair c_circular 202, pair 175 c_nil, pair formals 205,
   pair y_n c_nil, pair y_n c_nil, pair 207 c_nil, num 5]

theorem proc_val {formals a : Int} (hf : IsFormals (prog (procCode formals a) 198) progGhost.chg formals fs r) :
    IsVal (prog (procCode formals a) 198) progGhost mes 199 (.clo fs r [.var y_n] fun _ => none) := by
  have P : ∀ c : Int, 198 ≤ c ∧ c < 198 + (10 : Nat) → ((prog (procCode formals a) 198).cell c).tag = .pair →
    FixedPair (prog (procCode formals a) 198) progGhost.chg c := fun c => prog_pair 10 rfl
  refine .clo (N := progNames) ⟨by decide, ?_⟩ rfl ?_ (P 200 (by decide) rfl) (P 201 (by decide) rfl) (P 202 (by decide) rfl) ?_ (P 203 (by decide) rfl) hf
    (prog_body _ _ (.cons (P 205 (by decide) rfl) (prog_var _ _ _ (show y_n ∈ [y_f, y_n, y_a, y_eq, y_minus, y_plus, y_x] by decide)) (show (1 : Int) ≠ c_symbol_primitive_load by decide) .nil)) nofun (by decide) (nofun)
  · rw [prog_free]; show (199 : Int) < 198 + (10 : Nat); decide
  · show ¬ (199 = (151 : Int) ∨ _); decide
  · exact fun x _ => ⟨.nil, nofun⟩

/-- The hypotheses hold for `((lambda (n) n))`, and for calls of `(lambda (n) n)` with no argument and `(lambda n n)` with 5. -/
example : AtCode (prog fewCode 198) progGhost mes progNames (fun _ => none) progStore (.app (.lam [y_n] none [.var y_n]) []) ∧
    AtCall { prog (procCode 204 c_nil) 198 with r3 := c_vm_apply } progGhost mes progStore (.clo [y_n] none [.var y_n] fun _ => none) [] ∧
    AtCall { prog (procCode y_n 206) 198 with r3 := c_vm_apply } progGhost mes progStore (.clo [] (some y_n) [.var y_n] fun _ => none) [.int 5] ∧
    EvalSeq mes Computes 0 (bindAll ([] ++ [y_n]) progStore.vals.length fun _ => none)
      { progStore with vals := progStore.vals ++ (([Value.int 5] : List Value).take 0 ++ [listVal (([Value.int 5] : List Value).drop 0)]) } [.var y_n]
      (.pair (.int 5) (.obj c_nil)) { progStore with vals := progStore.vals ++ [listVal [Value.int 5]] } := by
  have gr : ∀ c, Grow (prog c 198) { prog c 198 with r3 := c_vm_apply } := fun c => ⟨Int.le_refl _, fun _ _ => rfl⟩
  refine ⟨prog_at few_code, ⟨⟨rfl, rfl⟩, (prog_world mes _ 198).grow (gr _) rfl, ?_, ?_, .nil⟩,
    ⟨⟨rfl, rfl⟩, (prog_world mes _ 198).grow (gr _) rfl, ?_, ?_, .cons ?_ (.int ⟨?_, rfl, rfl⟩ ?_) .nil⟩, .one (.var (l := 4) rfl rfl)⟩
  · exact ⟨by decide, by decide, rfl, by decide⟩
  · exact (proc_val (.cons ⟨by decide, by decide, rfl, by decide⟩ (by decide) rfl .nil)).later ((gr _).later _)
  · exact ⟨by decide, by decide, rfl, by decide⟩
  · exact (proc_val (.rest (by decide) rfl (by decide))).later ((gr _).later _)
  · exact ⟨by decide, by decide, rfl, by decide⟩
  · decide
  · decide

/-- The application of a builtin with one parameter to no arguments. -/
def arityCode : List Cell :=
  [pair 199 c_nil, { tag := .struct, car := 6, cdr := 200 }, refCell c_f, refCell c_f, refCell c_symbol_builtin, refCell c_f, num 1, num 23]

example : AtCall { prog arityCode 198 with r3 := c_vm_apply } progGhost mes progStore (.prim 1 23) [] ∧ (1 : Int) ≠ ([] : List Value).length := by
  have gr : Grow (prog arityCode 198) { prog arityCode 198 with r3 := c_vm_apply } := ⟨Int.le_refl _, fun _ _ => rfl⟩
  refine ⟨⟨⟨rfl, rfl⟩, (prog_world mes _ 198).grow gr rfl, ⟨by decide, by decide, rfl, by decide⟩, .prim ?_, .nil⟩, by decide⟩
  exact ⟨by decide, rfl, rfl, by decide, by decide, rfl, rfl, by decide, ⟨by decide, rfl, rfl⟩, by decide, ⟨by decide, rfl, rfl⟩, by decide⟩

/-! ### C36 -/

/-- C36: applying something else than a procedure is an error. -/
def C36_full : Prop :=
  ∀ d ρ σ f args w vs v σ₀ σ₁ σ₂, Eval true Computes d ρ σ f w σ₀ → EvalArgs true Computes d ρ σ₀ args vs σ₁ →
    Eval true Computes d ρ σ₁ f v σ₂ → ∀ W s N, AtCode s W true N ρ σ (.app f args) →
    NotProc (fun a => s.Valid a ∧ ((s.cell a).tag = .string ∨ (s.cell a).tag = .symbol)) v → OnlyRaises builtins s .wrongTypeArg

/-- `((quote +) 1 2)` -/
def symbolCode : List Cell :=
  [pair 199 201, pair c_symbol_quote 200, pair y_plus c_nil, pair 203 202, pair 204 c_nil, num 1, num 2]
def symbolExpr : Expr := .app (.quote (.obj y_plus)) [.const (.int 1), .const (.int 2)]

theorem symbol_code : IsCode (prog symbolCode 198) progGhost true progNames 198 symbolExpr :=
  .app (by fixed_pair) (by decide) (.quote (by fixed_pair) rfl (by fixed_pair) (.obj (by decide) (by decide) (by decide)))
    (.cons (by fixed_pair) (prog_num true 7 rfl (by decide) rfl) (by decide)
      (.cons (by fixed_pair) (prog_num true 7 rfl (by decide) rfl) (by decide) .nil)) nofun

theorem symbol_returns : ∃ s', Returns builtins (prog symbolCode 198) s' ∧ (s'.cell s'.r1).cdr = 3 := by
  obtain ⟨s', h1, h2⟩ := returns_of_computes (n := 200) (F := 100) (s := prog symbolCode 198) (P := fun s => decide ((s.cell s.r1).cdr = 3))
    builtins_fuel (by decide +kernel)
  exact ⟨s', h1, of_decide_eq_true h2⟩

/-- C36 does not hold for symbols: `apply` evaluates them (/repo/src/eval-apply.c:503-526), so that `((quote +) 1 2)` is 3. -/
theorem C36_false : ¬ C36_full := by
  intro h
  obtain ⟨s', h1, -⟩ := symbol_returns
  exact (h 2 _ _ _ _ _ _ _ _ _ _ (.quote (.obj y_plus)) (.cons (.const _) (.cons (.const _) .nil)) (.quote _) _ _ _ (prog_at symbol_code)
    (.inr (.inr (.inr (.inr ⟨by decide, .inr rfl⟩))))).1 s' h1

/-- C36 for numbers, characters, strings, `#f`, `#t`, `()` and the unspecified object.  `T` are the strings in memory. -/
theorem C36_partial (hK : Implements K.builtin mes δ) (hE : Raises K.builtin mes ε) (h0 : Eval mes δ d ρ σ f w σ₀)
    (ha : EvalArgs mes δ d ρ σ₀ args vs σ₁) (hf : Eval mes δ d ρ σ₁ f v σ₂) (hv : NotProc T v) :
    ∃ k, ∀ W s N, Ready s k (d + 1) → AtCode s W mes N ρ σ (.app f args) → Strings s W T → Errs K s .wrongTypeArg :=
  failed_call hK hE h0 ha hf (.notProc hv)

/-- `(5)` -/
example : AtCode (prog [pair 199 c_nil, num 5] 198) progGhost true progNames (fun _ => none) progStore (.app (.const (.int 5)) []) ∧
    NotProc T (.int 5) :=
  ⟨prog_at (.app (by fixed_pair) (by decide) (prog_num true 2 rfl (by decide) rfl) .nil nofun), trivial⟩

/-! ### C37 -/

/-- C37: the body of a procedure is evaluated with the parameters and with the variables in scope where the lambda expression was
evaluated (`ρ`); the environment of the caller, in `R0`, does not matter. -/
theorem C37_call_partial (hK : Implements K.builtin mes δ) (hp : paramVals fs r vs = some ps)
    (hb : EvalSeq mes δ d (bindAll (fs ++ r.toList) σ.vals.length ρ) { σ with vals := σ.vals ++ ps } b v σ') :
    ∃ k, ∀ W s r0, Ready s k d → AtCall s W mes σ (.clo fs r b ρ) vs → Evaluates K { s with r0 := r0 } (Result s mes v σ') := by
  obtain ⟨k, hk⟩ := simCall (mv := False) hK (fun q => q.elim) (Call.clo hp hb)
  refine ⟨k, fun W s r0 hr h => ?_⟩
  have al : Alike s { s with r0 := r0 } := ⟨rfl, rfl, ⟨rfl, rfl, rfl, rfl, rfl⟩, rfl, fun _ _ => rfl⟩
  have hl := (al.adv W).later
  obtain ⟨W', s', x, h1, h2, -, h4, -, h6⟩ := hk W { s with r0 := r0 } ⟨hr.base, hr.safe, hr.slack, hr.deep, hr.top⟩ (al.world h.world) (h.pair.later hl)
    (h.proc.later hl) (h.args.later hl) 0 none none
  have h2' : Popped s s' := ⟨⟨h2.consts.m0, h2.consts.arena, h2.consts.safety, h2.consts.size, h2.consts.macros⟩, h2.sp, h2.r0, h2.r2, h2.r3, h2.stack⟩
  exact evaluates_of (s := { s with r0 := r0 }) ⟨h.called.label, h.called.frame⟩ rfl h1 h2 ⟨h2', W', h4, h6⟩

/-- A lambda expression has the variables in scope as its environment. -/
theorem C37_lambda_partial (hK : Implements K.builtin mes δ) :
    ∃ k, ∀ W s N, Ready s k d → AtCode s W mes N ρ σ (.lam fs r b) → Evaluates K s (Result s mes (.clo fs r b ρ) σ) :=
  C30_expr_partial hK (.lam fs r b)

/-- A variable is the innermost one: a local one if there is one, else the global one. -/
theorem C37_variable_partial (hK : Implements K.builtin mes δ) {x : Int} {l : Nat} (hl : ρ x = some l ∨ ρ x = none ∧ σ.globals x = some l)
    (hv : σ.vals[l]? = some v) : ∃ k, ∀ W s N, Ready s k d → AtCode s W mes N ρ σ (.var x) → Evaluates K s (Result s mes v σ) := by
  refine C30_expr_partial hK (.var (l := l) ?_ hv)
  unfold Store.find
  rcases hl with h | ⟨h, h'⟩
  · rw [h]; rfl
  · rw [h, h']; rfl

/-- `pairlis` binds the parameters in front of the environment `ρ`, to new locations; no existing cell changes, so that `ρ` and all
variables keep their values. -/
theorem C37_pairlis {s : St} {W : Ghost} {N : Idents} {x y a : Int} (hf : IsFormals s W.chg x fs r) (ha : IsVals s W mes y vs)
    (hp : paramVals fs r vs = some ps) (hw : World s W mes σ) (he : IsEnv s W N a ρ) (hr : Room s (2 * ps.length)) :
    ∃ F p s' W', (∀ fuel, F ≤ fuel → pairlis fuel s x y a = ok (p, s')) ∧ Ext s s' ∧
      World s' W' mes { σ with vals := σ.vals ++ ps } ∧ IsEnv s' W' N p (bindAll (fs ++ r.toList) σ.vals.length ρ) ∧ IsEnv s' W' N a ρ := by
  obtain ⟨F, p, s1, us, h1, h2, h3, h4, h5⟩ := pairlis_ok (s := s) (a := a) hf ha hp hw (.refl s) hr
  obtain ⟨w1, w2⟩ := bind_ok hw h2.grow h2.consts.m0 h4 (by omega) h5
  exact ⟨F, p, s1, _, h1, h2, w1, w2 N ρ (he.except _), he.later (bind_later h2.grow ps.length)⟩

/-- The hypotheses of `C37_call_partial` hold for the calls shown for C35; those of `C37_pairlis` hold for the parameter list `(n)` and
the argument list `(5)` in an empty environment. -/
example : IsFormals (prog (procCode 204 206) 198) progGhost.chg 204 [y_n] none ∧
    IsVals (prog (procCode 204 206) 198) progGhost mes 206 [.int 5] ∧ paramVals [y_n] none [.int 5] = some [.int 5] ∧
    World (prog (procCode 204 206) 198) progGhost mes progStore ∧ IsEnv (prog (procCode 204 206) 198) progGhost progNames c_nil (fun _ => none) ∧
    Room (prog (procCode 204 206) 198) 2 :=
  ⟨.cons ⟨by decide, by decide, rfl, by decide⟩ (by decide) rfl .nil,
    .cons ⟨by decide, by decide, rfl, by decide⟩ (.int ⟨by decide, rfl, rfl⟩ (by decide)) .nil, rfl, prog_world mes _ 198,
    fun _ _ => ⟨.nil, nofun⟩, by decide, by decide⟩

end Mes.Props
