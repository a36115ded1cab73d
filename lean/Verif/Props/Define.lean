import Verif.Props.Apply
/-
Property C39: `define` and `set!` (/repo/src/eval-apply.c:123-135, 586-688, /repo/src/module.c:86-119).
-/
namespace Mes.Props
open Res Spec

variable {mes : Bool} {d : Nat} {ρ ρ' : Locals} {σ σ' σ₀ σ₁ σ₂ : Store} {v w : Value} {K : Calls}
  {δ : Int → Int → List Value → Value → Prop} {ε : Int → Int → List Value → Key → Prop} {T : Int → Prop} {x : Int} {e : Expr} {key : Key}

/-- The variable at the location `l` gets the value `v`, and nothing else changes. -/
structure Assigned (σ : Store) (l : Nat) (v : Value) (σ' : Store) : Prop where
  value : σ'.vals[l]? = some v
  others : ∀ l', l' ≠ l → σ'.vals[l']? = σ.vals[l']?
  globals : σ'.globals = σ.globals

theorem assigned {l : Nat} (hl : l < σ.vals.length) : Assigned σ l v { σ with vals := σ.vals.set l v } :=
  ⟨by simp [hl], fun l' h => by simp [List.getElem?_set_ne (Ne.symm h)], rfl⟩

/-- No expression makes variables disappear, and only definitions make new global ones. -/
theorem eval_grows (h : Eval mes δ d ρ σ e v σ') : σ.vals.length ≤ σ'.vals.length ∧ σ'.globals = σ.globals := by
  refine Eval.rec (motive_1 := fun _ _ σ _ _ σ' _ => σ.vals.length ≤ σ'.vals.length ∧ σ'.globals = σ.globals)
    (motive_2 := fun _ _ σ _ _ σ' _ => σ.vals.length ≤ σ'.vals.length ∧ σ'.globals = σ.globals)
    (motive_3 := fun _ _ σ _ _ σ' _ => σ.vals.length ≤ σ'.vals.length ∧ σ'.globals = σ.globals)
    (motive_4 := fun _ σ _ _ _ σ' _ => σ.vals.length ≤ σ'.vals.length ∧ σ'.globals = σ.globals)
    ?_ ?_ ?_ ?_ ?_ ?_ ?_ ?_ ?_ ?_ ?_ ?_ ?_ ?_ ?_ ?_ ?_ ?_ ?_ h
  case refine_9 => rintro _ _ _ _ _ _ _ _ _ _ _ _ _ _ _ ⟨a, b⟩ ⟨a', b'⟩ ⟨a'', b''⟩; exact ⟨by omega, by rw [b'', b', b]⟩
  case refine_10 =>
    rintro _ _ _ _ _ _ _ _ _ _ _ _ _ _ _ _ _ _ _ ⟨c, e⟩ ⟨a, b⟩ ⟨a', b'⟩ ⟨a'', b''⟩
    exact ⟨by omega, by rw [b'', b', b, e]⟩
  case refine_12 => rintro _ _ _ _ _ _ _ _ _ _ ⟨a, b⟩; exact ⟨by simpa using a, b⟩
  case refine_18 =>
    rintro _ _ _ _ _ _ _ _ _ _ _ _ ⟨a, b⟩
    rw [List.length_append] at a
    exact ⟨by omega, b⟩
  all_goals intros
  all_goals try exact ⟨Nat.le_refl _, rfl⟩
  all_goals try assumption
  all_goals rename_i h1 h2; exact ⟨Nat.le_trans h1.1 h2.1, h2.2.trans h1.2⟩

theorem declare_fst (σ : Store) (x : Int) : (σ.declare x).2.globals x = some (σ.declare x).1 ∧
    (∀ l, σ.globals x = some l → (σ.declare x).1 = l ∧ (σ.declare x).2 = σ) ∧
    (σ.globals x = none → (σ.declare x).1 = σ.vals.length ∧ (σ.declare x).1 < (σ.declare x).2.vals.length) ∧
    (∀ y, y ≠ x → (σ.declare x).2.globals y = σ.globals y) ∧ ∀ l, l < σ.vals.length → (σ.declare x).2.vals[l]? = σ.vals[l]? := by
  unfold Store.declare
  cases hg : σ.globals x with
  | some l => exact ⟨by simp [hg], fun l' h => by simp_all, nofun, fun _ _ => rfl, fun _ _ => rfl⟩
  | none => exact ⟨by simp, nofun, fun _ => by simp, fun y hy => by simp [hy], fun l hl => by simp [List.getElem?_append_left hl]⟩

/-- C calls the evaluator for `(define x e)`, with any expression `e`. -/
structure AtDefine (s : St) (W : Ghost) (mes : Bool) (N : Idents) (σ : Store) (x : Int) (e : Expr) : Prop where
  called : Called c_vm_eval s
  world : World s W mes σ
  pair : FixedPair s W.chg s.r1 ∧ (s.cell s.r1).car = c_symbol_define
  pair1 : FixedPair s W.chg (s.cell s.r1).cdr ∧ (s.cell (s.cell s.r1).cdr).car = x
  name : IsName s W x ∧ N x
  pair2 : FixedPair s W.chg (s.cell (s.cell s.r1).cdr).cdr
  code : IsCode s W mes N (s.cell (s.cell (s.cell s.r1).cdr).cdr).car e
  scope : IsScope s W N s.r0 fun _ => none
  top : (s.cell (s.cell s.r0).car).car ≠ c_closure

/-- C39: `(define x e)` gives `x` the value of `e`. -/
def C39_full : Prop :=
  ∀ d σ x e v σ₁, Eval true Computes d (fun _ => none) (σ.declare x).2 e v σ₁ → ∀ W s N, AtDefine s W true N σ x e →
    OnlyGives builtins s (fun s' => ∃ σ' l, Assigned σ₁ l v σ' ∧ σ₁.globals x = some l ∧ Result s true (.obj c_unspecified) σ' s')

/-- `(define x (+ x 1))` -/
def redefineCode : List Cell :=
  [pair c_symbol_define 199, pair y_x 200, pair 201 c_nil, pair y_plus 202, pair y_x 203, pair 204 c_nil, num 1]
def incExpr : Expr := .app (.var y_plus) [.var y_x, .const (.int 1)]

theorem inc_code : IsCode (prog redefineCode 198) progGhost mes progNames 201 incExpr := by
  have hx := prog_var mes redefineCode 198 (x := y_x) (by decide)
  have hp := prog_var mes redefineCode 198 (x := y_plus) (by decide)
  exact .app (by fixed_pair) (by decide) hp (.cons (by fixed_pair) hx (by decide)
    (.cons (by fixed_pair) (prog_num mes 7 rfl (by decide) rfl) (by decide) .nil)) (fun _ => trivial)

theorem redefine_at : AtDefine (prog redefineCode 198) progGhost mes progNames progStore y_x incExpr := by
  have h := (prog_form (mes := mes) (code := redefineCode) (c := y_x) (.expr (prog_var _ _ _ (by decide)))).top
  exact ⟨prog_called _ _, prog_world _ _ _, ⟨by fixed_pair, rfl⟩, ⟨by fixed_pair, rfl⟩, ⟨prog_name _ _ (by decide), by decide⟩, by fixed_pair,
    inc_code, prog_scope _ _, h⟩

theorem inc_value (d : Nat) : Eval mes Computes (d + 3) (fun _ => none) progStore incExpr (.int 8) progStore := by
  refine .app (fun _ => trivial) (.cons (.var (l := 3) rfl rfl) (.cons (.const _) .nil)) (.var (l := 2) rfl rfl) (.prim ?_)
  exact plus_two (word_small (by decide)) (word_small (by decide))

theorem redefine_errs : Errs builtins (prog redefineCode 198) .notANumber :=
  errs_of_raises (n := 200) (F := 100) builtins_fuel (by decide +kernel)

/-- C39 does not hold for an expression that contains the variable: it is evaluated with a local variable `x` whose value is the
symbol `x` (/repo/src/eval-apply.c:648-657), so that `(define x (+ x 1))` fails when `x` is 7. -/
theorem C39_false : ¬ C39_full := by
  intro h
  exact (h 3 progStore y_x _ _ _ (inc_value 0) _ _ _ redefine_at).2 _ redefine_errs

/-- C39 for expressions that are lambda expressions or do not contain the variable (`AtForm`).  `(define x e)` evaluates `e`, and
then the global variable `x` has its value; all other variables keep theirs.  A variable that exists keeps its location, so that
all procedures see the new value; else it gets a new one.  For garbage collections during the evaluation see C57. -/
theorem C39_define_partial (hK : Implements K.builtin mes δ) (h : Eval mes δ d (fun _ => none) (σ.declare x).2 e v σ₁)
    (hg : ∀ l, σ.globals x = some l → l < σ.vals.length) :
    ∃ k σ' l, Assigned σ₁ l v σ' ∧ σ'.globals x = some l ∧ (∀ y, y ≠ x → σ'.globals y = σ.globals y) ∧
      (∀ l', σ.globals x = some l' → l = l') ∧ (σ.globals x = none → l = σ.vals.length) ∧
      ∀ W s N, Ready s k (d + 1) → AtForm s W mes N σ (.define x e) → Evaluates K s (Result s mes (.obj c_unspecified) σ') := by
  obtain ⟨h1, h2, h3, h4, h5⟩ := declare_fst σ x
  obtain ⟨g1, g2⟩ := eval_grows h
  have hl : (σ.declare x).1 < σ₁.vals.length := by
    cases hx : σ.globals x with
    | none => have := (h3 hx).2; omega
    | some l => have := hg l hx; obtain ⟨e1, e2⟩ := h2 l hx; rw [e1]; rw [e2] at g1; omega
  obtain ⟨k, hk⟩ := top (mv := False) hK (fun q => q.elim) (.define h)
  refine ⟨k, _, (σ.declare x).1, assigned hl, by simpa [g2] using h1, fun y hy => by simpa [g2] using h4 y hy, fun l' hl' => (h2 l' hl').1,
    fun hn => (h3 hn).1, fun W s N hr ha => ?_⟩
  obtain ⟨W', s', y, gp, mp, r1, r2, -, r4, -, r6⟩ := hk W s N hr ha.world ha.form ha.scope ha.top 0 none none
  exact evaluates_of ha.called rfl r1 r2 ⟨r2, W', r4, r6⟩

/-- `(set! x e)` gives the value of `e` to the innermost visible variable `x`: the local one if there is one, else the global one.
All other variables keep their values. -/
theorem C39_set_partial {l : Nat} (hK : Implements K.builtin mes δ) (h : Eval mes δ d ρ σ e v σ₁) (hx : ρ x = some l ∨ ρ x = none ∧ σ.globals x = some l)
    (hl : l < σ₁.vals.length) :
    ∃ k σ', Assigned σ₁ l v σ' ∧
      ∀ W s N, Ready s k (d + 1) → AtCode s W mes N ρ σ (.set x e) → Evaluates K s (Result s mes (.obj c_unspecified) σ') := by
  have hf : σ₁.find ρ x = some l := by
    unfold Store.find
    rcases hx with hx | ⟨hx, hx'⟩
    · rw [hx]; rfl
    · rw [hx, (eval_grows h).2, hx']; rfl
  obtain ⟨k, hk⟩ := C30_expr_partial hK (.set h hf)
  exact ⟨k, _, assigned hl, hk⟩

/-- `set!` of a variable that is not bound is an error. -/
theorem C39_set_unbound_partial (hK : Implements K.builtin mes δ) (hE : Raises K.builtin mes ε) (h : Eval mes δ d ρ σ e v σ₁)
    (hx : ρ x = none) (hg : σ.globals x = none) :
    ∃ k, ∀ W s N, Ready s k (d + 1) → AtCode s W mes N ρ σ (.set x e) → Errs K s .notAPair := by
  have hf : σ₁.find ρ x = none := by unfold Store.find; rw [hx, (eval_grows h).2, hg]; rfl
  obtain ⟨⟨k, hk⟩, -⟩ := sim_fail (mv := False) (T := fun _ => False) hK hE (fun q => q.elim) (fun q => q.elim) (.set h hf)
  exact ⟨k, fun W s N hr h => errs_of h.called rfl (hk W s N hr h.world no_strings h.code h.scope)⟩

/-- A variable that is not bound is an error. -/
theorem C39_unbound_partial (hK : Implements K.builtin mes δ) (hE : Raises K.builtin mes ε) (hx : ρ x = none) (hg : σ.globals x = none) :
    ∃ k, ∀ W s N, Ready s k d → AtCode s W mes N ρ σ (.var x) → Errs K s .unboundVariable := by
  obtain ⟨⟨k, hk⟩, -⟩ := sim_fail (mv := False) (T := fun _ => False) (d := d) hK hE (fun q => q.elim) (fun q => q.elim) (.var (x := x) (ρ := ρ) (σ := σ) (by unfold Store.find; rw [hx, hg]; rfl))
  exact ⟨k, fun W s N hr h => errs_of h.called rfl (hk W s N hr h.world no_strings h.code h.scope)⟩

/-- A global variable that no local one hides has the value of its location. -/
theorem C39_value_partial {l : Nat} (hK : Implements K.builtin mes δ) (hx : ρ x = none) (hg : σ.globals x = some l) (hv : σ.vals[l]? = some v) :
    ∃ k, ∀ W s N, Ready s k d → AtCode s W mes N ρ σ (.var x) → Evaluates K s (Result s mes v σ) :=
  C30_expr_partial hK (.var (l := l) (by unfold Store.find; rw [hx, hg]; rfl) hv)

/-- `(define f (+ x 1))`, `(set! x (+ x 1))`, `(set! f 1)`, and `f`: the hypotheses hold. -/
def defineCode : List Cell :=
  [pair c_symbol_define 199, pair y_f 200, pair 201 c_nil, pair y_plus 202, pair y_x 203, pair 204 c_nil, num 1,
   pair c_symbol_set_x 206, pair y_x 200, pair c_symbol_set_x 208, pair y_f 203]

theorem define_names : IsCode (prog defineCode 198) progGhost mes (progNames.without y_f) 201 incExpr := by
  have hx : IsCode (prog defineCode 198) progGhost mes (progNames.without y_f) y_x (.var y_x) :=
    .var (prog_name _ _ (by decide)) ⟨by decide, by decide⟩ (by decide)
  have hp : IsCode (prog defineCode 198) progGhost mes (progNames.without y_f) y_plus (.var y_plus) :=
    .var (prog_name _ _ (by decide)) ⟨by decide, by decide⟩ (by decide)
  have hn : IsCode (prog defineCode 198) progGhost mes (progNames.without y_f) 204 (.const (.int 1)) :=
    .const (.int ⟨by decide, rfl, rfl⟩ (by decide)) (by decide) (by decide)
  exact .app (by fixed_pair) (by decide) hp (.cons (by fixed_pair) hx (by decide) (.cons (by fixed_pair) hn (by decide) .nil)) (fun _ => trivial)

example : AtForm (prog defineCode 198) progGhost mes progNames progStore (.define y_f incExpr) ∧
    Eval mes Computes 3 (fun _ => none) (progStore.declare y_f).2 incExpr (.int 8) (progStore.declare y_f).2 ∧
    (∀ l, progStore.globals y_f = some l → l < progStore.vals.length) := by
  refine ⟨prog_form (.define (by fixed_pair) rfl (by fixed_pair) rfl (prog_name _ _ (by decide)) (by decide) (by fixed_pair) (.inr define_names)), ?_, ?_⟩
  · refine .app (fun _ => trivial) (.cons (.var (l := 3) rfl rfl) (.cons (.const _) .nil)) (.var (l := 2) rfl rfl) (.prim ?_)
    exact plus_two (word_small (by decide)) (word_small (by decide))
  · intro l h; cases h

example : AtCode (prog defineCode 207) progGhost mes progNames (fun _ => none) progStore (.set y_f (.const (.int 1))) ∧
    AtCode (prog defineCode y_f) progGhost mes progNames (fun _ => none) progStore (.var y_f) ∧ progStore.globals y_f = none ∧
    progStore.globals y_x = some 3 ∧ 3 < progStore.vals.length ∧ Implements builtins.builtin mes Computes ∧ Raises builtins.builtin mes Rejects := by
  refine ⟨prog_at ?_, prog_at (prog_var _ _ _ (by decide)), rfl, rfl, by decide, implements_builtins, raises_builtins⟩
  exact .set (by fixed_pair) rfl (by fixed_pair) (.name (prog_name _ _ (by decide)) (by decide)) (by fixed_pair) (prog_num mes 11 rfl (by decide) rfl)

end Mes.Props
