import Verif.Props.Collected
import Verif.Props.Define
/-
Properties C31, C33, C34, C35, C36, C37 and C39 in memories of any size, with garbage collections during the evaluation.  Each follows from C57:
the machine does what the semantics says, or it stops because the memory or the stack is full.
-/
namespace Mes.Props
open Res Spec Gc

variable {mes : Bool} {d : Nat} {ρ ρ' : Locals} {σ σ' σ₀ σ₁ σ₂ σ₃ : Store} {v w fv : Value} {W : Ghost} {N : Idents} {s t : St} {g : Int → Int}
  {T : Int → Prop} {f : Expr} {args b : List Expr} {vs ps : List Value} {fs : List Int} {r : Option Int} {key : Key}

/-- The memory `s` holds the same data as `t`, perhaps at other addresses, and it can be collected. -/
structure Moves (g : Int → Int) (t s : St) : Prop where
  iso : Iso g t s
  sound : Sound t
  collectable : Collectable s
  frame : HasFrame t

theorem value_collected {e : Expr} (h : Eval mes Computes d ρ σ e v σ') (hm : Moves g t s) (ha : AtCode t W mes N ρ σ e) :
    Exhausts builtins s ∨ Evaluates builtins s (ResultMoved t mes v σ') := C57_value h hm.iso hm.sound hm.collectable hm.frame ha

theorem error_collected {e : Expr} (h : Fail mes Computes Rejects T d ρ σ e key) (hm : Moves g t s) (ha : AtCode t W mes N ρ σ e)
    (hT : Strings t W T) : Exhausts builtins s ∨ Errs builtins s key := by
  obtain ⟨⟨k, hk⟩, -⟩ := sim_fail (mv := True) implements_builtins raises_builtins (fun _ => moves_builtins) (fun _ => moves_rejects) h
  have hu := unlimited_code (t.free + k) (5 * d : Nat) ha
  exact fails_call builtins_fuel hm.iso hm.sound hm.collectable ha.called rfl
    (hk W _ N (unlimited_ready hm.sound hm.frame) hu.world (unlimited_strings _ _ hT) hu.code hu.scope)

/-- C34 with collections: `if` evaluates its test, and then exactly one of its branches. -/
theorem C34_if_collected {c e e' : Expr} (hc : Eval mes Computes d ρ σ c w σ₁) (hf : w = .obj c_f → Eval mes Computes (d + 1) ρ σ₁ e' v σ')
    (ht : w ≠ .obj c_f → Eval mes Computes (d + 1) ρ σ₁ e v σ') (hm : Moves g t s) (ha : AtCode t W mes N ρ σ (.ite c e e')) :
    Exhausts builtins s ∨ Evaluates builtins s (ResultMoved t mes v σ') := by
  refine value_collected (d := d + 1) ?_ hm ha
  by_cases h : w = .obj c_f
  · subst h; exact .iteFalse hc (hf rfl)
  · exact .iteTrue hc h (ht h)

/-- The same without alternative. -/
theorem C34_if_only_collected {c e : Expr} (hc : Eval mes Computes d ρ σ c w σ₁) (hf : w = .obj c_f → v = .obj c_unspecified ∧ σ' = σ₁)
    (ht : w ≠ .obj c_f → Eval mes Computes (d + 1) ρ σ₁ e v σ') (hm : Moves g t s) (ha : AtCode t W mes N ρ σ (.ifOnly c e)) :
    Exhausts builtins s ∨ Evaluates builtins s (ResultMoved t mes v σ') := by
  refine value_collected (d := d + 1) ?_ hm ha
  by_cases h : w = .obj c_f
  · subst h; obtain ⟨rfl, rfl⟩ := hf rfl; exact .ifFalse hc
  · exact .ifTrue hc h (ht h)

/-- C33 with collections. -/
theorem C33_collected_partial (hd : Direct f) (ha : EvalArgs mes Computes d ρ σ args vs σ₁) (hf : Eval mes Computes d ρ σ₁ f fv σ₂)
    (hc : Call mes Computes (d + 1) σ₂ fv vs v σ₃) (hm : Moves g t s) (h : AtCode t W mes N ρ σ (.app f args)) :
    Exhausts builtins s ∨ Evaluates builtins s (ResultMoved t mes v σ₃) :=
  value_collected (.app (fun _ => hd) ha hf hc) hm h

/-- C35 with collections: a call with fitting arguments binds the parameters to them, the rest parameter to the list of the others. -/
theorem C35_call_collected_partial (hp : paramVals fs r vs = some ps)
    (hb : EvalSeq mes Computes d (bindAll (fs ++ r.toList) σ.vals.length ρ) { σ with vals := σ.vals ++ ps } b v σ') (hm : Moves g t s)
    (h : AtCall t W mes σ (.clo fs r b ρ) vs) : Exhausts builtins s ∨ Evaluates builtins s (ResultMoved t mes v σ') :=
  C57_call (.clo hp hb) hm.iso hm.sound hm.collectable hm.frame h

/-- The wrong number of arguments is an error. -/
theorem C35_collected_partial (h0 : Eval mes Computes d ρ σ f w σ₀) (ha : EvalArgs mes Computes d ρ σ₀ args vs σ₁)
    (hf : Eval mes Computes d ρ σ₁ f (.clo fs none b ρ') σ₂) (hn : vs.length ≠ fs.length) (hl : IsLam f → fs.length < vs.length)
    (hm : Moves g t s) (h : AtCode t W mes N ρ σ (.app f args)) : Exhausts builtins s ∨ Errs builtins s .wrongNumberOfArgs :=
  error_collected (T := fun _ => False) (.call h0 ha hf (.count hn hl)) hm h no_strings

/-- C36 with collections: what is not a procedure is not applied. -/
theorem C36_collected_partial (h0 : Eval mes Computes d ρ σ f w σ₀) (ha : EvalArgs mes Computes d ρ σ₀ args vs σ₁)
    (hf : Eval mes Computes d ρ σ₁ f v σ₂) (hv : NotProc T v) (hm : Moves g t s) (h : AtCode t W mes N ρ σ (.app f args))
    (hT : Strings t W T) : Exhausts builtins s ∨ Errs builtins s .wrongTypeArg :=
  error_collected (.call h0 ha hf (.notProc hv)) hm h hT

/-- C37 with collections: a lambda expression gives a closure over the variables of its place, a variable is the innermost one, and a
closure runs with the variables of its place, whatever the registers hold where it is called. -/
theorem C37_lambda_collected (hm : Moves g t s) (h : AtCode t W mes N ρ σ (.lam fs r b)) :
    Exhausts builtins s ∨ Evaluates builtins s (ResultMoved t mes (.clo fs r b ρ) σ) :=
  value_collected (d := 0) (.lam fs r b) hm h

theorem C37_variable_collected {x : Int} {l : Nat} (hl : ρ x = some l ∨ ρ x = none ∧ σ.globals x = some l) (hv : σ.vals[l]? = some v)
    (hm : Moves g t s) (h : AtCode t W mes N ρ σ (.var x)) : Exhausts builtins s ∨ Evaluates builtins s (ResultMoved t mes v σ) := by
  refine value_collected (d := 0) (.var (l := l) ?_ hv) hm h
  unfold Store.find
  rcases hl with h | ⟨h, h'⟩
  · rw [h]; rfl
  · rw [h, h']; rfl

theorem C37_call_collected (hp : paramVals fs r vs = some ps)
    (hb : EvalSeq mes Computes d (bindAll (fs ++ r.toList) σ.vals.length ρ) { σ with vals := σ.vals ++ ps } b v σ') (hm : Moves g t s)
    (h : AtCall t W mes σ (.clo fs r b ρ) vs) : Exhausts builtins s ∨ Evaluates builtins s (ResultMoved t mes v σ') :=
  C57_call (.clo hp hb) hm.iso hm.sound hm.collectable hm.frame h

/-- C39 with collections: `set!` changes the innermost visible variable only. -/
theorem C39_set_collected {x : Int} {e : Expr} {l : Nat} (h : Eval mes Computes d ρ σ e v σ₁) (hx : ρ x = some l ∨ ρ x = none ∧ σ.globals x = some l)
    (hl : l < σ₁.vals.length) : ∃ σ', Assigned σ₁ l v σ' ∧ ∀ g t s W N, Moves g t s → AtCode t W mes N ρ σ (.set x e) →
      Exhausts builtins s ∨ Evaluates builtins s (ResultMoved t mes (.obj c_unspecified) σ') := by
  have hf : σ₁.find ρ x = some l := by
    unfold Store.find
    rcases hx with hx | ⟨hx, hx'⟩
    · rw [hx]; rfl
    · rw [hx, (eval_grows h).2, hx']; rfl
  exact ⟨_, assigned hl, fun g t s W N hm ha => value_collected (.set h hf) hm ha⟩

/-- Variables that are not bound are errors. -/
theorem C39_unbound_collected {x : Int} (hx : ρ x = none) (hg : σ.globals x = none) (hm : Moves g t s) (h : AtCode t W mes N ρ σ (.var x)) :
    Exhausts builtins s ∨ Errs builtins s .unboundVariable :=
  error_collected (T := fun _ => False) (d := 0) (.var (by unfold Store.find; rw [hx, hg]; rfl)) hm h no_strings

/-- C31 with collections: any number of tail calls gives the value of the last one. -/
theorem C31_collected_partial {n : Nat} {c c' : Config} (h : Tails mes Computes d n c c') (h' : Eval mes Computes (d + 1) c'.ρ c'.σ c'.e v σ')
    (hm : Moves g t s) (ha : AtCode t W mes N c.ρ c.σ c.e) : Exhausts builtins s ∨ Evaluates builtins s (ResultMoved t mes v σ') :=
  value_collected (h.eval h') hm ha

/-- The loop in an arena of 360 cells meets the hypotheses of the theorems about values; it is `(begin (set! …) …)`. -/
theorem tight_moves : Moves id (tightLoop 1000) (tightLoop 1000) :=
  ⟨tight_iso, tight_sound, tight_collectable, by unfold HasFrame; decide⟩

theorem tight_code : AtCode (tightLoop 1000) progGhost mes progNames (fun _ => none) progStore (loopExpr 1000) := by
  have h := tight_at (mes := mes)
  exact ⟨h.called, h.world, by cases h.form with | expr h => exact h, h.scope⟩

example : ∃ n c' σ', Tails mes Computes 5 n ⟨fun _ => none, progStore, loopExpr 1000⟩ c' ∧ Eval mes Computes 6 c'.ρ c'.σ c'.e (.int 500500) σ' ∧
    Moves id (tightLoop 1000) (tightLoop 1000) ∧ AtCode (tightLoop 1000) progGhost mes progNames (fun _ => none) progStore (loopExpr 1000) := by
  obtain ⟨c', h1, h2⟩ := loop_tails (mes := mes) 1000 (by decide)
  exact ⟨_, c', _, h1, h2, tight_moves, tight_code⟩

/-- The objects of the sample memory with `n` cells of code, none of which is a record. -/
def simpleObjects (n : Nat) : List Int :=
  (List.range 113).map (fun i : Nat => (3 + i : Int)) ++ (List.range 7).map (fun i : Nat => (116 + 2 * i : Int)) ++ [130, 137, 144] ++
    (List.range 10).map (fun i : Nat => (151 + i : Int)) ++ [162, 168, 175, 176] ++ (List.range 7).map (fun i : Nat => (177 + 3 * i : Int)) ++
    (List.range n).map (fun i : Nat => (198 + i : Int))

theorem simple_moves {code : List Cell} {c : Int} (h : Sound (prog code c)) (hr : code.length ≤ 1000) : Moves id (prog code c) (prog code c) := by
  refine ⟨tight_iso, h, ⟨h, ?_, by show (2 : Int) * (100000 + 2) ≤ 200003 + 1; decide⟩, by unfold HasFrame; show (995 : Int) + 5 ≤ 1000; decide⟩
  rw [prog_free]
  show _ ≤ (100000 : Int) + 2
  omega

/-- `(if x 1)`, `(5)`, `((lambda (n) n) …)` with its operator, `(set! f 1)` and `f` in the sample memory. -/
example : Moves id (prog ifCode 198) (prog ifCode 198) ∧ Moves id (prog [pair 199 c_nil, num 5] 198) (prog [pair 199 c_nil, num 5] 198) ∧
    Moves id (prog fewCode 198) (prog fewCode 198) ∧ Moves id (prog defineCode y_f) (prog defineCode y_f) ∧ Moves id (prog defineCode 207) (prog defineCode 207) :=
  ⟨simple_moves (sound_of_check (l := simpleObjects 4) (by decide +kernel)) (by decide),
    simple_moves (sound_of_check (l := simpleObjects 2) (by decide +kernel)) (by decide),
    simple_moves (sound_of_check (l := simpleObjects fewCode.length) (by decide +kernel)) (by decide),
    simple_moves (sound_of_check (l := simpleObjects defineCode.length) (by decide +kernel)) (by decide),
    simple_moves (sound_of_check (l := simpleObjects defineCode.length) (by decide +kernel)) (by decide)⟩

end Mes.Props
