import Verif.Proof.Collected
import Verif.Proof.GcPath
import Verif.Proof.EvalLoop
/-
Property C57: garbage collections during evaluation.

`eval_apply` calls the collector itself (`gc_check`, /repo/src/eval-apply.c:686, 821, 864), which moves every object.  The theorems say
that in a memory of any size the evaluator still follows the semantics: the only other outcome is that it stops because the memory or
the stack is full.  The memory at the start may itself have been collected: what is said about code and variables is said about a
memory `t` with the same data.
-/
namespace Mes.Props
open Res Spec Gc

variable {mes : Bool} {d : Nat} {ρ : Locals} {σ σ' : Store} {v : Value} {W : Ghost} {N : Idents} {s t : St} {g : Int → Int}

/-- C57: a top level form is evaluated to its value, or the memory is exhausted.  When the evaluator returns, the memory is, up to the
addresses of the objects, one with the stack as it was, the variables as the semantics says and the value in `R1`; and it can be used
for the next evaluation. -/
theorem C57_form {e : Toplevel} (h : EvalForm mes Computes d σ e v σ') (hi : Iso g t s) (ht : Sound t) (hc : Collectable s)
    (hf : HasFrame t) (ha : AtForm t W mes N σ e) : Exhausts builtins s ∨ Evaluates builtins s (ResultMoved t mes v σ') := by
  obtain ⟨k, hk⟩ := top (mv := True) implements_builtins (fun _ => moves_builtins) h
  have hu := unlimited_form (t.free + k) (5 * d : Nat) ha
  obtain ⟨W', t', x, gp, mp, h1, h2, -, h4, -, h6⟩ := hk W _ N (unlimited_ready ht hf) hu.world hu.form hu.scope hu.top 0 none none
  exact top_call builtins_fuel hi ht hc ha.called rfl h1 ⟨h2, W', h4, h6⟩

/-- The same for an expression with local variables. -/
theorem C57_value {e : Expr} (h : Eval mes Computes d ρ σ e v σ') (hi : Iso g t s) (ht : Sound t) (hc : Collectable s)
    (hf : HasFrame t) (ha : AtCode t W mes N ρ σ e) : Exhausts builtins s ∨ Evaluates builtins s (ResultMoved t mes v σ') := by
  obtain ⟨⟨k, hk⟩, -⟩ := sim (mv := True) implements_builtins (fun _ => moves_builtins) h
  have hu := unlimited_code (t.free + k) (5 * d : Nat) ha
  exact sub_call builtins_fuel hi ht hc ha.called rfl (hk W _ N (unlimited_ready ht hf) hu.world hu.code hu.scope)

/-- The same for a call of a procedure. -/
theorem C57_call {fv : Value} {vs : List Value} (h : Call mes Computes d σ fv vs v σ') (hi : Iso g t s) (ht : Sound t)
    (hc : Collectable s) (hf : HasFrame t) (ha : AtCall t W mes σ fv vs) :
    Exhausts builtins s ∨ Evaluates builtins s (ResultMoved t mes v σ') := by
  obtain ⟨k, hk⟩ := simCall (mv := True) implements_builtins (fun _ => moves_builtins) h
  have hu := unlimited_call (t.free + k) (5 * d : Nat) ha
  exact sub_call builtins_fuel hi ht hc ha.called rfl (hk W _ (unlimited_ready ht hf) hu.world hu.pair hu.proc hu.args)

/-- A form that raises an error in the semantics raises this error, or the memory is exhausted. -/
theorem C57_error {e : Toplevel} {T : Int → Prop} {key : Key} (h : FailForm mes Computes Rejects T d σ e key) (hi : Iso g t s)
    (ht : Sound t) (hc : Collectable s) (hf : HasFrame t) (ha : AtForm t W mes N σ e) (hT : Strings t W T) :
    Exhausts builtins s ∨ Errs builtins s key := by
  obtain ⟨k, hk⟩ := top_fail (mv := True) implements_builtins raises_builtins (fun _ => moves_builtins) (fun _ => moves_rejects) h
  have hu := unlimited_form (t.free + k) (5 * d : Nat) ha
  exact fails_call builtins_fuel hi ht hc ha.called rfl
    (hk W _ N (unlimited_ready ht hf) hu.world (unlimited_strings _ _ hT) hu.form hu.scope hu.top)

/-- The evaluator that stops because the memory is full has not returned and raised no error: so what it returns is always the value. -/
theorem C57_only {e : Toplevel} (h : EvalForm mes Computes d σ e v σ') (hi : Iso g t s) (ht : Sound t) (hc : Collectable s)
    (hf : HasFrame t) (ha : AtForm t W mes N σ e) : OnlyGives builtins s (ResultMoved t mes v σ') := by
  rcases C57_form h hi ht hc hf ha with h | h
  · exact ⟨fun s' hr => absurd hr h.not_returns, fun key he => h.not_errs he⟩
  · exact h.only

/-- The sample memory with a loop in an arena of 360 cells. -/
def tightLoop (m : Int) : St := { prog (loopCode m) 198 with arena := 360 }

/-- The objects of this memory. -/
def tightObjects : List Int :=
  (List.range 113).map (fun i : Nat => (3 + i : Int)) ++ (List.range 7).map (fun i : Nat => (116 + 2 * i : Int)) ++ [130, 137, 144] ++
    (List.range 10).map (fun i : Nat => (151 + i : Int)) ++ [162, 168, 175, 176] ++ (List.range 7).map (fun i : Nat => (177 + 3 * i : Int)) ++
    (List.range 33).map (fun i : Nat => (198 + i : Int))

theorem tight_sound : Sound (tightLoop 1000) := sound_of_check (l := tightObjects) (by decide +kernel)

theorem tight_collectable : Collectable (tightLoop 1000) := ⟨tight_sound, by decide +kernel, by decide +kernel⟩

theorem tight_iso {s : St} : Iso id s s := by
  have hc : ∀ c : Cell, SameCell id c c := fun c => ⟨rfl, by simp, fun _ _ => by simp, fun _ => rfl⟩
  exact ⟨fun a _ => hc _, fun a _ _ i _ => hc _, fun a b _ _ h => h, fun _ _ _ => rfl, rfl, rfl, rfl, rfl, rfl, rfl, rfl, rfl,
    rfl, rfl, fun _ _ _ => rfl, rfl, rfl, rfl, rfl, rfl⟩

theorem tight_at : AtForm (tightLoop 1000) progGhost mes progNames progStore (.expr (loopExpr 1000)) := by
  have h := prog_form (mes := mes) (.expr (loop_code 1000))
  have hg : Grow (prog (loopCode 1000) 198) (tightLoop 1000) := ⟨Int.le_refl _, fun _ _ => rfl⟩
  exact ⟨⟨rfl, rfl⟩, h.world.grow hg rfl, h.form.later (hg.later _), h.scope.later (hg.later _), h.top⟩

/-- The hypotheses hold for a loop in this memory. -/
example : ∃ d σ', EvalForm mes Computes d progStore (.expr (loopExpr 1000)) (.int 500500) σ' ∧ Collectable (tightLoop 1000) ∧
    HasFrame (tightLoop 1000) ∧ AtForm (tightLoop 1000) progGhost mes progNames progStore (.expr (loopExpr 1000)) := by
  obtain ⟨c', h1, h2⟩ := loop_tails (mes := mes) 1000 (by decide)
  exact ⟨_, _, .expr (h1.eval h2), tight_collectable, by unfold HasFrame; decide, tight_at⟩

/-- The loop needs more cells than there are: counting from 1, it returns 1 after a collection. -/
theorem tight_returns : ∃ s', Returns builtins (tightLoop 1) s' ∧ (s'.cell s'.r1).cdr = 1 ∧ s'.free = 249 := by
  obtain ⟨s', h1, h2⟩ := returns_of_computes (n := 230) (F := 370) (s := tightLoop 1)
    (P := fun s => decide ((s.cell s.r1).cdr = 1 ∧ s.free = 249)) builtins_fuel (by decide +kernel)
  exact ⟨s', h1, of_decide_eq_true h2⟩

end Mes.Props
