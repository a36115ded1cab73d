import Verif.Proof.Determinism
import Verif.Props.Apply
/-
Property C56: the value of an expression is determined by the expression, the variables and the store.
-/
namespace Mes.Props
open Res Spec

variable {mes : Bool} {d d₁ d₂ : Nat} {ρ : Locals} {σ σ' σ₁ σ₂ : Store} {v v₁ v₂ f : Value} {vs : List Value} {e : Expr} {K : Calls}

/-- C56: an expression has one value, and leaves one store; the depth of the stack does not matter. -/
theorem C56_value (h₁ : Eval mes Computes d₁ ρ σ e v₁ σ₁) (h₂ : Eval mes Computes d₂ ρ σ e v₂ σ₂) : v₁ = v₂ ∧ σ₁ = σ₂ :=
  eval_det (δ := Computes) (fun _ _ _ _ _ => computes_det) h₂ h₁

/-- The same for calls. -/
theorem C56_call (h₁ : Call mes Computes d₁ σ f vs v₁ σ₁) (h₂ : Call mes Computes d₂ σ f vs v₂ σ₂) : v₁ = v₂ ∧ σ₁ = σ₂ :=
  call_det (δ := Computes) (fun _ _ _ _ _ => computes_det) h₂ h₁

/-- Builtins have one value. -/
theorem C56_builtin {n id : Int} (h₁ : Computes n id vs v₁) (h₂ : Computes n id vs v₂) : v₁ = v₂ := computes_det h₁ h₂

/-- So machines that hold the same expression, variables and store, wherever they are in memory, give the same value, and nothing else. -/
theorem C56_machines (hK : Implements K.builtin mes Computes) (h₁ : Eval mes Computes d₁ ρ σ e v₁ σ₁) (h₂ : Eval mes Computes d₂ ρ σ e v₂ σ₂) :
    ∃ k, ∀ W W' N N' s s', Ready s k d₁ → Ready s' k d₂ → AtCode s W mes N ρ σ e → AtCode s' W' mes N' ρ σ e →
      OnlyGives K s (Result s mes v₁ σ₁) ∧ OnlyGives K s' (Result s' mes v₁ σ₁) := by
  obtain ⟨rfl, rfl⟩ := C56_value h₁ h₂
  obtain ⟨k, hk⟩ := C30_expr_partial hK h₁
  obtain ⟨k', hk'⟩ := C30_expr_partial hK h₂
  refine ⟨max k k', fun W W' N N' s s' hr hr' h h' => ⟨(hk W s N ?_ h).only, (hk' W' s' N' ?_ h').only⟩⟩
  · have := hr.slack; exact { hr with slack := by omega }
  · have := hr'.slack; exact { hr' with slack := by omega }

/-- `(+ x 1)`, in a store where `x` is 41: the same value with more of the stack. -/
example : let σ : Store := ⟨[.int 41, .prim (-1) 200], fun x => if x = 0 then some 0 else if x = 1 then some 1 else none⟩
    ∀ d, Eval mes Computes (d + 4) (fun _ => none) σ (.app (.var 1) [.var 0, .const (.int 1)]) (.int 42) σ := by
  intro σ d
  refine .app (fun _ => trivial) (.cons (.var (l := 0) (v := .int 41) rfl rfl) (.cons (.const (.int 1)) .nil)) (.var (l := 1) (v := .prim (-1) 200) rfl rfl) (.prim ?_)
  exact Computes.plus (ns := [41, 1]) (fun k => by rcases k with _ | _ | k <;> simp [Word])

end Mes.Props
