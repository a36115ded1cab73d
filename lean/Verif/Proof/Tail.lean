import Verif.Spec.Tail
/-
The value of an expression in tail position is the value of the whole, with the same number of waiting operations.
-/
namespace Mes
open Spec

variable {mes : Bool} {δ : Int → Int → List Value → Value → Prop} {d n : Nat} {ρ : Locals} {σ σ₁ σ' : Store} {v : Value}

theorem Spec.EvalEffects.last {es : List Expr} {e : Expr} (h : EvalEffects mes δ d ρ σ es σ₁) (he : Eval mes δ d ρ σ₁ e v σ') :
    EvalSeq mes δ d ρ σ (es ++ [e]) v σ' := by
  induction h with
  | nil => exact .one he
  | cons h _ ih => exact .cons h (ih he)

theorem Spec.Tail.eval {c c' : Config} (h : Tail mes δ d c c') (he : Eval mes δ (d + 1) c'.ρ c'.σ c'.e v σ') :
    Eval mes δ (d + 1) c.ρ c.σ c.e v σ' := by
  cases h with
  | iteTrue hc hw => exact .iteTrue hc hw he
  | iteFalse hc => exact .iteFalse hc he
  | ifTrue hc hw => exact .ifTrue hc hw he
  | begin h => exact .begin (h.last he)
  | call hs ha hf hp h => exact .app hs ha hf (.clo hp (h.last he))
  | call2 hm hs h0 ha hf hp h => exact .app2 hm hs h0 ha hf (.clo hp (h.last he))

theorem Spec.Tails.eval {c c' : Config} (h : Tails mes δ d n c c') (he : Eval mes δ (d + 1) c'.ρ c'.σ c'.e v σ') :
    Eval mes δ (d + 1) c.ρ c.σ c.e v σ' := by
  induction h with
  | refl => exact he
  | step h _ ih => exact h.eval (ih he)

theorem Spec.Tails.trans {m : Nat} {c c' c'' : Config} (h : Tails mes δ d n c c') (h' : Tails mes δ d m c' c'') : Tails mes δ d (n + m) c c'' := by
  induction h with
  | refl => rw [Nat.zero_add]; exact h'
  | step h _ ih => rw [Nat.add_right_comm]; exact .step h (ih h')

end Mes
