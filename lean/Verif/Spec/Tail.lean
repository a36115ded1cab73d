import Verif.Spec.Eval
/-
Expressions in tail position.
-/
namespace Mes.Spec

/-- Expressions before the last one of a sequence. -/
inductive EvalEffects (mes : Bool) (δ : Int → Int → List Value → Value → Prop) : Nat → Locals → Store → List Expr → Store → Prop
  | nil {d ρ σ} : EvalEffects mes δ d ρ σ [] σ
  | cons {d ρ σ e es w σ₁ σ₂} (h : Eval mes δ d ρ σ e w σ₁) (hs : EvalEffects mes δ (d + 1) ρ σ₁ es σ₂) :
      EvalEffects mes δ (d + 1) ρ σ (e :: es) σ₂

/-- An expression to be evaluated. -/
structure Config where
  ρ : Locals
  σ : Store
  e : Expr

/-- To evaluate the first expression it remains to evaluate the second one, which is in tail position: a branch of `if`, the end of
`begin`, or the end of the body of the called procedure.  What is evaluated before needs at most `d` waiting operations. -/
inductive Tail (mes : Bool) (δ : Int → Int → List Value → Value → Prop) (d : Nat) : Config → Config → Prop
  | iteTrue {ρ σ c t e w σ₁} (hc : Eval mes δ d ρ σ c w σ₁) (hw : w ≠ .obj c_f) : Tail mes δ d ⟨ρ, σ, .ite c t e⟩ ⟨ρ, σ₁, t⟩
  | iteFalse {ρ σ c t e σ₁} (hc : Eval mes δ d ρ σ c (.obj c_f) σ₁) : Tail mes δ d ⟨ρ, σ, .ite c t e⟩ ⟨ρ, σ₁, e⟩
  | ifTrue {ρ σ c t w σ₁} (hc : Eval mes δ d ρ σ c w σ₁) (hw : w ≠ .obj c_f) : Tail mes δ d ⟨ρ, σ, .ifOnly c t⟩ ⟨ρ, σ₁, t⟩
  | begin {ρ σ es e σ₁} (h : EvalEffects mes δ (d + 1) ρ σ es σ₁) : Tail mes δ d ⟨ρ, σ, .begin (es ++ [e])⟩ ⟨ρ, σ₁, e⟩
  | call {ρ σ f args vs fs r b e ρ' ps σ₁ σ₂ σ₃} (hs : mes = true → Direct f) (ha : EvalArgs mes δ d ρ σ args vs σ₁)
      (hf : Eval mes δ d ρ σ₁ f (.clo fs r (b ++ [e]) ρ') σ₂) (hp : paramVals fs r vs = some ps)
      (h : EvalEffects mes δ (d + 1) (bindAll (fs ++ r.toList) σ₂.vals.length ρ') { σ₂ with vals := σ₂.vals ++ ps } b σ₃) :
      Tail mes δ d ⟨ρ, σ, .app f args⟩ ⟨bindAll (fs ++ r.toList) σ₂.vals.length ρ', σ₃, e⟩
  | call2 {ρ σ f args vs w fs r b e ρ' ps σ₀ σ₁ σ₂ σ₃} (hm : mes = true) (hs : ¬ Direct f) (h0 : Eval mes δ d ρ σ f w σ₀)
      (ha : EvalArgs mes δ d ρ σ₀ args vs σ₁) (hf : Eval mes δ d ρ σ₁ f (.clo fs r (b ++ [e]) ρ') σ₂) (hp : paramVals fs r vs = some ps)
      (h : EvalEffects mes δ (d + 1) (bindAll (fs ++ r.toList) σ₂.vals.length ρ') { σ₂ with vals := σ₂.vals ++ ps } b σ₃) :
      Tail mes δ d ⟨ρ, σ, .app f args⟩ ⟨bindAll (fs ++ r.toList) σ₂.vals.length ρ', σ₃, e⟩

/-- `n` expressions in tail position, one after the other. -/
inductive Tails (mes : Bool) (δ : Int → Int → List Value → Value → Prop) (d : Nat) : Nat → Config → Config → Prop
  | refl {c} : Tails mes δ d 0 c c
  | step {n c c' c''} (h : Tail mes δ d c c') (hs : Tails mes δ d n c' c'') : Tails mes δ d (n + 1) c c''

end Mes.Spec
