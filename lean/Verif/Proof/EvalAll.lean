import Verif.Proof.EvalCall
/-
The simulation theorem: by induction on the meaning of expressions.
-/
namespace Mes
open Res Spec Gc

variable {mv : Prop} {K : Calls} {s s' : St} {W W' : Ghost} {mes : Bool} {σ σ' : Store} {N : Idents} {ρ : Locals} {d k : Nat}
  {δ : Int → Int → List Value → Value → Prop}

def EvalInfo (mv : Prop) (K : Calls) (mes : Bool) (d : Nat) (ρ : Locals) (σ : Store) (e : Expr) (v : Value) (σ' : Store) : Prop :=
  (∃ k, EvalOk mv K mes k d ρ σ e v σ') ∧ σ'.globals = σ.globals ∧ ∀ es, e = .begin es → ∃ k, SeqOk mv K mes .beginRest k d ρ σ es v σ'

def ArgsInfo (mv : Prop) (K : Calls) (mes : Bool) (d : Nat) (ρ : Locals) (σ : Store) (es : List Expr) (vs : List Value) (σ' : Store) : Prop :=
  (∃ k, ArgsOk mv K mes k d ρ σ es vs σ') ∧ σ'.globals = σ.globals

def SeqInfo (mv : Prop) (K : Calls) (mes : Bool) (d : Nat) (ρ : Locals) (σ : Store) (es : List Expr) (v : Value) (σ' : Store) : Prop :=
  (∃ k, SeqOk mv K mes .beginRest k d ρ σ es v σ') ∧ (∃ k, SeqOk mv K mes .beginLoop k d ρ σ es v σ') ∧ σ'.globals = σ.globals ∧ es ≠ []

def CallInfo' (mv : Prop) (K : Calls) (mes : Bool) (d : Nat) (σ : Store) (fv : Value) (vs : List Value) (v : Value) (σ' : Store) : Prop :=
  (∃ k, CallInfo mv K mes k d σ fv vs v σ') ∧ σ'.globals = σ.globals

theorem sim (hK : Implements K.builtin mes δ) (hm : mv → ∀ n id vs v, δ n id vs v → MovesBuiltin K.builtin mes n id vs)
    {e : Expr} {v : Value} (h : Eval mes δ d ρ σ e v σ') : EvalInfo mv K mes d ρ σ e v σ' := by
  refine Eval.rec (motive_1 := fun d ρ σ e v σ' _ => EvalInfo mv K mes d ρ σ e v σ')
    (motive_2 := fun d ρ σ es vs σ' _ => ArgsInfo mv K mes d ρ σ es vs σ')
    (motive_3 := fun d ρ σ es v σ' _ => SeqInfo mv K mes d ρ σ es v σ')
    (motive_4 := fun d σ fv vs v σ' _ => CallInfo' mv K mes d σ fv vs v σ')
    ?_ ?_ ?_ ?_ ?_ ?_ ?_ ?_ ?_ ?_ ?_ ?_ ?_ ?_ ?_ ?_ ?_ ?_ ?_ h
  · intro d ρ σ c; exact ⟨⟨0, evalOk_const c⟩, rfl, nofun⟩
  · intro d ρ σ c; exact ⟨⟨0, evalOk_quote c⟩, rfl, nofun⟩
  · intro d ρ σ x l v hl hv; exact ⟨⟨1, evalOk_var hl hv⟩, rfl, nofun⟩
  · rintro d ρ σ c t e w v σ₁ σ₂ hc hw ht ⟨⟨k1, h1⟩, g1, _⟩ ⟨⟨k2, h2⟩, g2, _⟩
    exact ⟨⟨_, evalOk_if h1 h2 (.inl ⟨hw, rfl⟩)⟩, g2.trans g1, nofun⟩
  · rintro d ρ σ c t e v σ₁ σ₂ hc he ⟨⟨k1, h1⟩, g1, _⟩ ⟨⟨k2, h2⟩, g2, _⟩
    exact ⟨⟨_, evalOk_if h1 h2 (.inr ⟨rfl, rfl⟩)⟩, g2.trans g1, nofun⟩
  · rintro d ρ σ c t w v σ₁ σ₂ hc hw ht ⟨⟨k1, h1⟩, g1, _⟩ ⟨⟨k2, h2⟩, g2, _⟩
    exact ⟨⟨_, evalOk_ifTrue h1 hw h2⟩, g2.trans g1, nofun⟩
  · rintro d ρ σ c t σ₁ hc ⟨⟨k1, h1⟩, g1, _⟩
    exact ⟨⟨_, evalOk_ifFalse h1⟩, g1, nofun⟩
  · intro d ρ σ fs r b; exact ⟨⟨_, evalOk_lam fs r b⟩, rfl, nofun⟩
  · rintro d ρ σ f args vs fv v σ₁ σ₂ σ₃ hs ha hf hc ⟨⟨k1, h1⟩, g1⟩ ⟨⟨k2, h2⟩, g2, _⟩ ⟨⟨k3, h3⟩, g3⟩
    refine ⟨⟨_, evalOk_app (k0 := 4) (fun W s N hr hw hco hsc hdir => ?_) h1 hf h2 h3 hc⟩, g3.trans (g2.trans g1), nofun⟩
    exact first_ok (by cases mes; exact hdir rfl; exact hs rfl) hf g1 hr hw hco hsc
  · rintro d ρ σ f args vs w fv v σ₀ σ₁ σ₂ σ₃ hm hs h0 ha hf hc ⟨⟨k0, h0⟩, g0, _⟩ ⟨⟨k1, h1⟩, g1⟩ ⟨⟨k2, h2⟩, g2, _⟩ ⟨⟨k3, h3⟩, g3⟩
    exact ⟨⟨_, evalOk_app (fun W s N hr hw hco hsc _ => ⟨w, h0 W s N hr hw hco hsc⟩) h1 hf h2 h3 hc⟩, g3.trans (g2.trans (g1.trans g0)), nofun⟩
  · rintro d ρ σ es v σ' h ⟨⟨k1, h1⟩, ⟨k2, h2⟩, g, _⟩
    exact ⟨⟨_, evalOk_begin h2⟩, g, fun es' e => by cases e; exact ⟨k1, h1⟩⟩
  · rintro d ρ σ x e v l σ' h hl ⟨⟨k1, h1⟩, g, _⟩
    exact ⟨⟨_, evalOk_set h1 hl⟩, g, nofun⟩
  · intro d ρ σ; exact ⟨⟨0, argsOk_nil⟩, rfl⟩
  · rintro d ρ σ e es v vs σ₁ σ₂ h hs ⟨⟨k1, h1⟩, g1, _⟩ ⟨⟨k2, h2⟩, g2⟩
    exact ⟨⟨_, argsOk_cons h1 h2⟩, g2.trans g1⟩
  · rintro d ρ σ e v σ' h ⟨⟨k1, h1⟩, g1, hb⟩
    exact ⟨⟨_, rest_one h1⟩, loop_one h1 hb, g1, by simp⟩
  · rintro d ρ σ e es w v σ₁ σ₂ h hs ⟨⟨k1, h1⟩, g1, hb⟩ ⟨⟨k2, h2⟩, ⟨k3, h3⟩, g2, hne⟩
    exact ⟨⟨_, rest_cons h1 h3 hne⟩, loop_cons h1 hb h3 hne, g2.trans g1, by simp⟩
  · intro d σ n id vs v h
    obtain ⟨k, hk⟩ := callOk_prim hK h fun q => hm q _ _ _ _ h
    exact ⟨⟨k, hk d σ, nofun⟩, rfl⟩
  · rintro d σ fs r b ρ vs ps v σ' hp h ⟨⟨k1, h1⟩, ⟨k2, h2⟩, g, _⟩
    refine ⟨⟨_, callOk_clo hp h2, fun fs' r' b' ρ' e => ?_⟩, g⟩
    cases e
    exact ⟨ps, k2, Nat.le_refl _, hp, h2⟩
  · rintro d σ f vs rest v σ' h ⟨⟨k1, h1, _⟩, g⟩
    exact ⟨⟨_, callOk_apply h1, nofun⟩, g⟩

theorem simArgs (hK : Implements K.builtin mes δ) (hm : mv → ∀ n id vs v, δ n id vs v → MovesBuiltin K.builtin mes n id vs)
    {es : List Expr} {vs : List Value} (h : EvalArgs mes δ d ρ σ es vs σ') :
    ArgsInfo mv K mes d ρ σ es vs σ' := by
  induction vs generalizing d σ es with
  | nil => cases h; exact ⟨⟨0, argsOk_nil⟩, rfl⟩
  | cons v vs ih =>
    cases h with
    | cons h hs =>
      obtain ⟨⟨k1, h1⟩, g1, _⟩ := sim hK hm h
      obtain ⟨⟨k2, h2⟩, g2⟩ := ih hs
      exact ⟨⟨_, argsOk_cons h1 h2⟩, g2.trans g1⟩

theorem simSeq (hK : Implements K.builtin mes δ) (hm : mv → ∀ n id vs v, δ n id vs v → MovesBuiltin K.builtin mes n id vs)
    {es : List Expr} {v : Value} (h : EvalSeq mes δ d ρ σ es v σ') : SeqInfo mv K mes d ρ σ es v σ' := by
  induction es generalizing d σ with
  | nil => cases h
  | cons e es ih =>
    cases h with
    | one h =>
      obtain ⟨⟨k1, h1⟩, g1, hb⟩ := sim hK hm h
      exact ⟨⟨_, rest_one h1⟩, loop_one h1 hb, g1, by simp⟩
    | cons h hs =>
      obtain ⟨⟨k1, h1⟩, g1, hb⟩ := sim hK hm h
      obtain ⟨⟨k2, h2⟩, ⟨k3, h3⟩, g2, hne⟩ := ih hs
      exact ⟨⟨_, rest_cons h1 h3 hne⟩, loop_cons h1 hb h3 hne, g2.trans g1, by simp⟩

theorem simCall (hK : Implements K.builtin mes δ) (hm : mv → ∀ n id vs v, δ n id vs v → MovesBuiltin K.builtin mes n id vs)
    {fv v : Value} {vs : List Value} (h : Call mes δ d σ fv vs v σ') :
    ∃ k, CallOk mv K mes k d σ fv vs v σ' := by
  induction d generalizing fv vs with
  | zero =>
    cases h with
    | prim h =>
      obtain ⟨k, hk⟩ := callOk_prim hK h fun q => hm q _ _ _ _ h
      exact ⟨k, hk _ σ⟩
    | clo hp h =>
      obtain ⟨-, ⟨k2, h2⟩, -⟩ := simSeq hK hm h
      exact ⟨_, callOk_clo hp h2⟩
  | succ d ih =>
    cases h with
    | prim h =>
      obtain ⟨k, hk⟩ := callOk_prim hK h fun q => hm q _ _ _ _ h
      exact ⟨k, hk _ σ⟩
    | clo hp h =>
      obtain ⟨-, ⟨k2, h2⟩, -⟩ := simSeq hK hm h
      exact ⟨_, callOk_clo hp h2⟩
    | apply h =>
      obtain ⟨k, hk⟩ := ih h
      exact ⟨_, callOk_apply hk⟩

end Mes
