import Verif.Spec.Builtins
/-
The value of an expression is determined, when the values of builtins are.
-/
namespace Mes.Spec

variable {mes : Bool} {δ : Int → Int → List Value → Value → Prop} {d d₁ d₂ : Nat} {ρ : Locals} {σ σ₁ σ₂ : Store} {f v₁ v₂ : Value} {vs : List Value}

theorem listVal_inj : ∀ {xs ys : List Value}, listVal xs = listVal ys → xs = ys
  | [], [], _ => rfl
  | [], _ :: _, h => by cases h
  | _ :: _, [], h => by cases h
  | x :: xs, y :: ys, h => by
    simp only [listVal, Value.pair.injEq] at h
    rw [h.1, listVal_inj h.2]

theorem ints_inj {xs ys : List Int} (h : xs.map Value.int = ys.map Value.int) : xs = ys := by
  induction xs generalizing ys with
  | nil => cases ys with
    | nil => rfl
    | cons y ys => cases h
  | cons x xs ih => cases ys with
    | nil => cases h
    | cons y ys =>
      simp only [List.map_cons, List.cons.injEq, Value.int.injEq] at h
      rw [h.1, ih h.2]

/-- Builtins have one value. -/
theorem computes_det {n id : Int} {vs : List Value} {v v' : Value} (h : Computes n id vs v) (h' : Computes n id vs v') : v = v' := by
  cases h
  case greater => generalize hv : List.map Value.int _ = vs at h'; cases h'; rw [ints_inj hv]
  case less => generalize hv : List.map Value.int _ = vs at h'; cases h'; rw [ints_inj hv]
  case equal => generalize hv : List.map Value.int _ = vs at h'; cases h'; rw [ints_inj hv]
  case plus => generalize hv : List.map Value.int _ = vs at h'; cases h'; rw [ints_inj hv]
  case multiply => generalize hv : List.map Value.int _ = vs at h'; cases h'; rw [ints_inj hv]
  case minus =>
    generalize hv : List.map Value.int _ = vs at h'
    cases h' with
    | negate => cases hv
    | minus =>
      have := ints_inj hv
      simp only [List.cons.injEq] at this
      rw [this.1, this.2.1, this.2.2]
  case negate =>
    generalize hv : [Value.int _] = vs at h'
    cases h' with
    | negate => cases hv; rfl
    | minus => cases hv
  case append vs ws =>
    generalize hv : [listVal vs, listVal ws] = us at h'
    cases h'
    simp only [List.cons.injEq, and_true] at hv
    rw [listVal_inj hv.1, listVal_inj hv.2]
  case length vs =>
    generalize hv : [listVal vs] = us at h'
    cases h'
    simp only [List.cons.injEq, and_true] at hv
    rw [listVal_inj hv]
  all_goals cases h'; rfl

/-- The value and the store after a call are determined. -/
theorem call_det (hδ : ∀ n id vs v v', δ n id vs v → δ n id vs v' → v = v') (h : Call mes δ d₁ σ f vs v₁ σ₁) (h' : Call mes δ d₂ σ f vs v₂ σ₂) :
    v₂ = v₁ ∧ σ₂ = σ₁ := by
  refine Call.rec (motive_1 := fun _ ρ σ e v σ' _ => ∀ d' v' σ'', Eval mes δ d' ρ σ e v' σ'' → v' = v ∧ σ'' = σ')
    (motive_2 := fun _ ρ σ es vs σ' _ => ∀ d' vs' σ'', EvalArgs mes δ d' ρ σ es vs' σ'' → vs' = vs ∧ σ'' = σ')
    (motive_3 := fun _ ρ σ es v σ' _ => ∀ d' v' σ'', EvalSeq mes δ d' ρ σ es v' σ'' → v' = v ∧ σ'' = σ')
    (motive_4 := fun _ σ f vs v σ' _ => ∀ d' v' σ'', Call mes δ d' σ f vs v' σ'' → v' = v ∧ σ'' = σ')
    ?_ ?_ ?_ ?_ ?_ ?_ ?_ ?_ ?_ ?_ ?_ ?_ ?_ ?_ ?_ ?_ ?_ ?_ ?_ h d₂ v₂ σ₂ h'
  · intro _ _ _ c d' v' σ'' h; cases h; exact ⟨rfl, rfl⟩
  · intro _ _ _ c d' v' σ'' h; cases h; exact ⟨rfl, rfl⟩
  · intro _ _ _ _ _ _ hl hv d' v' σ'' h
    cases h with | var hl' hv' => rw [hl] at hl'; cases hl'; rw [hv] at hv'; cases hv'; exact ⟨rfl, rfl⟩
  · intro _ _ _ _ _ _ _ _ _ _ _ hw _ hc ht d' v' σ'' h
    cases h with
    | iteTrue hc' hw' ht' => obtain ⟨rfl, rfl⟩ := hc _ _ _ hc'; exact ht _ _ _ ht'
    | iteFalse hc' he' => obtain ⟨rfl, rfl⟩ := hc _ _ _ hc'; exact absurd rfl hw
  · intro _ _ _ _ _ _ _ _ _ _ _ hc he d' v' σ'' h
    cases h with
    | iteTrue hc' hw' ht' => obtain ⟨rfl, rfl⟩ := hc _ _ _ hc'; exact absurd rfl hw'
    | iteFalse hc' he' => obtain ⟨-, rfl⟩ := hc _ _ _ hc'; exact he _ _ _ he'
  · intro _ _ _ _ _ _ _ _ _ _ hw _ hc ht d' v' σ'' h
    cases h with
    | ifTrue hc' hw' ht' => obtain ⟨rfl, rfl⟩ := hc _ _ _ hc'; exact ht _ _ _ ht'
    | ifFalse hc' => obtain ⟨rfl, rfl⟩ := hc _ _ _ hc'; exact absurd rfl hw
  · intro _ _ _ _ _ _ _ hc d' v' σ'' h
    cases h with
    | ifTrue hc' hw' ht' => obtain ⟨rfl, rfl⟩ := hc _ _ _ hc'; exact absurd rfl hw'
    | ifFalse hc' => obtain ⟨-, rfl⟩ := hc _ _ _ hc'; exact ⟨rfl, rfl⟩
  · intro _ _ _ fs r b d' v' σ'' h; cases h; exact ⟨rfl, rfl⟩
  · intro _ _ _ _ _ _ _ _ _ _ _ hs _ _ _ ha hf hc d' v' σ'' h
    cases h with
    | app hs' ha' hf' hc' => obtain ⟨rfl, rfl⟩ := ha _ _ _ ha'; obtain ⟨rfl, rfl⟩ := hf _ _ _ hf'; exact hc _ _ _ hc'
    | app2 hm hs' => exact absurd (hs hm) hs'
  · intro _ _ _ _ _ _ _ _ _ _ _ _ _ hm hs _ _ _ _ h0 ha hf hc d' v' σ'' h
    cases h with
    | app hs' ha' hf' hc' => exact absurd (hs' hm) hs
    | app2 hm' hs' h0' ha' hf' hc' =>
      obtain ⟨-, rfl⟩ := h0 _ _ _ h0'; obtain ⟨rfl, rfl⟩ := ha _ _ _ ha'; obtain ⟨rfl, rfl⟩ := hf _ _ _ hf'; exact hc _ _ _ hc'
  · intro _ _ _ _ _ _ _ h d' v' σ'' h'; cases h' with | begin h' => exact h _ _ _ h'
  · intro _ _ _ _ _ _ _ _ _ hl h d' v' σ'' h'
    cases h' with | set h' hl' => obtain ⟨rfl, rfl⟩ := h _ _ _ h'; rw [hl] at hl'; cases hl'; exact ⟨rfl, rfl⟩
  · intro _ _ _ d' v' σ'' h; cases h; exact ⟨rfl, rfl⟩
  · intro _ _ _ _ _ _ _ _ _ _ _ h hs d' v' σ'' h'
    cases h' with | cons h' hs' => obtain ⟨rfl, rfl⟩ := h _ _ _ h'; obtain ⟨rfl, rfl⟩ := hs _ _ _ hs'; exact ⟨rfl, rfl⟩
  · intro _ _ _ _ _ _ _ h d' v' σ'' h'
    cases h' with
    | one h' => exact h _ _ _ h'
    | cons h' hs' => cases hs'
  · intro _ _ _ _ _ _ _ _ _ _ hh h hs d' v' σ'' h'
    cases h' with
    | one h' => cases hh
    | cons h₁ h₂ => obtain ⟨-, rfl⟩ := h _ _ _ h₁; exact hs _ _ _ h₂
  · intro _ _ _ _ _ _ h d' v' σ'' h'
    cases h' with | prim h' => exact ⟨hδ _ _ _ _ _ h' h, rfl⟩
  · intro _ _ _ _ _ _ _ _ _ _ hp _ h d' v' σ'' h'
    cases h' with | clo hp' h' => rw [hp] at hp'; cases hp'; exact h _ _ _ h'
  · intro _ _ f vs rest _ _ _ h d' v' σ'' h'
    generalize hg : f :: listVal vs :: rest = us at h'
    generalize hf : Value.obj c_vm_apply = g at h'
    cases h' with
    | apply h' =>
      simp only [List.cons.injEq] at hg
      obtain ⟨rfl, hg, rfl⟩ := hg
      rw [← listVal_inj hg] at h'
      exact h _ _ _ h'
    | prim h' => cases hf
    | clo hp' h' => cases hf

/-- The value of an expression and the store afterwards are determined. -/
theorem eval_det {e : Expr} (hδ : ∀ n id vs v v', δ n id vs v → δ n id vs v' → v = v') (h : Eval mes δ d₁ ρ σ e v₁ σ₁) (h' : Eval mes δ d₂ ρ σ e v₂ σ₂) :
    v₂ = v₁ ∧ σ₂ = σ₁ := by
  have hσ : { σ with vals := σ.vals ++ [] } = σ := by simp
  have call : ∀ {d v σ'}, Eval mes δ d ρ σ e v σ' → Call mes δ d σ (.clo [] none [e] ρ) [] v σ' := fun {d v σ'} h =>
    .clo (ps := []) rfl (.one (by simp only [List.nil_append, Option.toList_none, bindAll]; rw [hσ]; exact h))
  exact call_det hδ (call h) (call h')

end Mes.Spec
