import Verif.Model.Library
import Verif.Spec.Library
/-
Symbolic execution of library programs: how variables are found, and the rules of the semantics in the form in which the library
uses them.
-/
namespace Mes.Lib
open Spec

variable [Names] {mes : Bool} {δ : Int → Int → List Value → Value → Prop} {d d' : Nat} {ρ : Locals} {σ σ' σ₁ σ₂ σ₃ : Store} {F F' F₁ F₂ : Nat → Prop}
  {e : Expr} {es : List Expr} {u w : Value} {vs ps : List Value} {x y : String} {xs : List String} {E : List (String × Value)}

/-! ### More frames do not matter -/

omit [Names] in
theorem up {d d' : Nat} (h : d + 1 ≤ d') : ∃ k, d' = k + 1 ∧ d ≤ k := ⟨d' - 1, by omega, by omega⟩

omit [Names] in
/-- A call that needs at most `d` frames can be made when there are more. -/
theorem monoC {d σ f vs v σ'} (h : Call mes δ d σ f vs v σ') {d'} (hd : d ≤ d') : Call mes δ d' σ f vs v σ' := by
  refine Call.rec (motive_1 := fun d ρ σ e v σ' _ => ∀ d', d ≤ d' → Eval mes δ d' ρ σ e v σ')
    (motive_2 := fun d ρ σ es vs σ' _ => ∀ d', d ≤ d' → EvalArgs mes δ d' ρ σ es vs σ')
    (motive_3 := fun d ρ σ es v σ' _ => ∀ d', d ≤ d' → EvalSeq mes δ d' ρ σ es v σ')
    (motive_4 := fun d σ f vs v σ' _ => ∀ d', d ≤ d' → Call mes δ d' σ f vs v σ')
    ?_ ?_ ?_ ?_ ?_ ?_ ?_ ?_ ?_ ?_ ?_ ?_ ?_ ?_ ?_ ?_ ?_ ?_ ?_ h d' hd
  · exact fun c d' _ => .const c
  · exact fun c d' _ => .quote c
  · exact fun hl hv d' _ => .var hl hv
  · intro _ _ _ _ _ _ _ _ _ _ _ hw _ hc ht d' hd; obtain ⟨k, rfl, hk⟩ := up hd; exact .iteTrue (hc k hk) hw (ht _ hd)
  · intro _ _ _ _ _ _ _ _ _ _ _ hc he d' hd; obtain ⟨k, rfl, hk⟩ := up hd; exact .iteFalse (hc k hk) (he _ hd)
  · intro _ _ _ _ _ _ _ _ _ _ hw _ hc ht d' hd; obtain ⟨k, rfl, hk⟩ := up hd; exact .ifTrue (hc k hk) hw (ht _ hd)
  · intro _ _ _ _ _ _ _ hc d' hd; obtain ⟨k, rfl, hk⟩ := up hd; exact .ifFalse (hc k hk)
  · exact fun fs r b d' _ => .lam fs r b
  · intro _ _ _ _ _ _ _ _ _ _ _ hs _ _ _ ha hf hc d' hd; obtain ⟨k, rfl, hk⟩ := up hd; exact .app hs (ha k hk) (hf k hk) (hc _ hd)
  · intro _ _ _ _ _ _ _ _ _ _ _ _ _ hm hs _ _ _ _ h0 ha hf hc d' hd; obtain ⟨k, rfl, hk⟩ := up hd
    exact .app2 hm hs (h0 k hk) (ha k hk) (hf k hk) (hc _ hd)
  · intro _ _ _ _ _ _ _ h d' hd; obtain ⟨k, rfl, hk⟩ := up hd; exact .begin (h _ hd)
  · intro _ _ _ _ _ _ _ _ _ hl h d' hd; obtain ⟨k, rfl, hk⟩ := up hd; exact .set (h k hk) hl
  · exact fun d' _ => .nil
  · intro _ _ _ _ _ _ _ _ _ _ _ h hs d' hd; obtain ⟨k, rfl, hk⟩ := up hd; exact .cons (h k hk) (hs k hk)
  · exact fun _ h d' hd => .one (h d' hd)
  · intro _ _ _ _ _ _ _ _ _ _ _ h hs d' hd; obtain ⟨k, rfl, hk⟩ := up hd; exact .cons (h k hk) (hs _ hd)
  · exact fun h d' _ => .prim h
  · exact fun hp _ h d' hd => .clo hp (h d' hd)
  · intro _ _ _ _ _ _ _ _ h d' hd; obtain ⟨k, rfl, hk⟩ := up hd; exact .apply (h k hk)

/-! ### Variables -/

/-- The variable `x` has the value `w`, and its location is not in `F`. -/
def Has (F : Nat → Prop) (σ : Store) (ρ : Locals) (x : Int) (w : Value) : Prop := ∃ l, σ.find ρ x = some l ∧ σ.vals[l]? = some w ∧ ¬ F l

/-- `F` has only locations of the store. -/
def Below (F : Nat → Prop) (σ : Store) : Prop := ∀ l, F l → l < σ.vals.length

omit [Names] in
theorem Has.eval {x : Int} (h : Has F σ ρ x w) : Eval mes δ d ρ σ (.var x) w σ := by
  obtain ⟨l, h1, h2, -⟩ := h; exact .var h1 h2

omit [Names] in
theorem Step.refl (h : Below F σ) : Step F σ F σ := ⟨rfl, Nat.le_refl _, fun _ _ _ => rfl, fun _ => .inl, h⟩

omit [Names] in
theorem Step.trans (h : Step F σ F₁ σ₁) (h' : Step F₁ σ₁ F₂ σ₂) : Step F σ F₂ σ₂ := by
  refine ⟨h'.globals.trans h.globals, Nat.le_trans h.len h'.len, fun l hl hf => ?_, fun l hl => ?_, h'.below⟩
  · rw [h'.same l (Nat.lt_of_lt_of_le hl h.len) (fun h1 => ?_), h.same l hl hf]
    rcases h.sub l h1 with h1 | h1
    · exact hf h1
    · omega
  · rcases h'.sub l hl with h1 | h1
    · exact h.sub l h1
    · exact .inr (Nat.le_trans h.len h1)

omit [Names] in
theorem Step.push (h : Below F σ) (vs : List Value) : Step F σ F (σ.push vs) :=
  ⟨rfl, by simp [Store.push], fun l hl _ => by simp only [Store.push]; rw [List.getElem?_append_left hl], fun _ => .inl,
    fun l hl => by have := h l hl; simp only [Store.push, List.length_append]; omega⟩

omit [Names] in
theorem Below.push (h : Below F σ) (vs : List Value) : Below F (σ.push vs) := (Step.push h vs).below

omit [Names] in
theorem Has.step {x : Int} (h : Has F σ ρ x w) (hs : Step F σ F' σ') : Has F' σ' ρ x w := by
  obtain ⟨l, h1, h2, h3⟩ := h
  obtain ⟨hl, -⟩ := List.getElem?_eq_some_iff.1 h2
  refine ⟨l, by unfold Store.find at h1 ⊢; rw [hs.globals]; exact h1, by rw [hs.same l hl h3]; exact h2, fun h4 => ?_⟩
  rcases hs.sub l h4 with h4 | h4
  · exact h3 h4
  · omega

omit [Names] in
theorem Has.push {x : Int} (h : Has F σ ρ x w) (vs : List Value) : Has F (σ.push vs) ρ x w := by
  obtain ⟨l, h1, h2, h3⟩ := h
  obtain ⟨hl, -⟩ := List.getElem?_eq_some_iff.1 h2
  exact ⟨l, h1, by simp only [Store.push]; rw [List.getElem?_append_left hl]; exact h2, h3⟩

theorem bindAll_skip (hx : x ∉ xs) (k : Nat) : bindAll (xs.map nm) k ρ (nm x) = ρ (nm x) := by
  induction xs generalizing k with
  | nil => rfl
  | cons y ys ih =>
    simp only [List.mem_cons, not_or] at hx
    simp only [List.map_cons, bindAll]
    rw [if_neg fun h => hx.1 (Names.inj _ _ h), ih hx.2]

theorem bindAll_here {i : Nat} (hx : xs.idxOf? x = some i) (k : Nat) : bindAll (xs.map nm) k ρ (nm x) = some (k + i) := by
  induction xs generalizing k i with
  | nil => simp at hx
  | cons y ys ih =>
    simp only [List.map_cons, bindAll]
    rw [List.idxOf?_cons] at hx
    by_cases h : y = x
    · subst h
      simp only [BEq.rfl, if_true, Option.some.injEq] at hx
      subst hx
      simp
    · rw [if_neg fun h' => h (Names.inj _ _ h').symm]
      rw [if_neg (by simpa using h)] at hx
      cases hi : ys.idxOf? x with
      | none => rw [hi] at hx; cases hx
      | some j =>
        rw [hi] at hx
        simp only [Option.map_some, Option.some.injEq] at hx
        rw [ih hi, ← hx]
        congr 1; omega

theorem Has.skip (h : Has F σ ρ (nm x) w) (hx : x ∉ xs) (k : Nat) : Has F σ (bindAll (xs.map nm) k ρ) (nm x) w := by
  obtain ⟨l, h1, h2⟩ := h
  exact ⟨l, by unfold Store.find at h1 ⊢; rw [bindAll_skip hx]; exact h1, h2⟩

theorem Has.here {i : Nat} (hb : Below F σ) (hx : xs.idxOf? x = some i) (hw : vs[i]? = some w) :
    Has F (σ.push vs) (bindAll (xs.map nm) σ.vals.length ρ) (nm x) w := by
  refine ⟨σ.vals.length + i, by unfold Store.find; rw [bindAll_here hx]; rfl, ?_, fun h => ?_⟩
  · simp only [Store.push]
    rw [List.getElem?_append_right (by omega)]
    rw [show σ.vals.length + i - σ.vals.length = i by omega]; exact hw
  · have := hb _ h; omega

/-- The variables in scope: each name of `E` has its value; of equal names the first counts.  The library is defined. -/
structure Scope (F : Nat → Prop) (σ : Store) (ρ : Locals) (E : List (String × Value)) : Prop where
  below : Below F σ
  vars : ∀ x w, E.lookup x = some w → Has F σ ρ (nm x) w
  library : ∀ x w, table.lookup x = some w → Has F σ (fun _ => none) (nm x) w

theorem Scope.globals (h : Scope F σ ρ E) : Scope F σ (fun _ => none) table := ⟨h.below, h.library, h.library⟩

theorem Scope.step (h : Scope F σ ρ E) (hs : Step F σ F' σ') : Scope F' σ' ρ E :=
  ⟨hs.below, fun x w hx => (h.vars x w hx).step hs, fun x w hx => (h.library x w hx).step hs⟩
theorem Scope.push (h : Scope F σ ρ E) (vs : List Value) : Scope F (σ.push vs) ρ E := h.step (Step.push h.below vs)

omit [Names] in
theorem lookup_zip (h : (xs.zip vs).lookup x = some w) : ∃ i, xs.idxOf? x = some i ∧ vs[i]? = some w := by
  induction xs generalizing vs with
  | nil => simp at h
  | cons y ys ih =>
    cases vs with
    | nil => simp at h
    | cons u us =>
      rw [List.zip_cons_cons, List.lookup_cons] at h
      rw [List.idxOf?_cons]
      by_cases hy : y = x
      · subst hy
        simp only [BEq.rfl, Option.some.injEq] at h
        exact ⟨0, by simp, by simp [h]⟩
      · rw [show (x == y) = false by simpa using fun h => hy h.symm] at h
        obtain ⟨i, h1, h2⟩ := ih h
        exact ⟨i + 1, by rw [if_neg (by simpa using hy), h1]; rfl, by simpa using h2⟩

omit [Names] in
theorem lookup_skip (hl : vs.length = xs.length) (h : (xs.zip vs).lookup x = none) : x ∉ xs := by
  induction xs generalizing vs with
  | nil => simp
  | cons y ys ih =>
    cases vs with
    | nil => simp at hl
    | cons u us =>
      rw [List.zip_cons_cons, List.lookup_cons] at h
      by_cases hy : x = y
      · subst hy
        simp at h
      · rw [show (x == y) = false by simpa using hy] at h
        simp only [List.mem_cons, not_or]
        exact ⟨hy, ih (by simpa using hl) h⟩

theorem Scope.bind (h : Scope F σ ρ E) (hl : vs.length = xs.length) :
    Scope F (σ.push vs) (bindAll (xs.map nm) σ.vals.length ρ) (xs.zip vs ++ E) := by
  refine ⟨h.below.push vs, fun x w hx => ?_, (h.push vs).library⟩
  rw [List.lookup_append] at hx
  cases hz : (xs.zip vs).lookup x with
  | some u =>
    rw [hz] at hx
    cases hx
    obtain ⟨i, h1, h2⟩ := lookup_zip hz
    exact Has.here h.below h1 h2
  | none =>
    rw [hz] at hx
    exact ((h.vars x w hx).push vs).skip (lookup_skip hl hz) _

/-! ### Rules

`Ev`, `EvArgs`, `EvSeq` and `Ca` say that an evaluation has a value and a store that satisfy `Q`. -/

/-- The expression has a value, and it, the changeable locations and the store afterwards satisfy `Q`. -/
def Ev (mes : Bool) (d : Nat) (ρ : Locals) (F : Nat → Prop) (σ : Store) (e : Expr) (Q : Value → (Nat → Prop) → Store → Prop) : Prop :=
  ∃ w F' σ', Eval mes Computes d ρ σ e w σ' ∧ Step F σ F' σ' ∧ Q w F' σ'

def EvArgs (mes : Bool) (d : Nat) (ρ : Locals) (F : Nat → Prop) (σ : Store) (es : List Expr) (Q : List Value → (Nat → Prop) → Store → Prop) : Prop :=
  ∃ ws F' σ', EvalArgs mes Computes d ρ σ es ws σ' ∧ Step F σ F' σ' ∧ Q ws F' σ'

def EvSeq (mes : Bool) (d : Nat) (ρ : Locals) (F : Nat → Prop) (σ : Store) (es : List Expr) (Q : Value → (Nat → Prop) → Store → Prop) : Prop :=
  ∃ w F' σ', EvalSeq mes Computes d ρ σ es w σ' ∧ Step F σ F' σ' ∧ Q w F' σ'

def Ca (mes : Bool) (d : Nat) (F : Nat → Prop) (σ : Store) (f : Value) (vs : List Value) (Q : Value → (Nat → Prop) → Store → Prop) : Prop :=
  ∃ w F' σ', Call mes Computes d σ f vs w σ' ∧ Step F σ F' σ' ∧ Q w F' σ'

variable {Q Q' : Value → (Nat → Prop) → Store → Prop} {QA : List Value → (Nat → Prop) → Store → Prop} {S : Type}
  {P : S → List Value → Value → S → Prop} {R : S → (Nat → Prop) → Store → Prop} {s s' : S} {p : Value}

omit [Names] in
theorem Ev.val (h : Eval mes Computes d ρ σ e w σ) (hb : Below F σ) (hq : Q w F σ) : Ev mes d ρ F σ e Q := ⟨w, F, σ, h, Step.refl hb, hq⟩

omit [Names] in
theorem Ca.weaken (h : Ca mes d F σ u vs Q) (hq : ∀ w F' σ', Step F σ F' σ' → Q w F' σ' → Q' w F' σ') : Ca mes d F σ u vs Q' := by
  obtain ⟨w, F', σ', h1, h2, h3⟩ := h; exact ⟨w, F', σ', h1, h2, hq _ _ _ h2 h3⟩

omit [Names] in
theorem Ca.mono (h : Ca mes d F σ u vs Q) (hd : d ≤ d') : Ca mes d' F σ u vs Q := by
  obtain ⟨w, F', σ', h1, h2, h3⟩ := h; exact ⟨w, F', σ', monoC h1 hd, h2, h3⟩

omit [Names] in
theorem Ca.of (hB : Behaves mes Computes d p P R) (h : P s vs w s') (hR : R s F σ) (hd : d ≤ d')
    (hq : ∀ F' σ', Step F σ F' σ' → R s' F' σ' → Q w F' σ') : Ca mes d' F σ p vs Q := by
  obtain ⟨σ', F', h1, h2, h3⟩ := hB.call h hR; exact ⟨w, F', σ', monoC h1 hd, h3, hq _ _ h3 h2⟩

omit [Names] in
/-- `if` -/
theorem Ev.ite {c t : Expr} (h : Ev mes d ρ F σ c fun w F' σ' => Ev mes (d + 1) ρ F' σ' t Q ∧ w ≠ .obj c_f ∨ Ev mes (d + 1) ρ F' σ' e Q ∧ w = .obj c_f) :
    Ev mes (d + 1) ρ F σ (.ite c t e) Q := by
  obtain ⟨w, F₁, σ₁, h1, h2, h3⟩ := h
  rcases h3 with ⟨⟨u, F₂, σ₂, h4, h5, h6⟩, h7⟩ | ⟨⟨u, F₂, σ₂, h4, h5, h6⟩, rfl⟩
  · exact ⟨u, F₂, σ₂, .iteTrue h1 h7 h4, Step.trans h2 h5, h6⟩
  · exact ⟨u, F₂, σ₂, .iteFalse h1 h4, Step.trans h2 h5, h6⟩

omit [Names] in
theorem Ev.iteT {c t : Expr} (h : Eval mes Computes d ρ σ c w σ) (hw : w = .obj c_t) (ht : Ev mes (d + 1) ρ F σ t Q) :
    Ev mes (d + 1) ρ F σ (.ite c t e) Q := by
  obtain ⟨u, F₂, σ₂, h4, h5, h6⟩ := ht
  exact ⟨u, F₂, σ₂, .iteTrue h (by rw [hw]; simp [c_t, c_f]) h4, h5, h6⟩

omit [Names] in
theorem Ev.iteF {c t : Expr} (h : Eval mes Computes d ρ σ c w σ) (hw : w = .obj c_f) (ht : Ev mes (d + 1) ρ F σ e Q) :
    Ev mes (d + 1) ρ F σ (.ite c t e) Q := by
  obtain ⟨u, F₂, σ₂, h4, h5, h6⟩ := ht
  exact ⟨u, F₂, σ₂, .iteFalse (hw ▸ h) h4, h5, h6⟩

omit [Names] in
/-- `if` without alternative -/
theorem Ev.ifOnly {c t : Expr} (h : Ev mes d ρ F σ c fun w F' σ' => Ev mes (d + 1) ρ F' σ' t Q ∧ w ≠ .obj c_f ∨ Q (.obj c_unspecified) F' σ' ∧ w = .obj c_f) :
    Ev mes (d + 1) ρ F σ (.ifOnly c t) Q := by
  obtain ⟨w, F₁, σ₁, h1, h2, h3⟩ := h
  rcases h3 with ⟨⟨u, F₂, σ₂, h4, h5, h6⟩, h7⟩ | ⟨h6, rfl⟩
  · exact ⟨u, F₂, σ₂, .ifTrue h1 h7 h4, Step.trans h2 h5, h6⟩
  · exact ⟨_, F₁, σ₁, .ifFalse h1, h2, h6⟩

omit [Names] in
theorem EvArgs.nil (hb : Below F σ) (hq : QA [] F σ) : EvArgs mes d ρ F σ [] QA := ⟨[], F, σ, .nil, Step.refl hb, hq⟩

omit [Names] in
theorem EvArgs.cons (h : Ev mes d ρ F σ e fun w F' σ' => EvArgs mes d ρ F' σ' es fun ws => QA (w :: ws)) :
    EvArgs mes (d + 1) ρ F σ (e :: es) QA := by
  obtain ⟨w, F₁, σ₁, h1, h2, ws, F₂, σ₂, h3, h4, h5⟩ := h
  exact ⟨w :: ws, F₂, σ₂, .cons h1 h3, Step.trans h2 h4, h5⟩

omit [Names] in
theorem EvSeq.one (h : Ev mes d ρ F σ e Q) : EvSeq mes d ρ F σ [e] Q := by
  obtain ⟨w, F₁, σ₁, h1, h2, h3⟩ := h; exact ⟨w, F₁, σ₁, .one h1, h2, h3⟩

omit [Names] in
theorem EvSeq.cons (h : Ev mes d ρ F σ e fun _ F' σ' => EvSeq mes (d + 1) ρ F' σ' es Q) : EvSeq mes (d + 1) ρ F σ (e :: es) Q := by
  obtain ⟨w, F₁, σ₁, h1, h2, u, F₂, σ₂, h3, h4, h5⟩ := h
  exact ⟨u, F₂, σ₂, .cons h1 h3, Step.trans h2 h4, h5⟩

omit [Names] in
theorem Ev.begin (h : EvSeq mes (d + 1) ρ F σ es Q) : Ev mes (d + 1) ρ F σ (.begin es) Q := by
  obtain ⟨w, F₁, σ₁, h1, h2, h3⟩ := h; exact ⟨w, F₁, σ₁, .begin h1, h2, h3⟩

theorem Scope.var (h : Scope F σ ρ E) (hx : E.lookup x = some w) : Eval mes δ d ρ σ (v x) w σ := (h.vars x w hx).eval

/-- A call of a procedure that is the value of a variable. -/
theorem Ev.call (hs : Scope F σ ρ E) {f : String} (hf : E.lookup f = some u)
    (h : EvArgs mes d ρ F σ es fun ws F' σ' => Ca mes (d + 1) F' σ' u ws Q) : Ev mes (d + 1) ρ F σ (call f es) Q := by
  obtain ⟨ws, F₁, σ₁, h1, h2, w, F₂, σ₂, h3, h4, h5⟩ := h
  exact ⟨w, F₂, σ₂, .app (fun _ => trivial) h1 ((hs.step h2).var hf) h3, Step.trans h2 h4, h5⟩

omit [Names] in
theorem Ca.prim {n id : Int} (hb : Below F σ) (h : Computes n id vs w) (hq : Q w F σ) : Ca mes d F σ (.prim n id) vs Q :=
  ⟨w, F, σ, .prim h, Step.refl hb, hq⟩

theorem Ca.proc {b : List Expr} (hs : Scope F σ ρ E) (hl : vs.length = xs.length)
    (h : ∀ ρ', Scope F (σ.push vs) ρ' (xs.zip vs ++ E) → EvSeq mes d ρ' F (σ.push vs) b Q) : Ca mes d F σ (.clo (xs.map nm) none b ρ) vs Q := by
  obtain ⟨w, F₁, σ₁, h1, h2, h3⟩ := h _ (hs.bind hl)
  refine ⟨w, F₁, σ₁, .clo (ps := vs) ?_ ?_, Step.trans (Step.push hs.below _) h2, h3⟩
  · simp [paramVals, hl]
  · simpa [Store.push] using h1

theorem Ca.rest {b : List Expr} {r : String} (hs : Scope F σ ρ E) (hl : ps.length = xs.length)
    (h : ∀ ρ', Scope F (σ.push (ps ++ [listVal vs])) ρ' ((xs ++ [r]).zip (ps ++ [listVal vs]) ++ E) → EvSeq mes d ρ' F (σ.push (ps ++ [listVal vs])) b Q) :
    Ca mes d F σ (.clo (xs.map nm) (some (nm r)) b ρ) (ps ++ vs) Q := by
  obtain ⟨w, F₁, σ₁, h1, h2, h3⟩ := h _ (hs.bind (by simp [hl]))
  refine ⟨w, F₁, σ₁, .clo (ps := ps ++ [listVal vs]) ?_ ?_, Step.trans (Step.push hs.below _) h2, h3⟩
  · simp [paramVals, ← hl]
  · simpa [Store.push] using h1

/-- `let` -/
theorem Ev.let' {bs : List (String × Expr)} {b : List Expr} (hs : Scope F σ ρ E)
    (h : EvArgs mes d ρ F σ (bs.map (·.2)) fun ws F' σ' => ws.length = bs.length ∧
      ∀ ρ', Scope F' (σ'.push ws) ρ' ((bs.map (·.1)).zip ws ++ E) → EvSeq mes (d + 1) ρ' F' (σ'.push ws) b Q) :
    Ev mes (d + 1) ρ F σ (Lib.let' bs b) Q := by
  obtain ⟨ws, F₁, σ₁, h1, h2, hl, h3⟩ := h
  obtain ⟨w, F₂, σ₂, h4, h5, h6⟩ := Ca.proc (xs := bs.map (·.1)) (hs.step h2) (by simpa using hl) h3
  exact ⟨w, F₂, σ₂, .app (fun _ => trivial) h1 (.lam ..) h4, Step.trans h2 h5, h6⟩

omit [Names] in
theorem set_push (σ : Store) (u w : Value) : ({ σ.push [u] with vals := (σ.push [u]).vals.set σ.vals.length w } : Store) = σ.push [w] := by
  simp only [Store.push]
  congr 1
  simp

/-- The closure of a named `let`. -/
def loopClo (xs : List String) (b : List Expr) (ρ : Locals) : Value := .clo (xs.map nm) none b ρ

/-- The named `let`: the closure is in the new location. -/
theorem Ev.loop {name : String} {bs : List (String × Expr)} {b : List Expr} (hs : Scope F σ ρ E)
    (h : ∀ ρ', Scope F (σ.push [loopClo (bs.map (·.1)) b ρ']) ρ' ((name, loopClo (bs.map (·.1)) b ρ') :: E) →
      EvArgs mes (d + 1) ρ' F (σ.push [loopClo (bs.map (·.1)) b ρ']) (bs.map (·.2)) fun ws F' σ' =>
        Scope F' σ' ρ' ((name, loopClo (bs.map (·.1)) b ρ') :: E) → Ca mes (d + 2) F' σ' (loopClo (bs.map (·.1)) b ρ') ws Q) :
    Ev mes (d + 2) ρ F σ (Lib.loop name bs b) Q := by
  have hsc := hs.bind (xs := [name]) (vs := [loopClo (bs.map (·.1)) b (bindAll ([name].map nm) σ.vals.length ρ)]) rfl
  obtain ⟨ws, F₁, σ₁, h1, h2, h3⟩ := h _ hsc
  obtain ⟨w, F₂, σ₂, h4, h5, h6⟩ := h3 (hsc.step h2)
  refine ⟨w, F₂, σ₂, ?_, Step.trans (Step.push hs.below _) (Step.trans h2 h5), h6⟩
  refine .app (fun _ => trivial) (.cons (.const _) .nil) (.lam ..) (.clo (ps := [.obj c_unspecified]) rfl ?_)
  refine .cons (.set (.lam ..) (l := σ.vals.length) ?_) (.one ?_)
  · unfold Store.find
    exact congrArg (fun o => Option.or o _) (bindAll_here (xs := [name]) (x := name) (i := 0) (by simp [List.idxOf?_cons]) _)
  · refine .app (fun _ => trivial) (vs := ws) (σ₁ := σ₁) ?_ ((hsc.step h2).var (w := loopClo (bs.map (·.1)) b (bindAll ([name].map nm) σ.vals.length ρ)) (by simp)) h4
    have : ∀ σ₀, σ₀ = σ.push [loopClo (bs.map (·.1)) b (bindAll ([name].map nm) σ.vals.length ρ)] → EvalArgs mes Computes (d + 1)
        (bindAll ([name].map nm) σ.vals.length ρ) σ₀ (bs.map (·.2)) ws σ₁ := by
      rintro _ rfl; exact h1
    exact this _ (set_push ..)

/-- `or` -/
theorem Ev.or {es : List Expr} {e' : Expr} (hs : Scope F σ ρ E)
    (h : Ev mes d ρ F σ e fun w F' σ' => w ≠ .obj c_f ∧ Q w F' (σ'.push [w]) ∨ w = .obj c_f ∧
      ∀ ρ', Scope F' (σ'.push [w]) ρ' (("r", w) :: E) → Ev mes (d + 2) ρ' F' (σ'.push [w]) (or' (e' :: es)) Q) :
    Ev mes (d + 2) ρ F σ (or' (e :: e' :: es)) Q := by
  obtain ⟨w, F₁, σ₁, h1, h2, h3⟩ := h
  have : Ca mes (d + 2) F₁ σ₁ (.clo (["r"].map nm) none [.ite (v "r") (v "r") (or' (e' :: es))] ρ) [w] Q := by
    refine .proc (hs.step h2) rfl fun ρ' hs' => .one (.ite (.val (hs'.var rfl) hs'.below ?_))
    rcases h3 with ⟨h3, h4⟩ | ⟨h3, h4⟩
    · exact .inl ⟨.val (hs'.var rfl) hs'.below h4, h3⟩
    · exact .inr ⟨h4 _ hs', h3⟩
  obtain ⟨u, F₂, σ₂, h4, h5, h6⟩ := this
  exact ⟨u, F₂, σ₂, .app (fun _ => trivial) (.cons h1 .nil) (.lam ..) h4, Step.trans h2 h5, h6⟩

omit [Names] in
theorem push_nil (σ : Store) : σ.push [] = σ := by simp [Store.push]

/-- `((lambda () …))` -/
theorem Ev.thunk {b : List Expr} (h : EvSeq mes (d + 1) ρ F σ b Q) : Ev mes (d + 1) ρ F σ (.app (lambda [] b) []) Q := by
  obtain ⟨u, F₂, σ₂, h4, h5, h6⟩ := h
  refine ⟨u, F₂, σ₂, .app (fun _ => trivial) .nil (.lam ..) (.clo (ps := []) rfl ?_), h5, h6⟩
  have := push_nil σ
  rw [Store.push] at this
  rw [this]
  exact h4

/-- `cond`, a clause that is not the last one -/
theorem Ev.cond {b : List Expr} {c : Expr × List Expr} {cs : List (Expr × List Expr)} (hs : Scope F σ ρ E)
    (h : Ev mes d ρ F σ e fun w F' σ' => ∀ ρ', Scope F' (σ'.push [w]) ρ' (("test", w) :: E) →
      w ≠ .obj c_f ∧ EvSeq mes (d + 2) ρ' F' (σ'.push [w]) b Q ∨ w = .obj c_f ∧ Ev mes (d + 2) ρ' F' (σ'.push [w]) (Lib.cond (c :: cs)) Q) :
    Ev mes (d + 2) ρ F σ (Lib.cond ((e, b) :: c :: cs)) Q := by
  obtain ⟨w, F₁, σ₁, h1, h2, h3⟩ := h
  have : Ca mes (d + 2) F₁ σ₁ (.clo (["test"].map nm) none [.ite (v "test") (.app (lambda [] (v "test" :: b)) []) (Lib.cond (c :: cs))] ρ) [w] Q := by
    refine .proc (hs.step h2) rfl fun ρ' hs' => .one (.ite (.val (hs'.var rfl) hs'.below ?_))
    rcases h3 ρ' hs' with ⟨h3, u, F₂, σ₂, h4, h5, h6⟩ | ⟨h3, h4⟩
    · exact .inl ⟨.thunk (.cons (.val (hs'.var rfl) hs'.below ⟨u, F₂, σ₂, h4, h5, h6⟩)), h3⟩
    · exact .inr ⟨h4, h3⟩
  obtain ⟨u, F₂, σ₂, h4, h5, h6⟩ := this
  exact ⟨u, F₂, σ₂, .iteTrue (.const _) (by simp [Literal.val, c_t, c_f]) (.app (fun _ => trivial) (.cons h1 .nil) (.lam ..) h4), Step.trans h2 h5, h6⟩

/-- `cond`, the last clause -/
theorem Ev.condLast {b : List Expr} (hs : Scope F σ ρ E)
    (h : Ev mes d ρ F σ e fun w F' σ' => w ≠ .obj c_f ∧ ∀ ρ', Scope F' (σ'.push [w]) ρ' (("test", w) :: E) → EvSeq mes (d + 2) ρ' F' (σ'.push [w]) b Q) :
    Ev mes (d + 2) ρ F σ (Lib.cond [(e, b)]) Q := by
  obtain ⟨w, F₁, σ₁, h1, h2, h3, h3'⟩ := h
  have : Ca mes (d + 2) F₁ σ₁ (.clo (["test"].map nm) none [.ite (v "test") (.app (lambda [] (v "test" :: b)) []) unspec] ρ) [w] Q := by
    refine .proc (hs.step h2) rfl fun ρ' hs' => .one (.ite (.val (hs'.var rfl) hs'.below ?_))
    obtain ⟨u, F₂, σ₂, h4, h5, h6⟩ := h3' ρ' hs'
    exact .inl ⟨.thunk (.cons (.val (hs'.var rfl) hs'.below ⟨u, F₂, σ₂, h4, h5, h6⟩)), h3⟩
  obtain ⟨u, F₂, σ₂, h4, h5, h6⟩ := this
  exact ⟨u, F₂, σ₂, .iteTrue (.const _) (by simp [Literal.val, c_t, c_f]) (.app (fun _ => trivial) (.cons h1 .nil) (.lam ..) h4), Step.trans h2 h5, h6⟩

/-! ### Builtins -/

/-- The value of `null?`. -/
def nullVal : Value → Value
  | .obj a => if a = c_nil then .obj c_t else .obj c_f
  | _ => .obj c_f

/-- The value of `pair?`. -/
def pairVal : Value → Value
  | .pair .. => .obj c_t
  | _ => .obj c_f

omit [Names] in
theorem computes_null (u : Value) : Computes 1 144 [u] (nullVal u) := by
  have := Computes.null (v := u)
  cases u <;> simp only [nullVal, Value.bool] at this ⊢ <;> try simpa using this
  split <;> simp_all

omit [Names] in
theorem computes_pair (u : Value) : Computes 1 192 [u] (pairVal u) := by
  have := Computes.isPair (v := u)
  cases u <;> simpa [pairVal, Value.bool] using this

theorem eval_prim (hs : Scope F σ ρ E) {f : String} {n id : Int} (hf : E.lookup f = some (.prim n id)) (ha : EvalArgs mes Computes d ρ σ es vs σ)
    (hc : Computes n id vs w) : Eval mes Computes (d + 1) ρ σ (call f es) w σ := .app (fun _ => trivial) ha (hs.var hf) (.prim hc)

theorem eval_car (hs : Scope F σ ρ E) (hf : E.lookup "car" = some (.prim 1 141)) (he : Eval mes Computes d ρ σ e (.pair u w) σ) :
    Eval mes Computes (d + 2) ρ σ (call "car" [e]) u σ := eval_prim hs hf (.cons he .nil) .car

theorem eval_cdr (hs : Scope F σ ρ E) (hf : E.lookup "cdr" = some (.prim 1 142)) (he : Eval mes Computes d ρ σ e (.pair u w) σ) :
    Eval mes Computes (d + 2) ρ σ (call "cdr" [e]) w σ := eval_prim hs hf (.cons he .nil) .cdr

theorem eval_null (hs : Scope F σ ρ E) (hf : E.lookup "null?" = some (.prim 1 144)) (he : Eval mes Computes d ρ σ e u σ) :
    Eval mes Computes (d + 2) ρ σ (call "null?" [e]) (nullVal u) σ := eval_prim hs hf (.cons he .nil) (computes_null u)

theorem eval_pair (hs : Scope F σ ρ E) (hf : E.lookup "pair?" = some (.prim 1 192)) (he : Eval mes Computes d ρ σ e u σ) :
    Eval mes Computes (d + 2) ρ σ (call "pair?" [e]) (pairVal u) σ := eval_prim hs hf (.cons he .nil) (computes_pair u)

theorem eval_cons {e' : Expr} (hs : Scope F σ ρ E) (hf : E.lookup "cons" = some (.prim 2 171)) (he : Eval mes Computes (d + 1) ρ σ e u σ)
    (he' : Eval mes Computes d ρ σ e' w σ) :
    Eval mes Computes (d + 3) ρ σ (call "cons" [e, e']) (.pair u w) σ := eval_prim hs hf (.cons he (.cons he' .nil)) .cons

theorem eval_eq {e' : Expr} {n m : Int} (hs : Scope F σ ρ E) (hf : E.lookup "=" = some (.prim (-1) 198)) (he : Eval mes Computes (d + 1) ρ σ e (.int n) σ)
    (he' : Eval mes Computes d ρ σ e' (.int m) σ) :
    Eval mes Computes (d + 3) ρ σ (call "=" [e, e']) (.obj (if n = m then c_t else c_f)) σ :=
  eval_prim hs hf (.cons he (.cons he' .nil)) (by
    have := Computes.equal (ns := [n, m])
    have hn : Neighbours (· = ·) [n, m] ↔ n = m := by
      constructor
      · exact fun h => h 0 n m rfl rfl
      · rintro rfl i a b h1 h2
        rcases i with _ | i <;> simp_all
    by_cases h : n = m
    · rw [Value.bool, if_pos (hn.2 h)] at this
      rw [if_pos h]; exact this
    · rw [Value.bool, if_neg fun h' => h (hn.1 h')] at this
      rw [if_neg h]; exact this)

theorem eval_minus {e' : Expr} {n m : Int} (hs : Scope F σ ρ E) (hf : E.lookup "-" = some (.prim (-1) 199)) (hn : Word n) (hw : Word (n - m))
    (he : Eval mes Computes (d + 1) ρ σ e (.int n) σ) (he' : Eval mes Computes d ρ σ e' (.int m) σ) :
    Eval mes Computes (d + 3) ρ σ (call "-" [e, e']) (.int (n - m)) σ :=
  eval_prim hs hf (.cons he (.cons he' .nil)) (by
    have := Computes.minus (n := n) (m := m) (ns := []) (fun k => by rcases k with _ | k <;> simpa)
    simpa using this)

theorem eval_plus {e' : Expr} {n m : Int} (hs : Scope F σ ρ E) (hf : E.lookup "+" = some (.prim (-1) 200)) (hn : Word n) (hw : Word (n + m))
    (he : Eval mes Computes (d + 1) ρ σ e (.int n) σ) (he' : Eval mes Computes d ρ σ e' (.int m) σ) :
    Eval mes Computes (d + 3) ρ σ (call "+" [e, e']) (.int (n + m)) σ :=
  eval_prim hs hf (.cons he (.cons he' .nil)) (by
    have := Computes.plus (ns := [n, m]) (fun k => by
      rcases k with _ | _ | k
      · show Word 0; unfold Word; omega
      · simpa using hn
      · simpa using hw)
    simpa using this)

/-- Solves the evaluation of an expression of variables, constants, `car`, `cdr`, `null?` and so on. -/
macro "simple" h:term : tactic => `(tactic| repeat (first
  | exact Scope.var $h rfl | exact Eval.const _ | exact Eval.quote _ | exact Eval.lam _ _ _
  | apply eval_car $h rfl | apply eval_cdr $h rfl | apply eval_null $h rfl | apply eval_pair $h rfl
  | apply eval_eq $h rfl | apply eval_cons $h rfl))

/-- One step over a simple expression. -/
macro "val" h:term : tactic => `(tactic| (apply Ev.val (hb := Scope.below $h); (focus (simple $h))))

/-- Simple operands. -/
macro "args" h:term : tactic => `(tactic| ((repeat (refine EvArgs.cons ?_; val $h)); refine EvArgs.nil (Scope.below $h) ?_))

/-- The condition of `if` is simple and true, or false. -/
macro "yes" h:term : tactic => `(tactic| (apply Ev.iteT; (focus (simple $h)); (focus rfl)))
macro "no" h:term : tactic => `(tactic| (apply Ev.iteF; (focus (simple $h)); (focus rfl)))

end Mes.Lib
