import Verif.Proof.Values
import Verif.Spec.Sample
/-
Property C62: `apply_builtin` (/repo/src/eval-apply.c:295-328) calls the C function with the arguments.
-/
namespace Mes.Props
open Res Spec

variable {s : St} {K : Calls}

/-- C62: the C function of a builtin is called with the arguments, where multiple values count as the first of them. -/
def C62_full : Prop :=
  ∀ (K : Calls) (s : St) (fuel : Nat) (a n id x : Int) (ys : List Int), IsBuiltin s (fun _ => False) a n id → IsList s x ys → (∀ y ∈ ys, IsArg s y) →
    (s.cell c_nil).tag ≠ .pair → n = -1 ∨ n = ys.length → n < 2 ^ 31 → Room s 5 →
    ∃ us s', Ext s s' ∧ Receives s' n us (ys.map (oneValue s)) ∧ applyBuiltin K s fuel a x = K.builtin fuel id us s'

/-- A builtin with `n` parameters, and arguments at 123 and from there on. -/
def builtinState (n : Int) (cells : List Cell) : St :=
  sample ([{ tag := .struct, car := 6, cdr := 117 }, default, default, { tag := .ref, car := c_symbol_builtin, cdr := 0 }, default, num n, num 7] ++ cells)

theorem builtinState_ok {n : Int} {cells : List Cell} : IsBuiltin (builtinState n cells) (fun _ => False) 116 n 7 := by
  have hv : ∀ a : Int, 1 ≤ a → a < 123 → (builtinState n cells).Valid a := fun a h1 h2 => ⟨h1, by simp [builtinState, sample, sampleN, c_symbol_max]; omega⟩
  exact ⟨hv 116 (by decide) (by decide), rfl, rfl, id, hv 119 (by decide) (by decide), rfl, rfl, id, ⟨hv 121 (by decide) (by decide), rfl, rfl⟩, id,
    ⟨hv 122 (by decide) (by decide), rfl, rfl⟩, id⟩

/-- A builtin with four parameters, like `make-builtin`, is not called at all. -/
theorem C62_arity_false : ¬ C62_full := by
  intro h
  have v : ∀ a : Int, 1 ≤ a → a < 127 → (builtinState 4 [pair c_t 124, pair c_t 125, pair c_t 126, pair c_t c_nil]).Valid a := fun a h1 h2 => ⟨h1, h2⟩
  obtain ⟨us, s', -, -, h⟩ := h ⟨fun _ _ _ _ => loop, fun _ _ _ => loop⟩ (builtinState 4 [pair c_t 124, pair c_t 125, pair c_t 126, pair c_t c_nil]) 0 116 4 7 123 [c_t, c_t, c_t, c_t]
    builtinState_ok
    (.cons (by decide) (v _ (by decide) (by decide)) rfl rfl (.cons (by decide) (v _ (by decide) (by decide)) rfl rfl
      (.cons (by decide) (v _ (by decide) (by decide)) rfl rfl (.cons (by decide) (v _ (by decide) (by decide)) rfl rfl .nil))))
    (by
      intro y hy
      have : y = c_t := by simpa using hy
      subst this
      exact ⟨v _ (by decide) (by decide), fun q => (by cases q)⟩)
    (by decide) (.inr rfl) (by decide) ⟨by decide, by decide⟩
  cases h

/-- Multiple values as the second argument of a builtin that takes all arguments: `(list #f (values #t))` has three elements. -/
theorem C62_values_false : ¬ C62_full := by
  intro h
  have v : ∀ a : Int, 1 ≤ a → a < 127 → (builtinState (-1) [pair c_f 124, pair 125 c_nil, { tag := .values, car := 0, cdr := 126 }, pair c_t c_nil]).Valid a :=
    fun a h1 h2 => ⟨h1, h2⟩
  obtain ⟨us, s', -, h', h⟩ := h ⟨fun _ _ us s => match us with | [p] => ok ((s.cell (s.cell p).cdr).cdr, s) | _ => loop, fun _ _ _ => loop⟩
    (builtinState (-1) [pair c_f 124, pair 125 c_nil, { tag := .values, car := 0, cdr := 126 }, pair c_t c_nil]) 0 116 (-1) 7 123 [c_f, 125]
    builtinState_ok
    (.cons (by decide) (v _ (by decide) (by decide)) rfl rfl (.cons (by decide) (v _ (by decide) (by decide)) rfl rfl .nil))
    (by
      intro y hy
      simp only [List.mem_cons, List.not_mem_nil, or_false] at hy
      rcases hy with rfl | rfl
      · exact ⟨v _ (by decide) (by decide), fun q => (by cases q)⟩
      · exact ⟨v _ (by decide) (by decide), fun _ => ⟨v _ (by decide) (by decide), rfl⟩⟩)
    (by decide) (.inl rfl) (by decide) ⟨by decide, by decide⟩
  rw [Receives, if_pos rfl] at h'
  obtain ⟨p, rfl, hl⟩ := h'
  obtain ⟨-, -, hl⟩ := IsList_uncons hl
  obtain ⟨-, -, hl⟩ := IsList_uncons hl
  simp only at h
  generalize (s'.cell (s'.cell p).cdr).cdr = q at hl h
  cases hl
  have e : (applyBuiltin ⟨fun _ _ us s => match us with | [p] => ok ((s.cell (s.cell p).cdr).cdr, s) | _ => loop, fun _ _ _ => loop⟩
    (builtinState (-1) [pair c_f 124, pair 125 c_nil, { tag := .values, car := 0, cdr := 126 }, pair c_t c_nil]) 0 116 123 >>= fun p => ok p.1) = ok 124 := by decide +kernel
  rw [h] at e
  cases e

/-- C62 for up to three parameters, or all arguments as a list, when at most the first argument is multiple values. -/
theorem C62_first_partial {M : Int → Prop} {a n id x : Int} {ys : List Int} (hb : IsBuiltin s M a n id) (hl : IsList s x ys) (ha : ∀ y ∈ ys, IsArg s y)
    (hv : ∀ y ∈ ys.tail, (s.cell y).tag ≠ .values) (hnil : (s.cell c_nil).tag ≠ .pair)
    (hn : n = -1 ∨ n = ys.length ∧ ys.length ≤ 3) (hr : Room s 3) :
    ∃ us s', Ext s s' ∧ Receives s' n us (ys.map (oneValue s)) ∧ ∀ fuel, applyBuiltin K s fuel a x = K.builtin fuel id us s' :=
  applyBuiltin_first hb hl ha hv hnil hn hr

/-- C62 for two parameters: both arguments may be multiple values. -/
theorem C62_two_partial {M : Int → Prop} {a id x y z : Int} (hb : IsBuiltin s M a 2 id) (hl : IsList s x [y, z]) (hy : IsArg s y) (hz : IsArg s z)
    (hr : Room s 5) : ∃ s', Ext s s' ∧ ∀ fuel, applyBuiltin K s fuel a x = K.builtin fuel id [oneValue s y, oneValue s z] s' :=
  applyBuiltin_two hb hl hy hz hr

/-- A builtin with more parameters does nothing. -/
theorem C62_many {M : Int → Prop} {a n id x : Int} {ys : List Int} (hb : IsBuiltin s M a n id) (hl : IsList s x ys) (ha : ∀ y ∈ ys, IsArg s y)
    (hv : ∀ y ∈ ys, (s.cell y).tag ≠ .values) (hnil : (s.cell c_nil).tag ≠ .pair) (hn : 3 < n) (hn' : n < 2 ^ 31) (hr : Room s 1) :
    ∃ s', Ext s s' ∧ ∀ fuel, applyBuiltin K s fuel a x = ok (c_unspecified, s') :=
  applyBuiltin_many hb hl ha hv hnil hn hn' hr

/-- `(f (values #t) (values #t))` with two parameters. -/
example : ∃ us s', Receives s' 2 us [c_t, c_t] ∧ ∀ fuel,
    applyBuiltin K (builtinState 2 [pair 125 124, pair 125 c_nil, { tag := .values, car := 0, cdr := 126 }, pair c_t c_nil]) fuel 116 123 = K.builtin fuel 7 us s' := by
  have v : ∀ a : Int, 1 ≤ a → a < 127 → (builtinState 2 [pair 125 124, pair 125 c_nil, { tag := .values, car := 0, cdr := 126 }, pair c_t c_nil]).Valid a :=
    fun a h1 h2 => ⟨h1, h2⟩
  have ha : IsArg (builtinState 2 [pair 125 124, pair 125 c_nil, { tag := .values, car := 0, cdr := 126 }, pair c_t c_nil]) 125 :=
    ⟨v _ (by decide) (by decide), fun _ => ⟨v _ (by decide) (by decide), rfl⟩⟩
  obtain ⟨s', -, h⟩ := C62_two_partial (K := K) (builtinState_ok (n := 2) (cells := [pair 125 124, pair 125 c_nil, { tag := .values, car := 0, cdr := 126 }, pair c_t c_nil]))
    (x := 123) (.cons (by decide) (v _ (by decide) (by decide)) rfl rfl (.cons (by decide) (v _ (by decide) (by decide)) rfl rfl .nil)) ha ha ⟨by decide, by decide⟩
  exact ⟨_, s', by rw [Receives, if_neg (by decide)]; decide, h⟩

end Mes.Props
