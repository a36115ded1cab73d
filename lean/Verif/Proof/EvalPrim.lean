import Verif.Spec.Builtins
import Verif.Model.Builtins
import Verif.Proof.EvalSim
import Verif.Props.Math
/-
The C functions of the builtins compute what the semantics says.
-/
namespace Mes
open Res Spec

variable {s s' : St} {W : Ghost} {mes : Bool} {σ : Store}

theorem Spec.IsVals.numbers {a : Int} {ns : List Int} (h : IsVals s W mes a (ns.map .int)) : Numbers s a ns := by
  generalize hv : ns.map Value.int = vs at h
  induction h generalizing ns with
  | nil => cases ns with
    | nil => exact .nil
    | cons => cases hv
  | cons hp hx _ ih =>
    cases ns with
    | nil => cases hv
    | cons n ns =>
      simp only [List.map_cons, List.cons.injEq] at hv
      obtain ⟨h1, h2⟩ := hv
      rw [← h1] at hx
      cases hx with
      | int h _ => exact .cons hp.ne hp.valid hp.tag h (ih h2)

/-- Only the object itself is at the address of a predefined object. -/
theorem Spec.IsVal.fixed_iff {a c : Int} {v : Value} (h : IsVal s W mes a v) (hw : World s W mes σ) (h1 : c_nil ≤ c) (h2 : c < c_symbol_max) :
    a = c ↔ v = .obj c := by
  have ht := (World.fixed_cell hw h1 h2).2
  constructor
  · rintro rfl
    cases h with
    | int h => rw [h.tag] at ht; split at ht <;> cases ht
    | char h => rw [h.tag] at ht; split at ht <;> cases ht
    | pair h => rw [h.tag] at ht; split at ht <;> cases ht
    | obj _ _ hu => rfl
    | prim h => rw [h.tag] at ht; split at ht <;> cases ht
    | clo _ h => rw [h] at ht; split at ht <;> cases ht
  · rintro rfl
    cases h
    rfl

theorem isVal_fixed (hw : World s W mes σ) {c : Int} (h1 : c_nil ≤ c) (h2 : c < c_symbol_max) (hu : c ≠ c_undefined) :
    IsVal s W mes c (.obj c) := by
  have h := World.fixed_cell hw h1 h2
  exact .obj h.1 (by rw [h.2]; split <;> decide) hu

theorem isVal_bool (hw : World s W mes σ) (b : Prop) [Decidable b] : IsVal s W mes (if b then c_t else c_f) (Value.bool b) := by
  unfold Value.bool
  split
  · exact isVal_fixed hw (by decide) (by decide) (by decide)
  · exact isVal_fixed hw (by decide) (by decide) (by decide)

theorem fresh_fixed (hw : World s W mes σ) {a : Int} (h : s.free ≤ a) : ¬ W.chg a := fun hc => by have := hw.below a hc; omega

/-- The result of a function that does not allocate. -/
theorem same_ok {x : Int} {v : Value} {F : Nat} {f : Nat → Res (Int × St)} (h : ∀ fuel, F ≤ fuel → f fuel = ok (x, s)) (hv : IsVal s W mes x v) :
    ∃ F r s', (∀ fuel, F ≤ fuel → f fuel = ok (r, s')) ∧ Ext s s' ∧ s'.free ≤ s.free + ((1 : Nat) : Int) ∧ IsVal s' W mes r v :=
  ⟨F, x, s, h, Frame.refl .., by omega, hv⟩

/-- The result is a new number. -/
theorem number_ok {n : Int} {F : Nat} {f : Nat → Res (Int × St)} (hw : World s W mes σ) (hr : Room s 1)
    (h : ∀ fuel, F ≤ fuel → f fuel = makeNumber s n) :
    ∃ F r s', (∀ fuel, F ≤ fuel → f fuel = ok (r, s')) ∧ Ext s s' ∧ s'.free ≤ s.free + ((1 : Nat) : Int) ∧ IsVal s' W mes r (.int n) :=
  ⟨F, _, _, fun fuel hf => by rw [h fuel hf, makeNumber_ok hr], push_ext .., by simp, .int (hr.push_isNum _) (fresh_fixed hw (Int.le_refl _))⟩

theorem cons_val {a b : Int} {v w : Value} (hw : World s W mes σ) (hr : Room s 1) (ha : IsVal s W mes a v) (hb : IsVal s W mes b w) :
    ∃ r s', cons s a b = ok (r, s') ∧ Ext s s' ∧ s'.free = s.free + 1 ∧ IsVal s' W mes r (.pair v w) := by
  have e := push_ext s { tag := .pair, car := a, cdr := b }
  have f : (s.push { tag := .pair, car := a, cdr := b }).free = s.free + 1 := by simp
  have c : (s.push { tag := .pair, car := a, cdr := b }).cell s.free = { tag := .pair, car := a, cdr := b } := by simp
  have h := cons_ok hr a b
  generalize s.push { tag := .pair, car := a, cdr := b } = s1 at *
  refine ⟨s.free, s1, h, e, f, .pair (fresh_pair hw (Int.le_refl _) (by omega) (by rw [c])) ?_ ?_⟩
  · rw [c]; exact ha.later (e.grow.later W)
  · rw [c]; exact hb.later (e.grow.later W)

theorem Spec.IsVal.isInt {a n : Int} (h : IsVal s W mes a (.int n)) : IsNum s a n := by cases h; assumption
theorem Spec.IsVal.isChar {a n : Int} (h : IsVal s W mes a (.char n)) : IsChar s a n := by cases h; assumption

theorem Spec.Atomic.run {a b : Int} {v w : Value} (hv : Atomic v) (hw' : Atomic w) (hw : World s W mes σ) (h1 : IsVal s W mes a v)
    (h2 : IsVal s W mes b w) [Decidable (v = w)] : eqP s a b = ok (if v = w then c_t else c_f) := by
  have v1 := h1.valid
  have v2 := h2.valid
  unfold eqP
  cases hv with
  | int n =>
    have i1 := h1.isInt
    cases hw' with
    | int m =>
      have i2 := h2.isInt
      by_cases hab : a = b
      · subst hab
        rw [if_pos rfl, if_pos (by rw [← i1.value, ← i2.value])]
      · simp only [if_neg hab, St.rd_ok v1, St.rd_ok v2, ok_bind, i1.tag, i2.tag, i1.value, i2.value, reduceCtorEq, if_false, if_true, ne_eq, not_true, Value.int.injEq]
        by_cases e : n = m <;> simp [e]
    | char m =>
      have i2 := h2.isChar
      have hab : a ≠ b := by rintro rfl; have := i1.tag; rw [i2.tag] at this; cases this
      simp [if_neg hab, St.rd_ok v1, St.rd_ok v2, ok_bind, i1.tag, i2.tag]
    | fixed g1 g2 =>
      have e := h2.isObj
      subst e
      have ht := (World.fixed_cell hw g1 g2).2
      have hab : a ≠ b := by rintro rfl; have := i1.tag; rw [ht] at this; split at this <;> cases this
      have ht' : (s.cell b).tag ≠ .number := by rw [ht]; split <;> decide
      simp [if_neg hab, St.rd_ok v1, St.rd_ok v2, ok_bind, i1.tag, ht']
  | char n =>
    have i1 := h1.isChar
    cases hw' with
    | int m =>
      have i2 := h2.isInt
      have hab : a ≠ b := by rintro rfl; have := i1.tag; rw [i2.tag] at this; cases this
      simp [if_neg hab, St.rd_ok v1, St.rd_ok v2, ok_bind, i1.tag, i2.tag]
    | char m =>
      have i2 := h2.isChar
      by_cases hab : a = b
      · subst hab
        rw [if_pos rfl, if_pos (by rw [← i1.value, ← i2.value])]
      · simp only [if_neg hab, St.rd_ok v1, St.rd_ok v2, ok_bind, i1.tag, i2.tag, i1.value, i2.value, reduceCtorEq, if_false, if_true, ne_eq, not_true, Value.char.injEq]
        split <;> rfl
    | fixed g1 g2 =>
      have e := h2.isObj
      subst e
      have ht := (World.fixed_cell hw g1 g2).2
      have hab : a ≠ b := by rintro rfl; have := i1.tag; rw [ht] at this; split at this <;> cases this
      have ht' : (s.cell b).tag ≠ .char := by rw [ht]; split <;> decide
      simp [if_neg hab, St.rd_ok v1, St.rd_ok v2, ok_bind, i1.tag, ht']
  | @fixed c g1 g2 =>
    have e := h1.isObj
    subst e
    have ht := (World.fixed_cell hw g1 g2).2
    have t1 : (s.cell a).tag ≠ .char := by rw [ht]; split <;> decide
    have t2 : (s.cell a).tag ≠ .number := by rw [ht]; split <;> decide
    have t3 : (s.cell a).tag ≠ .keyword := by rw [ht]; split <;> decide
    have hi := h2.fixed_iff hw g1 g2
    by_cases hab : a = b
    · rw [if_pos hab, if_pos (hi.1 hab.symm).symm]
    · have : ¬ (Value.obj a = w) := fun e => hab (hi.2 e.symm).symm
      simp only [if_neg hab, St.rd_ok v1, St.rd_ok v2, ok_bind, if_neg t1, if_neg t2, if_neg t3, if_neg this]

/-- `append2` copies the first list. -/
theorem append_val {x y : Int} {vs ws : List Value} (hw : World s W mes σ) (hr : Room s vs.length) (hx : IsVals s W mes x vs) (hy : IsVals s W mes y ws) :
    ∃ F r s', (∀ fuel, F ≤ fuel → append2 s fuel x y = ok (r, s')) ∧ Ext s s' ∧ s'.free ≤ s.free + vs.length ∧ IsVals s' W mes r (vs ++ ws) := by
  have key : ∃ as, Chain s x as c_nil ∧ as.length = vs.length ∧ ∀ s' r bs, Grow s s' → Chain s' r bs y → cars s' bs = cars s as →
      (∀ b ∈ bs, s.free ≤ b) → IsVals s' W mes r (vs ++ ws) := by
    induction hx with
    | nil =>
      refine ⟨[], .nil _, rfl, fun s' r bs hg hc hcars hb => ?_⟩
      have : bs = [] := by simpa [cars] using hcars
      subst this
      cases hc
      simpa using Spec.IsVals.later hy (hg.later W)
    | @cons p v vs hp hv _ ih =>
      obtain ⟨as, h1, h2, h3⟩ := ih (hr.mono (by simp; omega))
      refine ⟨p :: as, .cons hp.ne hp.valid hp.tag h1, by simp [h2], fun s' r bs hg hc hcars hb => ?_⟩
      cases hc with
      | nil => simp [cars] at hcars
      | cons hne hv' ht hc' =>
        simp only [cars, List.map_cons, List.cons.injEq] at hcars
        refine .cons ?_ ?_ (h3 s' _ _ hg hc' hcars.2 fun b hb' => hb b (by simp [hb']))
        · exact ⟨hne, hv', ht, fresh_fixed hw (hb _ (by simp))⟩
        · rw [hcars.1]; exact hv.later (hg.later W)
  obtain ⟨as, h1, h2, h3⟩ := key
  obtain ⟨r, s', bs, g1, g2, g3, g4, g5, g6⟩ := append2_copy (y := y) h1 (by rw [h2]; exact hr)
  exact ⟨as.length + 1, r, s', fun fuel hf => g1 fuel (by omega), g2, by omega, h3 s' r bs g2.grow g4 g5 g6⟩

theorem Spec.IsVals.listOf {a : Int} {vs : List Value} (h : IsVals s W mes a vs) : ListOf s (fun a v => IsVal s W mes a v) a vs := by
  induction h with
  | nil => exact .nil
  | cons hp hv _ ih => exact .cons hp.ne hp.valid hp.tag hv ih

theorem Spec.Passed.any {us : List Int} {vs : List Value} (h : Passed s W mes (-1) us vs) : ∃ a, us = [a] ∧ IsVals s W mes a vs := by
  generalize hn : (-1 : Int) = n at h
  cases h with
  | list h => exact ⟨_, rfl, h⟩
  | args => omega

theorem Spec.Passed.args' {n : Int} {us : List Int} {vs : List Value} (h : Passed s W mes n us vs) (hn : 0 ≤ n) : Args s W mes us vs := by
  cases h with
  | list h => omega
  | args h => exact h

theorem Spec.Passed.one {us : List Int} {v : Value} (h : Passed s W mes 1 us [v]) : ∃ a, us = [a] ∧ IsVal s W mes a v := by
  cases h.args' (by decide) with
  | cons h1 hs => cases hs; exact ⟨_, rfl, h1⟩

theorem Spec.Passed.two {us : List Int} {v w : Value} (h : Passed s W mes 2 us [v, w]) :
    ∃ a b, us = [a, b] ∧ IsVal s W mes a v ∧ IsVal s W mes b w := by
  cases h.args' (by decide) with
  | cons h1 hs => cases hs with
    | cons h2 hs => cases hs; exact ⟨_, _, rfl, h1, h2⟩

theorem Spec.Passed.three {us : List Int} {u v w : Value} (h : Passed s W mes 3 us [u, v, w]) :
    ∃ a b c, us = [a, b, c] ∧ IsVal s W mes a u ∧ IsVal s W mes b v ∧ IsVal s W mes c w := by
  cases h.args' (by decide) with
  | cons h1 hs => cases hs with
    | cons h2 hs => cases hs with
      | cons h3 hs => cases hs; exact ⟨_, _, _, rfl, h1, h2, h3⟩

/-- Comparison: the truth value that the loop over the list gives. -/
theorem compare_ok {R : Int → Int → Prop} {ns : List Int} {f : Nat → Res Int} [Decidable (Neighbours R ns)] (hw : World s W mes σ)
    (h : ∀ fuel, ns.length < fuel → (Neighbours R ns → f fuel = ok c_t) ∧ (¬ Neighbours R ns → f fuel = ok c_f)) :
    ∃ F r s', (∀ fuel, F ≤ fuel → same s (f fuel) = ok (r, s')) ∧ Ext s s' ∧ s'.free ≤ s.free + ((1 : Nat) : Int) ∧
      IsVal s' W mes r (.bool (Neighbours R ns)) := by
  refine same_ok (F := ns.length + 1) (fun fuel hf => ?_) (isVal_bool hw (Neighbours R ns))
  obtain ⟨h1, h2⟩ := h fuel (by omega)
  by_cases hn : Neighbours R ns
  · simp only [same, h1 hn, ok_bind, if_pos hn]
  · simp only [same, h2 hn, ok_bind, if_neg hn]

open Classical in
/-- The C functions compute what `Computes` says. -/
theorem implements_builtins : Implements builtins.builtin mes Computes := by
  intro n id vs v h
  cases h with
  | car =>
    refine ⟨.inr ⟨rfl, by simp⟩, 1, fun s W σ us hw hr hp => ?_⟩
    obtain ⟨a, rfl, ha⟩ := hp.one
    cases ha with
    | pair hp hx hy => exact same_ok (F := 0) (fun fuel _ => by simp [builtins, function1, same, carP_pair hp.valid hp.tag]) hx
  | cdr =>
    refine ⟨.inr ⟨rfl, by simp⟩, 1, fun s W σ us hw hr hp => ?_⟩
    obtain ⟨a, rfl, ha⟩ := hp.one
    cases ha with
    | pair hp hx hy => exact same_ok (F := 0) (fun fuel _ => by simp [builtins, function1, same, cdrP_pair hp.valid hp.tag]) hy
  | list =>
    refine ⟨.inl rfl, 1, fun s W σ us hw hr hp => ?_⟩
    obtain ⟨a, rfl, ha⟩ := hp.any
    exact same_ok (F := 0) (fun fuel _ => by simp [builtins, function1, same]) (ha.list hw)
  | @null v =>
    refine ⟨.inr ⟨rfl, by simp⟩, 1, fun s W σ us hw hr hp => ?_⟩
    obtain ⟨a, rfl, ha⟩ := hp.one
    refine same_ok (F := 0) (x := if v = .obj c_nil then c_t else c_f) (fun fuel _ => ?_) (isVal_bool hw _)
    have := ha.fixed_iff hw (c := c_nil) (by decide) (by decide)
    by_cases e : v = .obj c_nil
    · rw [if_pos e]; simp [builtins, function1, same, nullP, Mes.bool, this.2 e]
    · rw [if_neg e]; simp [builtins, function1, same, nullP, Mes.bool, mt this.1 e]
  | @eq v w hv hw' =>
    refine ⟨.inr ⟨rfl, by simp⟩, 1, fun s W σ us hw hr hp => ?_⟩
    obtain ⟨a, b, rfl, ha, hb⟩ := hp.two
    refine same_ok (F := 0) (x := if v = w then c_t else c_f) (fun fuel _ => ?_) (isVal_bool hw _)
    simp only [builtins, function2, same, hv.run hw' hw ha hb, if_true, ok_bind]
  | acons =>
    refine ⟨.inr ⟨rfl, by simp⟩, 2, fun s W σ us hw hr hp => ?_⟩
    obtain ⟨a, b, c, rfl, ha, hb, hc⟩ := hp.three
    obtain ⟨p, s1, g1, g2, g3, g4⟩ := cons_val hw (hr.mono (by simp)) ha hb
    obtain ⟨q, s2, i1, i2, i3, i4⟩ := cons_val (g2.world hw) (hr.step g2 (by omega)) g4 (hc.later (g2.grow.later W))
    refine ⟨0, q, s2, fun fuel _ => ?_, g2.trans i2, by omega, i4⟩
    simp only [builtins, function3, acons, if_true, g1, ok_bind, i1]
  | @length vs =>
    refine ⟨.inr ⟨rfl, by simp⟩, 1, fun s W σ us hw hr hp => ?_⟩
    obtain ⟨a, rfl, ha⟩ := hp.one
    have hl := (ha.isVals).listOf
    refine number_ok (F := vs.length + 1) hw hr fun fuel hf => ?_
    have := length_ok (fuel := fuel) hl (by omega)
    simp only [builtins, function1, lengthP, this, ok_bind]
    rfl
  | @append vs ws =>
    refine ⟨.inr ⟨rfl, by simp⟩, vs.length, fun s W σ us hw hr hp => ?_⟩
    obtain ⟨a, b, rfl, ha, hb⟩ := hp.two
    obtain ⟨F, r, s', g1, g2, g3, g4⟩ := append_val hw hr (ha.isVals) (hb.isVals)
    refine ⟨F, r, s', fun fuel hf => ?_, g2, g3, g4.list (g2.world hw)⟩
    simp [builtins, function2, g1 fuel hf]
  | cons =>
    refine ⟨.inr ⟨rfl, by simp⟩, 1, fun s W σ us hw hr hp => ?_⟩
    obtain ⟨a, b, rfl, ha, hb⟩ := hp.two
    obtain ⟨p, s1, g1, g2, g3, g4⟩ := cons_val hw hr ha hb
    refine ⟨0, p, s1, fun fuel _ => ?_, g2, by omega, g4⟩
    simp [builtins, function2, g1]
  | @isPair v =>
    refine ⟨.inr ⟨rfl, by simp⟩, 1, fun s W σ us hw hr hp => ?_⟩
    obtain ⟨a, rfl, ha⟩ := hp.one
    refine same_ok (F := 0) (x := if ∃ a b, v = .pair a b then c_t else c_f) (fun fuel _ => ?_) (isVal_bool hw _)
    have hv := ha.valid
    by_cases e : ∃ a b, v = .pair a b
    · rw [if_pos e]
      obtain ⟨x, y, rfl⟩ := e
      cases ha with
      | pair hp => simp [builtins, function1, same, pairP, St.rd_ok hv, hp.tag, Mes.bool]
    · rw [if_neg e]
      have : (s.cell a).tag ≠ .pair := by
        cases ha with
        | int h => rw [h.tag]; decide
        | char h => rw [h.tag]; decide
        | pair => exact absurd ⟨_, _, rfl⟩ e
        | obj _ ht => intro h; rw [h] at ht; simp at ht
        | prim h => rw [h.tag]; decide
        | clo _ h => rw [h]; decide
      simp [builtins, function1, same, pairP, St.rd_ok hv, this, Mes.bool]
  | code =>
    refine ⟨.inr ⟨rfl, by simp⟩, 1, fun s W σ us hw hr hp => ?_⟩
    obtain ⟨a, rfl, ha⟩ := hp.one
    have h := ha.isChar
    exact number_ok (F := 0) hw hr fun fuel _ => by simp [builtins, function1, charToInteger, St.cdr_ok h.valid, h.value]
  | @char n h1 h2 =>
    refine ⟨.inr ⟨rfl, by simp⟩, 1, fun s W σ us hw hr hp => ?_⟩
    obtain ⟨a, rfl, ha⟩ := hp.one
    have h := ha.isInt
    have e := push_ext s { tag := .char, car := 0, cdr := n }
    refine ⟨0, s.free, s.push { tag := .char, car := 0, cdr := n }, fun fuel _ => ?_, e, by simp,
      .char ⟨⟨by have := hw.base; simp only [c_symbol_max] at this; omega, by simp; omega⟩, by simp, by simp⟩ (fresh_fixed hw (Int.le_refl _))⟩
    simp [builtins, function1, integerToChar, St.cdr_ok h.valid, h.value, makeChar_ok hr, toInt32_id (n := n) (by omega) (by omega)]
  | greater =>
    refine ⟨.inl rfl, 1, fun s W σ us hw hr hp => ?_⟩
    obtain ⟨a, rfl, ha⟩ := hp.any
    exact compare_ok (R := (· > ·)) (f := fun fuel => greaterP s fuel a) hw fun fuel hf => Props.C19_greater ha.numbers hf
  | less =>
    refine ⟨.inl rfl, 1, fun s W σ us hw hr hp => ?_⟩
    obtain ⟨a, rfl, ha⟩ := hp.any
    exact compare_ok (R := (· < ·)) (f := fun fuel => lessP s fuel a) hw fun fuel hf => Props.C19_less ha.numbers hf
  | equal =>
    refine ⟨.inl rfl, 1, fun s W σ us hw hr hp => ?_⟩
    obtain ⟨a, rfl, ha⟩ := hp.any
    exact compare_ok (R := (· = ·)) (f := fun fuel => isP s fuel a) hw fun fuel hf => Props.C19_equal ha.numbers hf
  | @negate n h =>
    refine ⟨.inl rfl, 1, fun s W σ us hw hr hp => ?_⟩
    obtain ⟨a, rfl, ha⟩ := hp.any
    have hn := IsVals.numbers (ns := [n]) ha
    refine number_ok (F := 1) hw hr fun fuel hf => ?_
    cases hn with
    | cons hne hv ht hx h' =>
      have hd : (s.cell a).cdr = c_nil := by
        generalize (s.cell a).cdr = d at h'; cases h'; rfl
      simp [builtins, function1, minus, St.car_ok hv, numberArg_ok hx, cdrP_pair hv ht, hd,
        ckLong_ok (word_inLong.1 h), foldNumbers_eq _ ListOf.nil hf, foldRes]
  | @minus n m ns h =>
    refine ⟨.inl rfl, 1, fun s W σ us hw hr hp => ?_⟩
    obtain ⟨a, rfl, ha⟩ := hp.any
    have hn := IsVals.numbers ha
    refine number_ok (F := ns.length + 2) hw hr fun fuel hf => ?_
    cases hn with
    | cons hne hv ht hx h' =>
      have hd : (s.cell a).cdr ≠ c_nil := by
        intro e; rw [e, ListOf.nil_iff] at h'; simp at h'
      have e := foldRes_sub (fun k => word_inLong.1 (h k))
      simp [builtins, function1, minus, St.car_ok hv, numberArg_ok hx, cdrP_pair hv ht, hd,
        foldNumbers_eq _ h' (by simp; omega : (m :: ns).length < fuel), e]
  | @plus ns h =>
    refine ⟨.inl rfl, 1, fun s W σ us hw hr hp => ?_⟩
    obtain ⟨a, rfl, ha⟩ := hp.any
    refine number_ok (F := ns.length + 1) hw hr fun fuel hf => ?_
    have e := foldRes_add (n := 0) (ns := ns) (fun k => word_inLong.1 (by simpa using h k))
    simp [builtins, function1, plus, foldNumbers_eq _ ha.numbers hf, e]
  | @multiply ns h =>
    refine ⟨.inl rfl, 1, fun s W σ us hw hr hp => ?_⟩
    obtain ⟨a, rfl, ha⟩ := hp.any
    refine number_ok (F := ns.length + 1) hw hr fun fuel hf => ?_
    have e := foldRes_mul (n := 1) (ns := ns) (fun k => word_inLong.1 (by simpa [product] using h k))
    simp [builtins, function1, multiply, foldNumbers_eq _ ha.numbers hf, e, product]

end Mes
