import Verif.Proof.Math
import Verif.Spec.Sample
/-
Properties C18-C22: the arithmetic primitives of /repo/src/math.c.  The arguments are lists in the interpreter's heap;
`Numbers s x ns` says that the list at `x` consists of the numbers `ns` (Spec/Heap.lean).
-/
namespace Mes.Props
open Res Spec

variable {s : St} {fuel : Nat} {x : Int} {ns : List Int}

/-- The value of the number a primitive returned. -/
def resultValue (r : Res (Int × St)) : Res Int := r >>= fun (p, s) => s.cdr p

/-- Two argument lists used in the examples: (40 -7 2) at 121 and (6 -2) at 126. -/
def twoLists : St :=
  sample [num 40, num (-7), num 2, pair 118 c_nil, pair 117 119, pair 116 120, num 6, num (-2), pair 123 c_nil,
    pair 122 124]

theorem twoLists_room : Room twoLists 1 := ⟨by decide, by decide⟩
theorem twoLists_first : Numbers twoLists 121 [40, -7, 2] :=
  .cons (by decide) (by decide) rfl ⟨by decide, rfl, rfl⟩
    (.cons (by decide) (by decide) rfl ⟨by decide, rfl, rfl⟩
      (.cons (by decide) (by decide) rfl ⟨by decide, rfl, rfl⟩ .nil))
theorem twoLists_second : Numbers twoLists 125 [6, -2] :=
  .cons (by decide) (by decide) rfl ⟨by decide, rfl, rfl⟩
    (.cons (by decide) (by decide) rfl ⟨by decide, rfl, rfl⟩ .nil)

/-! ## C18: +, - and * -/

/-- (+ n ...) is the sum when every partial sum fits a machine word; nothing but a new cell is written. -/
theorem C18_plus (hr : Room s 1) (h : Numbers s x ns) (hf : ns.length < fuel) (hfit : ∀ k, Word (ns.take k).sum) :
    ∃ r s', plus s fuel x = ok (r, s') ∧ IsNum s' r ns.sum ∧ Ext s s' := by
  refine ⟨_, _, ?_, hr.push_isNum _, push_ext ..⟩
  have e := foldRes_add (n := 0) (ns := ns) (fun k => word_inLong.1 (by simpa using hfit k))
  simp only [plus, foldNumbers_eq _ h hf, e, ok_bind, makeNumber_ok hr, Int.zero_add]

/-- … and undefined otherwise: no partial sum may overflow. -/
theorem C18_plus_overflow (h : Numbers s x ns) (hf : ns.length < fuel) (k : Nat) (hk : ¬ Word (ns.take k).sum) :
    plus s fuel x = ub := by
  have e : foldRes (fun n v => ckLong (n + v)) 0 ns = ub := by
    refine foldRes_ub (f := fun n v => n + v) (by decide) (k := k) ?_
    rw [← word_inLong]
    have : ∀ (l : List Int) (n : Int), l.foldl (fun n v => n + v) n = n + l.sum := by
      intro l; induction l with
      | nil => simp
      | cons a l ih => intro n; simp only [List.foldl_cons, List.sum_cons, ih]; omega
    rw [this, Int.zero_add]; exact hk
  simp only [plus, foldNumbers_eq _ h hf, e, ub_bind]

/-- (- n v ...) subtracts all further arguments. -/
theorem C18_minus {n v : Int} {vs : List Int} (hr : Room s 1) (h : Numbers s x (n :: v :: vs))
    (hf : vs.length + 1 < fuel) (hfit : ∀ k, Word (n - ((v :: vs).take k).sum)) :
    ∃ r s', minus s fuel x = ok (r, s') ∧ IsNum s' r (n - (v :: vs).sum) ∧ Ext s s' := by
  refine ⟨_, _, ?_, hr.push_isNum _, push_ext ..⟩
  cases h with
  | cons hne hv ht hx h' =>
    have hd : (s.cell x).cdr ≠ c_nil := by
      intro e; rw [e, ListOf.nil_iff] at h'; simp at h'
    have e := foldRes_sub (fun k => word_inLong.1 (hfit k))
    simp only [minus, St.car_ok hv, numberArg_ok hx, cdrP_pair hv ht, ok_bind, if_neg hd, foldNumbers_eq _ h' hf, e,
      makeNumber_ok hr]

/-- (- n) is the negation. -/
theorem C18_minus_one {n : Int} (hr : Room s 1) (h : Numbers s x [n]) (hf : 0 < fuel) (hfit : Word (-n)) :
    ∃ r s', minus s fuel x = ok (r, s') ∧ IsNum s' r (-n) ∧ Ext s s' := by
  refine ⟨_, _, ?_, hr.push_isNum _, push_ext ..⟩
  cases h with
  | cons hne hv ht hx h' =>
    have hd : (s.cell x).cdr = c_nil := by
      generalize (s.cell x).cdr = d at h'; cases h'; rfl
    simp only [minus, St.car_ok hv, numberArg_ok hx, cdrP_pair hv ht, ok_bind, hd, if_true,
      ckLong_ok (word_inLong.1 hfit), foldNumbers_eq _ ListOf.nil hf, foldRes, makeNumber_ok hr]

/-- (* n ...) is the product when every partial product fits a machine word. -/
theorem C18_multiply (hr : Room s 1) (h : Numbers s x ns) (hf : ns.length < fuel)
    (hfit : ∀ k, Word (product (ns.take k))) :
    ∃ r s', multiply s fuel x = ok (r, s') ∧ IsNum s' r (product ns) ∧ Ext s s' := by
  refine ⟨_, _, ?_, hr.push_isNum _, push_ext ..⟩
  have e := foldRes_mul (n := 1) (ns := ns) (fun k => word_inLong.1 (by simpa [product] using hfit k))
  simp only [multiply, foldNumbers_eq _ h hf, e, ok_bind, makeNumber_ok hr, Int.one_mul, product]

/-- A value that is not a number among the arguments is an error. -/
theorem C18_plus_type (h : NumbersThen s x ns) (hf : ns.length < fuel) (hfit : ∀ k, Word (ns.take k).sum) :
    plus s fuel x = err .notANumber := by
  have e := foldRes_add (n := 0) (ns := ns) (fun k => word_inLong.1 (by simpa using hfit k))
  simp only [plus, foldNumbers_bad _ h hf, e, ok_bind, err_bind]

example : Room twoLists 1 ∧ Numbers twoLists 121 [40, -7, 2] ∧ [40, -7, (2 : Int)].length < 10 ∧
    (∀ k, Word (([40, -7, 2] : List Int).take k).sum) ∧ (∀ k, Word (product (([40, -7, 2] : List Int).take k))) := by
  refine ⟨twoLists_room, twoLists_first, by decide, fun k => ?_, fun k => ?_⟩
  · match k with
    | 0 => unfold Word; decide
    | 1 => unfold Word; decide
    | 2 => unfold Word; decide
    | k + 3 => unfold Word; simp
  · match k with
    | 0 => unfold Word; decide
    | 1 => unfold Word; decide
    | 2 => unfold Word; decide
    | k + 3 => unfold Word; simp [product]
example : resultValue (plus twoLists 10 121) = ok 35 := by decide
example : resultValue (minus twoLists 10 121) = ok 45 := by decide
example : resultValue (multiply twoLists 10 121) = ok (-560) := by decide

/-! ## C19: comparison chains -/

/-- (< n ...) answers #t exactly when every number is smaller than its successor. -/
theorem C19_less (h : Numbers s x ns) (hf : ns.length < fuel) :
    (Neighbours (· < ·) ns → lessP s fuel x = ok c_t) ∧ (¬ Neighbours (· < ·) ns → lessP s fuel x = ok c_f) := by
  cases h with
  | nil => simp [lessP]; intro h; exact absurd (fun i a b h => by simp at h) h
  | cons hne hv ht hx h' =>
    simp only [lessP, if_neg hne, St.car_ok hv, numberArg_ok hx, St.cdr_ok hv, ok_bind]
    rw [lessLoop_ok h' (by simp at hf; omega)]
    exact ⟨fun h => by rw [if_pos h], fun h => by rw [if_neg h]⟩

/-- (> n ...) answers #t exactly when every number is greater than its successor. -/
theorem C19_greater (h : Numbers s x ns) (hf : ns.length < fuel) :
    (Neighbours (· > ·) ns → greaterP s fuel x = ok c_t) ∧ (¬ Neighbours (· > ·) ns → greaterP s fuel x = ok c_f) := by
  cases h with
  | nil => simp [greaterP]; intro h; exact absurd (fun i a b h => by simp at h) h
  | cons hne hv ht hx h' =>
    simp only [greaterP, if_neg hne, St.car_ok hv, numberArg_ok hx, St.cdr_ok hv, ok_bind]
    rw [greaterLoop_ok h' (by simp at hf; omega)]
    exact ⟨fun h => by rw [if_pos h], fun h => by rw [if_neg h]⟩

/-- (= n ...) answers #t exactly when every number equals its successor. -/
theorem C19_equal (h : Numbers s x ns) (hf : ns.length < fuel) :
    (Neighbours (· = ·) ns → isP s fuel x = ok c_t) ∧ (¬ Neighbours (· = ·) ns → isP s fuel x = ok c_f) := by
  cases h with
  | nil => simp [isP]; intro h; exact absurd (fun i a b h => by simp at h) h
  | cons hne hv ht hx h' =>
    simp only [isP, if_neg hne, St.car_ok hv, numberArg_ok hx, cdrP_pair hv ht, ok_bind]
    rw [isLoop_ok h' (by simp at hf; omega)]
    exact ⟨fun h => by rw [if_pos h], fun h => by rw [if_neg h]⟩

example : Numbers twoLists 121 [40, -7, 2] ∧ ¬ Neighbours (· < ·) [40, -7, 2] := by
  refine ⟨twoLists_first, fun h => ?_⟩
  have := h 0 40 (-7) rfl rfl; revert this; decide
example : Neighbours (· > ·) [6, -2] := by
  intro i a b h1 h2
  match i with
  | 0 => simp at h1 h2; omega
  | i + 1 => simp at h2

/-! ## C20: division -/

/-- The full property: (/ n d ...) divides successively, truncating, for all signs, and a zero divisor is an error. -/
def DivideCorrect : Prop :=
  (∀ (s : St) (fuel : Nat) (x n : Int) (ds : List Int), Room s 1 → Numbers s x (n :: ds) → ds.length + 1 < fuel →
    (∀ k, Word ((ds.take k).foldl Int.tdiv n)) → (∀ d ∈ ds, Word d ∧ d ≠ 0) →
    ∃ r s', divide s fuel x = ok (r, s') ∧ IsNum s' r (ds.foldl Int.tdiv n)) ∧
  (∀ (s : St) (fuel : Nat) (x n : Int) (ds : List Int), Room s 1 → Numbers s x (n :: ds) → ds.length + 1 < fuel →
    0 ∈ ds → divide s fuel x = err .divideByZero)

/-- The divisor is converted to `size_t` without taking its absolute value: (/ 6 -2) is 0. -/
theorem C20_divide_false : ¬ DivideCorrect := by
  intro h
  obtain ⟨r, s', he, hn⟩ := h.1 twoLists 10 125 6 [-2] twoLists_room twoLists_second (by decide)
    (by intro k; match k with
        | 0 => unfold Word; decide
        | k + 1 => unfold Word; simp)
    (by unfold Word; decide)
  have h1 : resultValue (divide twoLists 10 125) = ok 0 := by decide
  rw [he] at h1
  simp only [resultValue, ok_bind, St.cdr_ok hn.valid, hn.value] at h1
  exact absurd h1 (by decide)

/-- For positive divisors division is the successive truncating quotient.  Missing from C20: negative divisors (wrong,
`C20_divide_false`) and the smallest dividend, whose negation overflows. -/
theorem C20_divide_partial {n : Int} {ds : List Int} (hr : Room s 1) (h : Numbers s x (n :: ds))
    (hf : ds.length < fuel) (hn : Word n) (hmin : n ≠ -2 ^ 63) (hpos : ∀ d ∈ ds, 0 < d ∧ Word d) :
    ∃ r s', divide s fuel x = ok (r, s') ∧ IsNum s' r (ds.foldl Int.tdiv n) ∧ Ext s s' := by
  refine ⟨_, _, ?_, hr.push_isNum _, push_ext ..⟩
  have hp1 : ∀ d ∈ ds, 0 < d := fun d hd => (hpos d hd).1
  have hp2 : ∀ d ∈ ds, 0 < d ∧ d ≤ 9223372036854775807 := fun d hd => by
    have := hpos d hd; unfold Word at this; omega
  unfold Word at hn
  cases h with
  | cons hne hv ht hx h' =>
    by_cases hneg : n < 0
    · have hm : InLong (-n) := by unfold InLong; omega
      have hrange := foldl_ediv_range hp1 (show 0 ≤ -n by omega)
      have hb : InLong (ds.foldl (fun a d => a / d) (-n)) := by unfold InLong; omega
      have hb2 : InLong (-(ds.foldl (fun a d => a / d) (-n))) := by unfold InLong; omega
      have hof : ofSize (ds.foldl (fun a d => a / d) (-n)) = ds.foldl (fun a d => a / d) (-n) := by
        unfold ofSize; unfold InLong at hb; omega
      simp only [divide, if_pos hne, carP_pair hv ht, numberArg_ok hx, cdrP_pair hv ht, ok_bind, if_pos hneg,
        ckLong_ok hm, divideLoop_ok h' hf hp2 true (show 0 ≤ -n by omega), hof, if_true, ckLong_ok hb2,
        makeNumber_ok hr]
      rw [← foldl_tdiv_nonneg hp1 (by omega), foldl_tdiv_neg, Int.neg_neg]
    · have hrange := foldl_ediv_range hp1 (show 0 ≤ n by omega)
      have hof : ofSize (ds.foldl (fun a d => a / d) n) = ds.foldl (fun a d => a / d) n := by
        unfold ofSize; omega
      simp only [divide, if_pos hne, carP_pair hv ht, numberArg_ok hx, cdrP_pair hv ht, ok_bind, if_neg hneg,
        divideLoop_ok h' hf hp2 false (show 0 ≤ n by omega), hof, Bool.false_eq_true, if_false,
        makeNumber_ok hr]
      rw [← foldl_tdiv_nonneg hp1 (by omega)]

/-- A zero divisor is an error, provided the quotient before it is not already zero (then the loop has stopped).
Missing from C20: the zero divisor behind a zero quotient, which is ignored. -/
theorem C20_divide_zero_partial {n : Int} {ds es : List Int} (h : Numbers s x (n :: (ds ++ 0 :: es)))
    (hf : ds.length < fuel) (hn : Word n) (hmin : n ≠ -2 ^ 63) (hpos : ∀ d ∈ ds, 0 < d ∧ Word d)
    (hnz : ds = [] ∨ ds.dropLast.foldl Int.tdiv n ≠ 0) : divide s fuel x = err .divideByZero := by
  have hp2 : ∀ d ∈ ds, 0 < d ∧ d ≤ 9223372036854775807 := fun d hd => by
    have := hpos d hd; unfold Word at this; omega
  have hp1 : ∀ d ∈ ds.dropLast, 0 < d := fun d hd => (hpos d (List.dropLast_subset _ hd)).1
  unfold Word at hn
  cases h with
  | cons hne hv ht hx h' =>
    by_cases hneg : n < 0
    · have hm : InLong (-n) := by unfold InLong; omega
      have hz : ds = [] ∨ ds.dropLast.foldl (fun a d => a / d) (-n) ≠ 0 := by
        rcases hnz with hnz | hnz
        · exact .inl hnz
        · right; rw [← foldl_tdiv_nonneg hp1 (by omega), foldl_tdiv_neg]; omega
      simp only [divide, if_pos hne, carP_pair hv ht, numberArg_ok hx, cdrP_pair hv ht, ok_bind, if_pos hneg,
        ckLong_ok hm, divideLoop_zero h' hf hp2 true (show 0 ≤ -n by omega) hz, err_bind]
    · have hz : ds = [] ∨ ds.dropLast.foldl (fun a d => a / d) n ≠ 0 := by
        rcases hnz with hnz | hnz
        · exact .inl hnz
        · right; rw [← foldl_tdiv_nonneg hp1 (by omega)]; exact hnz
      simp only [divide, if_pos hne, carP_pair hv ht, numberArg_ok hx, cdrP_pair hv ht, ok_bind, if_neg hneg,
        divideLoop_zero h' hf hp2 false (show 0 ≤ n by omega) hz, err_bind]

/-- The list (-17 5 2) at 121. -/
def divList : St := sample [num (-17), num 5, num 2, pair 118 c_nil, pair 117 119, pair 116 120]
example : Numbers divList 121 [-17, 5, 2] ∧ Room divList 1 ∧ Word (-17) ∧ (-17 : Int) ≠ -2 ^ 63 ∧
    (∀ d ∈ [(5 : Int), 2], 0 < d ∧ Word d) := by
  refine ⟨.cons (by decide) (by decide) rfl ⟨by decide, rfl, rfl⟩
    (.cons (by decide) (by decide) rfl ⟨by decide, rfl, rfl⟩
      (.cons (by decide) (by decide) rfl ⟨by decide, rfl, rfl⟩ .nil)), ⟨by decide, by decide⟩, ?_, by decide, ?_⟩
  · unfold Word; decide
  · unfold Word; decide
example : resultValue (divide divList 10 121) = ok (-1) := by decide
/-- The zero divisor behind a zero quotient is ignored: (/ 0 1 0) is 0. -/
example : resultValue (divide (sample [num 0, num 1, pair 116 c_nil, pair 117 118, pair 116 119]) 10 120) = ok 0 := by
  decide

/-! ## C21: modulo -/

/-- The full property: the result has the sign of the modulus, is smaller in magnitude and congruent to the argument. -/
def ModuloCorrect : Prop :=
  ∀ (s : St) (fuel : Nat) (a b n m : Int), Room s 1 → IsNum s a n → IsNum s b m → Word n → Word m → m ≠ 0 →
    n.natAbs < fuel → ∃ r s', modulo s fuel a b = ok (r, s') ∧ IsNum s' r (Int.fmod n m)

/-- (modulo 5 -3) is -2 instead of -1. -/
theorem C21_modulo_false : ¬ ModuloCorrect := by
  intro h
  let s := sample [num 5, num (-3)]
  obtain ⟨r, s', he, hn⟩ := h s 10 116 117 5 (-3) ⟨by decide, by decide⟩ ⟨by decide, rfl, rfl⟩ ⟨by decide, rfl, rfl⟩
    (by unfold Word; decide) (by unfold Word; decide) (by decide) (by decide)
  have h1 : resultValue (modulo s 10 116 117) = ok (-2) := by decide
  rw [he] at h1
  simp only [resultValue, ok_bind, St.cdr_ok hn.valid, hn.value] at h1
  exact absurd h1 (by decide)

/-- What modulo computes for every modulus except 0 and the smallest word: the remainder modulo the absolute value,
negated for a negative modulus. -/
theorem modulo_value {a b n m : Int} (hr : Room s 1) (ha : IsNum s a n) (hb : IsNum s b m) (hn : Word n)
    (hm : Word m) (h0 : m ≠ 0) (hmin : m ≠ -2 ^ 63) (hf : n.natAbs < fuel) :
    ∃ r s', modulo s fuel a b = ok (r, s') ∧ IsNum s' r (if m < 0 then - (n % m) else n % m) ∧ Ext s s' := by
  refine ⟨_, _, ?_, hr.push_isNum _, push_ext ..⟩
  have hn' := word_inLong.1 hn
  unfold Word at hn hm
  by_cases hneg : m < 0
  · have hk : InLong (-m) := by unfold InLong; omega
    have hpos : 0 < -m := by omega
    have hu : (if toSize (if n < 0 then n % -m else n) ≠ 0 then toSize (if n < 0 then n % -m else n) % -m
        else toSize (if n < 0 then n % -m else n)) = n % -m := by
      have hr1 := Int.emod_nonneg n (show -m ≠ 0 by omega); have hr2 := Int.emod_lt_of_pos n hpos
      by_cases h : n < 0
      · have : toSize (n % -m) = n % -m := by unfold toSize; omega
        simp only [if_pos h, this]
        split
        · rw [Int.emod_emod]
        · rfl
      · have : toSize n = n := by unfold toSize; omega
        simp only [if_neg h, this]
        split
        · rfl
        · next h => simp at h; simp [h]
    have hr1 := Int.emod_nonneg n (show -m ≠ 0 by omega); have hr2 := Int.emod_lt_of_pos n hpos
    have hof : ofSize (n % -m) = n % -m := by unfold ofSize; omega
    have hin : InLong (-(n % -m)) := by unfold InLong; omega
    simp only [modulo, numberArg_ok ha, numberArg_ok hb, ok_bind, if_neg h0, if_pos hneg, ckLong_ok hk,
      modLoop_ok hpos (by omega) hn' hf, hu, hof, if_true, ckLong_ok hin, makeNumber_ok hr]
    rw [Int.emod_neg]
  · have hpos : 0 < m := by omega
    have hu : (if toSize (if n < 0 then n % m else n) ≠ 0 then toSize (if n < 0 then n % m else n) % m
        else toSize (if n < 0 then n % m else n)) = n % m := by
      have hr1 := Int.emod_nonneg n (show m ≠ 0 by omega); have hr2 := Int.emod_lt_of_pos n hpos
      by_cases h : n < 0
      · have : toSize (n % m) = n % m := by unfold toSize; omega
        simp only [if_pos h, this]
        split
        · rw [Int.emod_emod]
        · rfl
      · have : toSize n = n := by unfold toSize; omega
        simp only [if_neg h, this]
        split
        · rfl
        · next h => simp at h; simp [h]
    have hr1 := Int.emod_nonneg n (show m ≠ 0 by omega); have hr2 := Int.emod_lt_of_pos n hpos
    have hof : ofSize (n % m) = n % m := by unfold ofSize; omega
    simp only [modulo, numberArg_ok ha, numberArg_ok hb, ok_bind, if_neg h0, if_neg hneg,
      modLoop_ok hpos (by omega) hn' hf, hu, hof, Bool.false_eq_true, if_false, makeNumber_ok hr]

/-- For a positive modulus the result lies in [0, m) and differs from the argument by a multiple of m. -/
theorem C21_modulo_partial {a b n m : Int} (hr : Room s 1) (ha : IsNum s a n) (hb : IsNum s b m) (hn : Word n)
    (hm : Word m) (h0 : 0 < m) (hf : n.natAbs < fuel) :
    ∃ r s' v q, modulo s fuel a b = ok (r, s') ∧ IsNum s' r v ∧ 0 ≤ v ∧ v < m ∧ n = m * q + v ∧ Ext s s' := by
  obtain ⟨r, s', h1, h2, h3⟩ := modulo_value (fuel := fuel) hr ha hb hn hm (by omega) (by omega) hf
  rw [if_neg (by omega)] at h2
  exact ⟨r, s', n % m, n / m, h1, h2, Int.emod_nonneg _ (by omega), Int.emod_lt_of_pos _ h0,
    by rw [Int.mul_comm]; exact (Int.mul_comm .. ▸ Int.mul_ediv_add_emod n m).symm, h3⟩

/-- For a negative modulus the result is right exactly when the remainder is zero or half the modulus. -/
theorem C21_modulo_negative_partial {a b n m : Int} (hr : Room s 1) (ha : IsNum s a n) (hb : IsNum s b m) (hn : Word n)
    (hm : Word m) (h0 : m < 0) (hmin : m ≠ -2 ^ 63) (hf : n.natAbs < fuel) :
    ∃ r s' v, modulo s fuel a b = ok (r, s') ∧ IsNum s' r v ∧
      (v = Int.fmod n m ↔ n % m = 0 ∨ 2 * (n % m) = -m) := by
  obtain ⟨r, s', h1, h2, h3⟩ := modulo_value (fuel := fuel) hr ha hb hn hm (by omega) hmin hf
  rw [if_pos h0] at h2
  refine ⟨r, s', _, h1, h2, ?_⟩
  rw [Int.fmod_eq_emod]
  by_cases hd : n % m = 0
  · have : m ∣ n := Int.dvd_of_emod_eq_zero hd
    simp [hd, this]
  · have : ¬ m ∣ n := fun h => hd (Int.emod_eq_zero_of_dvd h)
    rw [if_neg (by omega)]
    omega

/-- A zero modulus is an error. -/
theorem C21_modulo_zero {a b n : Int} (ha : IsNum s a n) (hb : IsNum s b 0) :
    modulo s fuel a b = err .divideByZero := by
  simp [modulo, numberArg_ok ha, numberArg_ok hb]

example : Room (sample [num (-17), num 5]) 1 ∧ IsNum (sample [num (-17), num 5]) 116 (-17) ∧
    IsNum (sample [num (-17), num 5]) 117 5 ∧ Word (-17) ∧ Word 5 :=
  ⟨⟨by decide, by decide⟩, ⟨by decide, rfl, rfl⟩, ⟨by decide, rfl, rfl⟩, by unfold Word; decide, by unfold Word; decide⟩
example : resultValue (modulo (sample [num (-17), num 5]) 20 116 117) = ok 3 := by decide

/-! ## C22: bitwise operators and shifts -/

/-- Bit k of (logand n ...) is set exactly when it is set in every argument. -/
theorem C22_logand (hr : Room s 1) (h : Numbers s x ns) (hf : ns.length < fuel) :
    ∃ r s' v, logand s fuel x = ok (r, s') ∧ IsNum s' r v ∧ Word v ∧ (∀ k < 64, bit v k ↔ ∀ n ∈ ns, bit n k) ∧
      Ext s s' := by
  refine ⟨_, _, _, ?_, hr.push_isNum (ns.foldl andLong (-1)), ?_, ?_, push_ext ..⟩
  · simp only [logand, foldNumbers_eq _ h hf, foldRes_pure, ok_bind, makeNumber_ok hr]
  · exact word_foldl (fun a b => word_toInt _) (by unfold Word; decide)
  · intro k hk
    have h1 : bit (-1) k := by
      have := bit_not 0 hk
      have e : notLong 0 = -1 := by decide
      rw [e] at this; rw [this]; unfold bit; simp
    simp [bit_foldl_and hk, h1]

/-- Bit k of (logior n ...) is set exactly when it is set in some argument. -/
theorem C22_logior (hr : Room s 1) (h : Numbers s x ns) (hf : ns.length < fuel) :
    ∃ r s' v, logior s fuel x = ok (r, s') ∧ IsNum s' r v ∧ Word v ∧ (∀ k < 64, bit v k ↔ ∃ n ∈ ns, bit n k) ∧
      Ext s s' := by
  refine ⟨_, _, _, ?_, hr.push_isNum (ns.foldl orLong 0), ?_, ?_, push_ext ..⟩
  · simp only [logior, foldNumbers_eq _ h hf, foldRes_pure, ok_bind, makeNumber_ok hr]
  · exact word_foldl (fun a b => word_toInt _) (by unfold Word; decide)
  · intro k hk
    have h1 : ¬ bit 0 k := by unfold bit; simp
    simp [bit_foldl_or hk, h1]

/-- Bit k of (logxor n ...) is set exactly when it is set in an odd number of arguments. -/
theorem C22_logxor (hr : Room s 1) (h : Numbers s x ns) (hf : ns.length < fuel) :
    ∃ r s' v, logxor s fuel x = ok (r, s') ∧ IsNum s' r v ∧ Word v ∧
      (∀ k < 64, bit v k ↔ (ns.filter (fun n => decide (bit n k))).length % 2 = 1) ∧ Ext s s' := by
  refine ⟨_, _, _, ?_, hr.push_isNum (ns.foldl xorLong 0), ?_, ?_, push_ext ..⟩
  · simp only [logxor, foldNumbers_eq _ h hf, foldRes_pure, ok_bind, makeNumber_ok hr]
  · exact word_foldl (fun a b => word_toInt _) (by unfold Word; decide)
  · intro k hk
    have h1 : ¬ bit 0 k := by unfold bit; simp
    simp only [bit_foldl_xor hk, h1, false_iff]; omega

/-- Bit k of (lognot n) is set exactly when it is not set in n. -/
theorem C22_lognot {p n : Int} (hr : Room s 1) (h : IsNum s p n) :
    ∃ r s' v, lognot s p = ok (r, s') ∧ IsNum s' r v ∧ Word v ∧ (∀ k < 64, bit v k ↔ ¬ bit n k) ∧ Ext s s' := by
  refine ⟨_, _, _, ?_, hr.push_isNum (notLong n), word_toInt _, fun k hk => bit_not n hk, push_ext ..⟩
  simp only [lognot, numberArg_ok h, ok_bind, makeNumber_ok hr]

/-- The full property for shifts of any amount. -/
def AshCorrect : Prop :=
  ∀ (s : St) (a b n k : Int), Room s 1 → IsNum s a n → IsNum s b k → Word n → Word k →
    (0 ≤ k → Word (n * 2 ^ k.toNat) →
      ∃ r s', ash s a b = ok (r, s') ∧ IsNum s' r (n * 2 ^ k.toNat)) ∧
    (k < 0 → ∃ r s', ash s a b = ok (r, s') ∧ IsNum s' r (n / 2 ^ (-k).toNat))

/-- A shift by the word size or more is undefined in C, although the result would fit: (ash 5 -64). -/
theorem C22_ash_false : ¬ AshCorrect := by
  intro h
  let s := sample [num 5, num (-64)]
  obtain ⟨r, s', he, -⟩ := (h s 116 117 5 (-64) ⟨by decide, by decide⟩ ⟨by decide, rfl, rfl⟩ ⟨by decide, rfl, rfl⟩
    (by unfold Word; decide) (by unfold Word; decide)).2 (by decide)
  have hash : ash s 116 117 = ub := by
    simp only [ash, numberArg_ok (s := s) (p := 116) (n := 5) ⟨by decide, rfl, rfl⟩,
      numberArg_ok (s := s) (p := 117) (n := -64) ⟨by decide, rfl, rfl⟩, ok_bind]
    rfl
  rw [hash] at he; cases he

/-- For shift counts below the word size: n*2^k for k ≥ 0 when it fits, the floor of n/2^-k for k < 0.  Missing from
C22: counts of 64 and more. -/
theorem C22_ash_partial {a b n k : Int} (hr : Room s 1) (ha : IsNum s a n) (hb : IsNum s b k) (hk : -64 < k)
    (hk2 : k < 64) :
    (0 ≤ k → Word (n * 2 ^ k.toNat) → ∃ r s', ash s a b = ok (r, s') ∧ IsNum s' r (n * 2 ^ k.toNat) ∧ Ext s s') ∧
    (k < 0 → ∃ r s', ash s a b = ok (r, s') ∧ IsNum s' r (n / 2 ^ (-k).toNat) ∧ Ext s s') := by
  constructor
  · intro h0 hfit
    refine ⟨_, _, ?_, hr.push_isNum _, push_ext ..⟩
    simp only [ash, numberArg_ok ha, numberArg_ok hb, ok_bind, if_neg (show ¬ k < 0 by omega), ubUnless_true hk2,
      ofSize_toSize (word_inLong.1 hfit), makeNumber_ok hr]
  · intro h0
    refine ⟨_, _, ?_, hr.push_isNum _, push_ext ..⟩
    have h1 : InLong (-k) := by unfold InLong; omega
    simp only [ash, numberArg_ok ha, numberArg_ok hb, ok_bind, if_pos h0, ckLong_ok h1,
      ubUnless_true (show -k < 64 by omega), makeNumber_ok hr]

example : IsNum (sample [num (-17), num 3]) 116 (-17) ∧ IsNum (sample [num (-17), num 3]) 117 3 :=
  ⟨⟨by decide, rfl, rfl⟩, ⟨by decide, rfl, rfl⟩⟩
example : resultValue (ash (sample [num (-17), num 3]) 116 117) = ok (-136) := by decide
example : resultValue (ash (sample [num (-17), num (-3)]) 116 117) = ok (-3) := by decide
example : resultValue (logand twoLists 10 121) = ok 0 := by decide
example : resultValue (logior twoLists 10 121) = ok (-5) := by decide

end Mes.Props
