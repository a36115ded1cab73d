import Verif.Proof.Heap
import Verif.Spec.Math
import Verif.Model.Math
namespace Mes
open Res Spec

variable {s : St}

theorem carP_pair {p : Int} (hv : s.Valid p) (ht : (s.cell p).tag = .pair) : carP s p = ok (s.cell p).car := by
  simp [carP, hv, ht]
theorem cdrP_pair {p : Int} (hv : s.Valid p) (ht : (s.cell p).tag = .pair) : cdrP s p = ok (s.cell p).cdr := by
  simp [cdrP, hv, ht]

theorem numberArg_ok {p n : Int} (h : IsNum s p n) : numberArg s p = ok n := by
  simp [numberArg, h.valid, h.tag, h.value]

theorem numberArg_err {p : Int} (hv : s.Valid p) (ht : (s.cell p).tag ≠ .number) :
    numberArg s p = err .notANumber := by
  simp [numberArg, hv, ht]

/-- `foldlM` in `Res`, with plain names. -/
def foldRes (op : Int → Int → Res Int) : Int → List Int → Res Int
  | n, [] => ok n
  | n, v :: vs => op n v >>= fun n => foldRes op n vs

theorem foldNumbers_eq (op : Int → Int → Res Int) {fuel : Nat} {x : Int} {ns : List Int} (h : Numbers s x ns)
    (hf : ns.length < fuel) (n : Int) : foldNumbers s op fuel n x = foldRes op n ns := by
  induction h generalizing fuel n with
  | nil => obtain ⟨fuel, rfl⟩ : ∃ f, fuel = f + 1 := ⟨fuel - 1, by simp at hf; omega⟩; simp [foldNumbers, foldRes]
  | cons hne hv ht hx _ ih =>
    obtain ⟨fuel, rfl⟩ : ∃ f, fuel = f + 1 := ⟨fuel - 1, by simp at hf; omega⟩
    simp only [foldNumbers, if_neg hne, carP_pair hv ht, cdrP_pair hv ht, numberArg_ok hx, Res.ok_bind, foldRes]
    congr 1; funext m
    exact ih (by simpa using hf) m

/-- Numbers followed by a value that is not a number, followed by anything. -/
inductive NumbersThen (s : St) : Int → List Int → Prop
  | bad {p : Int} (hne : p ≠ c_nil) (hv : s.Valid p) (ht : (s.cell p).tag = .pair) (hb : s.Valid (s.cell p).car)
      (hn : (s.cell (s.cell p).car).tag ≠ .number) : NumbersThen s p []
  | cons {p n : Int} {ns : List Int} (hne : p ≠ c_nil) (hv : s.Valid p) (ht : (s.cell p).tag = .pair)
      (hx : IsNum s (s.cell p).car n) (h : NumbersThen s (s.cell p).cdr ns) : NumbersThen s p (n :: ns)

theorem foldNumbers_bad (op : Int → Int → Res Int) {fuel : Nat} {x : Int} {ns : List Int} (h : NumbersThen s x ns)
    (hf : ns.length < fuel) (n : Int) :
    foldNumbers s op fuel n x = (foldRes op n ns >>= fun _ => err .notANumber) := by
  induction h generalizing fuel n with
  | bad hne hv ht hb hn =>
    obtain ⟨fuel, rfl⟩ : ∃ f, fuel = f + 1 := ⟨fuel - 1, by simp at hf; omega⟩
    simp [foldNumbers, foldRes, hne, carP_pair hv ht, numberArg_err hb hn]
  | cons hne hv ht hx _ ih =>
    obtain ⟨fuel, rfl⟩ : ∃ f, fuel = f + 1 := ⟨fuel - 1, by simp at hf; omega⟩
    simp only [foldNumbers, if_neg hne, carP_pair hv ht, cdrP_pair hv ht, numberArg_ok hx, Res.ok_bind, foldRes,
      Res.bind_assoc']
    congr 1; funext m
    exact ih (by simpa using hf) m

theorem ckLong_ok {n : Int} (h : InLong n) : ckLong n = ok n := by simp [ckLong, h]
theorem ckLong_ub {n : Int} (h : ¬ InLong n) : ckLong n = ub := by simp [ckLong, h]

theorem foldRes_add {n : Int} {ns : List Int} (h : ∀ k, InLong (n + (ns.take k).sum)) :
    foldRes (fun n v => ckLong (n + v)) n ns = ok (n + ns.sum) := by
  induction ns generalizing n with
  | nil => simp [foldRes]
  | cons v vs ih =>
    have h1 := h 1
    simp at h1
    simp only [foldRes, ckLong_ok h1, ok_bind]
    rw [ih]
    · simp; omega
    · intro k; have := h (k + 1); simp at this; rw [Int.add_assoc]; exact this

theorem foldRes_sub {n : Int} {ns : List Int} (h : ∀ k, InLong (n - (ns.take k).sum)) :
    foldRes (fun n v => ckLong (n - v)) n ns = ok (n - ns.sum) := by
  induction ns generalizing n with
  | nil => simp [foldRes]
  | cons v vs ih =>
    have h1 := h 1
    simp at h1
    simp only [foldRes, ckLong_ok h1, ok_bind]
    rw [ih]
    · simp; omega
    · intro k; have := h (k + 1); simp at this
      rw [show n - v - (vs.take k).sum = n - (v + (vs.take k).sum) by omega]; exact this

/-- Product of a list. -/
theorem foldRes_mul {n : Int} {ns : List Int} (h : ∀ k, InLong (n * (ns.take k).foldr (· * ·) 1)) :
    foldRes (fun n v => ckLong (n * v)) n ns = ok (n * ns.foldr (· * ·) 1) := by
  induction ns generalizing n with
  | nil => simp [foldRes]
  | cons v vs ih =>
    have h1 := h 1
    simp at h1
    simp only [foldRes, ckLong_ok h1, ok_bind]
    rw [ih]
    · simp [Int.mul_assoc]
    · intro k; have := h (k + 1); simp at this; rw [Int.mul_assoc]; exact this

/-- If a partial result does not fit, the fold is undefined. -/
theorem foldRes_ub {f : Int → Int → Int} {n : Int} {ns : List Int} (hn : InLong n) {k : Nat}
    (h : ¬ InLong ((ns.take k).foldl f n)) : foldRes (fun n v => ckLong (f n v)) n ns = ub := by
  induction ns generalizing n k with
  | nil => simp at h; exact absurd hn h
  | cons v vs ih =>
    cases k with
    | zero => simp at h; exact absurd hn h
    | succ k =>
      simp at h
      simp only [foldRes]
      by_cases hv : InLong (f n v)
      · rw [ckLong_ok hv, ok_bind]; exact ih hv h
      · rw [ckLong_ub hv]; rfl

theorem foldRes_pure {f : Int → Int → Int} {n : Int} {ns : List Int} :
    foldRes (fun n v => ok (f n v)) n ns = ok (ns.foldl f n) := by
  induction ns generalizing n with
  | nil => rfl
  | cons v vs ih => simp only [foldRes, ok_bind, List.foldl_cons]; exact ih

end Mes

namespace Mes
open Res Spec

/-! ### Bits -/

theorem getLsbD_ofInt (n : Int) {k : Nat} (hk : k < 64) : (BitVec.ofInt 64 n).getLsbD k = decide (bit n k) := by
  have e2 : (2 : Int) ^ 64 = 2 ^ k * 2 ^ (64 - k) := by rw [← Int.pow_add]; congr 1; omega
  have hpos : (0 : Int) < 2 ^ k := Int.pow_pos (by decide)
  rw [BitVec.getLsbD, BitVec.toNat_ofInt, Nat.testBit_eq_decide_div_mod_eq]
  congr 1
  apply propext
  unfold bit
  have hn : (((n % ((2 ^ 64 : Nat) : Int)).toNat : Nat) : Int) = n % 2 ^ 64 := by
    rw [Int.toNat_of_nonneg (Int.emod_nonneg _ (by decide))]; rfl
  have h2 : (((n % ((2 ^ 64 : Nat) : Int)).toNat / 2 ^ k % 2 : Nat) : Int) = n / 2 ^ k % 2 := by
    rw [Int.natCast_emod, Int.natCast_ediv, hn]
    have e1 : ((2 ^ k : Nat) : Int) = (2 : Int) ^ k := by simp
    rw [e1]
    have hd : n = n % 2 ^ 64 + 2 ^ k * (2 ^ (64 - k) * (n / 2 ^ 64)) := by
      rw [← Int.mul_assoc, ← e2, Int.emod_add_mul_ediv]
    have hs : (2 : Int) ^ (64 - k) = 2 * 2 ^ (63 - k) := by
      rw [show 64 - k = (63 - k) + 1 by omega, Int.pow_succ]; omega
    have hdiv : n / 2 ^ k = (n % 2 ^ 64) / 2 ^ k + 2 * (2 ^ (63 - k) * (n / 2 ^ 64)) := by
      conv => lhs; rw [hd]
      rw [Int.add_mul_ediv_left _ _ (by omega), hs, Int.mul_assoc]
    rw [hdiv, Int.add_mul_emod_self_left]
    rfl
  omega

theorem bit_toInt (v : BitVec 64) {k : Nat} (hk : k < 64) : bit v.toInt k ↔ v.getLsbD k = true := by
  have := getLsbD_ofInt v.toInt hk
  rw [BitVec.ofInt_toInt] at this
  rw [this]; simp

theorem bit_and (a b : Int) {k : Nat} (hk : k < 64) : bit (andLong a b) k ↔ bit a k ∧ bit b k := by
  unfold andLong; rw [bit_toInt _ hk, BitVec.getLsbD_and, getLsbD_ofInt a hk, getLsbD_ofInt b hk]; simp
theorem bit_or (a b : Int) {k : Nat} (hk : k < 64) : bit (orLong a b) k ↔ bit a k ∨ bit b k := by
  unfold orLong; rw [bit_toInt _ hk, BitVec.getLsbD_or, getLsbD_ofInt a hk, getLsbD_ofInt b hk]; simp
theorem bit_xor (a b : Int) {k : Nat} (hk : k < 64) : bit (xorLong a b) k ↔ (bit a k ↔ ¬ bit b k) := by
  unfold xorLong; rw [bit_toInt _ hk, BitVec.getLsbD_xor, getLsbD_ofInt a hk, getLsbD_ofInt b hk]
  by_cases h1 : bit a k <;> by_cases h2 : bit b k <;> simp [h1, h2]
theorem bit_not (a : Int) {k : Nat} (hk : k < 64) : bit (notLong a) k ↔ ¬ bit a k := by
  unfold notLong; rw [bit_toInt _ hk, BitVec.getLsbD_not, getLsbD_ofInt a hk]; simp [hk]

theorem word_toInt (v : BitVec 64) : Word v.toInt := by
  have h1 := BitVec.le_toInt v; have h2 := BitVec.toInt_lt (x := v)
  unfold Word; exact ⟨h1, h2⟩

theorem word_inLong {n : Int} : Word n ↔ InLong n := by unfold Word InLong; omega

theorem bit_foldl_and {ns : List Int} {n : Int} {k : Nat} (hk : k < 64) :
    bit (ns.foldl andLong n) k ↔ bit n k ∧ ∀ v ∈ ns, bit v k := by
  induction ns generalizing n with
  | nil => simp
  | cons v vs ih => rw [List.foldl_cons, ih, bit_and _ _ hk]; simp [and_assoc]

theorem bit_foldl_or {ns : List Int} {n : Int} {k : Nat} (hk : k < 64) :
    bit (ns.foldl orLong n) k ↔ bit n k ∨ ∃ v ∈ ns, bit v k := by
  induction ns generalizing n with
  | nil => simp
  | cons v vs ih => rw [List.foldl_cons, ih, bit_or _ _ hk]; simp [or_assoc]

theorem bit_foldl_xor {ns : List Int} {n : Int} {k : Nat} (hk : k < 64) :
    bit (ns.foldl xorLong n) k ↔ (bit n k ↔ (ns.filter (fun v => decide (bit v k))).length % 2 = 0) := by
  induction ns generalizing n with
  | nil => simp
  | cons v vs ih =>
    rw [List.foldl_cons, ih, bit_xor _ _ hk]
    by_cases h1 : bit n k <;> by_cases h2 : bit v k <;> simp [h1, h2] <;> omega

theorem word_foldl {f : Int → Int → Int} (hf : ∀ a b, Word (f a b)) {ns : List Int} {n : Int} (hn : Word n) :
    Word (ns.foldl f n) := by
  induction ns generalizing n with
  | nil => exact hn
  | cons v vs ih => exact ih (hf _ _)

theorem ofSize_toSize {n : Int} (h : InLong n) : ofSize (toSize n) = n := by
  unfold ofSize toSize InLong at *; omega

/-! ### modulo -/

theorem modLoop_ok {w : Int} (hw : 0 < w) (hw2 : w ≤ 9223372036854775807) {fuel : Nat} {n : Int} (hn : InLong n)
    (hf : n.natAbs < fuel) : modLoop w fuel n = ok (if n < 0 then n % w else n) := by
  induction fuel generalizing n with
  | zero => omega
  | succ fuel ih =>
    unfold modLoop
    by_cases h : n < 0
    · have e : ofSize (toSize (toSize n + w)) = n + w := by unfold InLong at hn; unfold ofSize toSize; omega
      rw [if_pos h, e, if_pos h]
      have hin : InLong (n + w) := by unfold InLong at *; omega
      by_cases h2 : n + w < 0
      · rw [ih hin (by omega), if_pos h2, Int.add_emod_right]
      · rw [show fuel = (fuel - 1) + 1 by omega]
        unfold modLoop
        rw [if_neg h2]
        congr 1
        rw [← Int.add_emod_right, Int.emod_eq_of_lt (by omega) (by omega)]
    · rw [if_neg h, if_neg h]

/-! ### divide -/

theorem divideLoop_ok {fuel : Nat} {x : Int} {ds : List Int} (h : Numbers s x ds) (hf : ds.length < fuel)
    (hpos : ∀ d ∈ ds, 0 < d ∧ d ≤ 9223372036854775807) (sign : Bool) {u : Int} (hu : 0 ≤ u) :
    divideLoop s fuel sign u x = ok (sign, ds.foldl (fun a d => a / d) u) := by
  induction h generalizing fuel u with
  | nil => obtain ⟨fuel, rfl⟩ : ∃ f, fuel = f + 1 := ⟨fuel - 1, by simp at hf; omega⟩; simp [divideLoop]
  | @cons p d ds hne hv ht hx _ ih =>
    obtain ⟨fuel, rfl⟩ : ∃ f, fuel = f + 1 := ⟨fuel - 1, by simp at hf; omega⟩
    have hd := hpos d (by simp)
    have hsign : ((sign && decide (d > 0)) || (!sign && decide (d < 0))) = sign := by
      have h1 : decide (d > 0) = true := by simp [hd.1]
      have h2 : decide (d < 0) = false := by simp; omega
      rw [h1, h2]; simp
    have hw : toSize d = d := by unfold toSize; omega
    simp only [divideLoop, if_neg hne, carP_pair hv ht, cdrP_pair hv ht, numberArg_ok hx, ok_bind, hsign, hw,
      if_neg (show ¬ d = 0 by omega), List.foldl_cons]
    by_cases h0 : u = 0
    · subst h0
      have hz : ∀ l : List Int, l.foldl (fun a d => a / d) 0 = 0 := by
        intro l; induction l with
        | nil => rfl
        | cons e es ihe => simpa using ihe
      rw [if_pos rfl, Int.zero_ediv, hz]
    · rw [if_neg h0]
      have hu' : (if d ≠ 1 then u / d else u) = u / d := by
        by_cases h1 : d = 1
        · simp [h1]
        · simp [h1]
      rw [hu']
      exact ih (by simpa using hf) (fun e he => hpos e (by simp [he])) (Int.ediv_nonneg hu (by omega))

theorem foldl_ediv_range {ds : List Int} (hpos : ∀ d ∈ ds, 0 < d) {u : Int} (hu : 0 ≤ u) :
    0 ≤ ds.foldl (fun a d => a / d) u ∧ ds.foldl (fun a d => a / d) u ≤ u := by
  induction ds generalizing u with
  | nil => simpa using hu
  | cons d ds ih =>
    have hd := hpos d (by simp)
    have h1 := Int.ediv_nonneg hu (show 0 ≤ d by omega)
    have h2 : u / d ≤ u := Int.ediv_le_self d hu
    have := ih (fun e he => hpos e (by simp [he])) h1
    simp only [List.foldl_cons]; omega

theorem foldl_tdiv_nonneg {ds : List Int} (hpos : ∀ d ∈ ds, 0 < d) {u : Int} (hu : 0 ≤ u) :
    ds.foldl Int.tdiv u = ds.foldl (fun a d => a / d) u := by
  induction ds generalizing u with
  | nil => rfl
  | cons d ds ih =>
    have hd := hpos d (by simp)
    simp only [List.foldl_cons]
    rw [Int.tdiv_eq_ediv_of_nonneg hu]
    exact ih (fun e he => hpos e (by simp [he])) (Int.ediv_nonneg hu (by omega))

theorem foldl_tdiv_neg {ds : List Int} {u : Int} : ds.foldl Int.tdiv (-u) = - ds.foldl Int.tdiv u := by
  induction ds generalizing u with
  | nil => rfl
  | cons d ds ih => simp only [List.foldl_cons, Int.neg_tdiv]; exact ih

/-- A zero divisor reached with a non-zero quotient so far. -/
theorem divideLoop_zero {fuel : Nat} {x : Int} {ds es : List Int} (h : Numbers s x (ds ++ 0 :: es))
    (hf : ds.length < fuel) (hpos : ∀ d ∈ ds, 0 < d ∧ d ≤ 9223372036854775807) (sign : Bool) {u : Int} (hu : 0 ≤ u)
    (hnz : ds = [] ∨ ds.dropLast.foldl (fun a d => a / d) u ≠ 0) :
    divideLoop s fuel sign u x = err .divideByZero := by
  obtain ⟨fuel, rfl⟩ : ∃ f, fuel = f + 1 := ⟨fuel - 1, by omega⟩
  induction ds generalizing fuel u x with
  | nil =>
    cases h with
    | cons hne hv ht hx h' =>
      simp [divideLoop, hne, carP_pair hv ht, numberArg_ok hx]
  | cons d ds ih =>
    cases h with
    | cons hne hv ht hx h' =>
      obtain ⟨fuel, rfl⟩ : ∃ f, fuel = f + 1 := ⟨fuel - 1, by simp at hf; omega⟩
      have hd := hpos d (by simp)
      have hsign : ((sign && decide (d > 0)) || (!sign && decide (d < 0))) = sign := by
        have h1 : decide (d > 0) = true := by simp [hd.1]
        have h2 : decide (d < 0) = false := by simp; omega
        rw [h1, h2]; simp
      have hw : toSize d = d := by unfold toSize; omega
      have hu' : (if d ≠ 1 then u / d else u) = u / d := by
        by_cases h1 : d = 1
        · simp [h1]
        · simp [h1]
      have h0 : u ≠ 0 := by
        rintro rfl
        have hz : ∀ l : List Int, l.foldl (fun a d => a / d) 0 = 0 := by
          intro l; induction l with
          | nil => rfl
          | cons e es ihe => simpa using ihe
        rcases hnz with hnz | hnz
        · simp at hnz
        · exact hnz (hz _)
      rw [divideLoop]
      simp only [if_neg hne, carP_pair hv ht, cdrP_pair hv ht, numberArg_ok hx, ok_bind, hsign, hw,
        if_neg (show ¬ d = 0 by omega), if_neg h0, hu']
      refine ih h' (fun e he => hpos e (by simp [he])) (Int.ediv_nonneg hu (by omega)) ?_ _ (by simpa using hf)
      cases ds with
      | nil => left; rfl
      | cons e ds => right; simpa using hnz

/-! ### Comparison chains -/

theorem neighbours_cons {R : Int → Int → Prop} {a b : Int} {ns : List Int} :
    Neighbours R (a :: b :: ns) ↔ R a b ∧ Neighbours R (b :: ns) := by
  constructor
  · intro h
    refine ⟨h 0 a b (by simp) (by simp), fun i x y hx hy => h (i + 1) x y (by simpa using hx) (by simpa using hy)⟩
  · rintro ⟨h1, h2⟩ i x y hx hy
    cases i with
    | zero => simp at hx hy; subst hx; subst hy; exact h1
    | succ i => exact h2 i x y (by simpa using hx) (by simpa using hy)

theorem neighbours_one {R : Int → Int → Prop} {a : Int} : Neighbours R [a] := by
  intro i x y hx hy; simp at hy

open Classical in
theorem lessLoop_ok {fuel : Nat} {x : Int} {ns : List Int} (h : Numbers s x ns) (hf : ns.length < fuel) (n : Int) :
    lessLoop s fuel n x = ok (if Neighbours (· < ·) (n :: ns) then c_t else c_f) := by
  induction h generalizing fuel n with
  | nil =>
    obtain ⟨fuel, rfl⟩ : ∃ f, fuel = f + 1 := ⟨fuel - 1, by simp at hf; omega⟩
    simp [lessLoop, neighbours_one]
  | @cons p v vs hne hv ht hx _ ih =>
    obtain ⟨fuel, rfl⟩ : ∃ f, fuel = f + 1 := ⟨fuel - 1, by simp at hf; omega⟩
    simp only [lessLoop, if_neg hne, St.car_ok hv, carP_pair hv ht, cdrP_pair hv ht, numberArg_ok hx, ok_bind,
      St.cdr_ok hx.valid, hx.value, neighbours_cons]
    by_cases hvn : v ≤ n
    · rw [if_pos hvn, if_neg (by intro hh; omega)]
    · rw [if_neg hvn, ih (by simpa using hf) v]
      by_cases hh : Neighbours (· < ·) (v :: vs)
      · rw [if_pos hh, if_pos ⟨by omega, hh⟩]
      · rw [if_neg hh, if_neg (fun h => hh h.2)]

open Classical in
theorem greaterLoop_ok {fuel : Nat} {x : Int} {ns : List Int} (h : Numbers s x ns) (hf : ns.length < fuel) (n : Int) :
    greaterLoop s fuel n x = ok (if Neighbours (· > ·) (n :: ns) then c_t else c_f) := by
  induction h generalizing fuel n with
  | nil =>
    obtain ⟨fuel, rfl⟩ : ∃ f, fuel = f + 1 := ⟨fuel - 1, by simp at hf; omega⟩
    simp [greaterLoop, neighbours_one]
  | @cons p v vs hne hv ht hx _ ih =>
    obtain ⟨fuel, rfl⟩ : ∃ f, fuel = f + 1 := ⟨fuel - 1, by simp at hf; omega⟩
    simp only [greaterLoop, if_neg hne, St.car_ok hv, carP_pair hv ht, cdrP_pair hv ht, numberArg_ok hx, ok_bind,
      St.cdr_ok hx.valid, hx.value, neighbours_cons]
    by_cases hvn : v ≥ n
    · rw [if_pos hvn, if_neg (by intro hh; omega)]
    · rw [if_neg hvn, ih (by simpa using hf) v]
      by_cases hh : Neighbours (· > ·) (v :: vs)
      · rw [if_pos hh, if_pos ⟨by omega, hh⟩]
      · rw [if_neg hh, if_neg (fun h => hh h.2)]

open Classical in
theorem isLoop_ok {fuel : Nat} {x : Int} {ns : List Int} (h : Numbers s x ns) (hf : ns.length < fuel) (n : Int) :
    isLoop s n fuel x = ok (if Neighbours (· = ·) (n :: ns) then c_t else c_f) := by
  induction h generalizing fuel with
  | nil =>
    obtain ⟨fuel, rfl⟩ : ∃ f, fuel = f + 1 := ⟨fuel - 1, by simp at hf; omega⟩
    simp [isLoop, neighbours_one]
  | @cons p v vs hne hv ht hx _ ih =>
    obtain ⟨fuel, rfl⟩ : ∃ f, fuel = f + 1 := ⟨fuel - 1, by simp at hf; omega⟩
    simp only [isLoop, if_neg hne, carP_pair hv ht, cdrP_pair hv ht, ok_bind,
      St.cdr_ok hx.valid, hx.value, neighbours_cons]
    by_cases hvn : v = n
    · subst hvn
      rw [if_neg (by simp), ih (by simpa using hf)]
      by_cases hh : Neighbours (· = ·) (v :: vs)
      · rw [if_pos hh, if_pos ⟨rfl, hh⟩]
      · rw [if_neg hh, if_neg (fun h => hh h.2)]
    · rw [if_pos hvn, if_neg (by intro hh; exact hvn hh.1.symm)]

end Mes
